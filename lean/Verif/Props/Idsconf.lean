import Verif.Props.IdsconfLine
import Verif.Props.Idsmap
set_option linter.unusedSimpArgs false
set_option linter.unusedVariables false
/-
C60: the file of user and group mappings.
-/
namespace Silofs.Idsconf

open Silofs.Mnt (splitChr stripWs strtol isWs)
open Silofs.Ids (Ent)

/-! ### A file as lines -/

theorem blank_chr {w : List Nat} (h : Blank w) : ∀ x ∈ w, 0 < x ∧ x < 128 ∧ x ≠ 10 := by
  intro x hx
  rcases h x hx with rfl | rfl | rfl | rfl | rfl <;> decide

theorem comment_chr {c : List Nat} (h : Comment c) : ∀ x ∈ c, 0 < x ∧ x < 128 ∧ x ≠ 10 := by
  intro x hx
  rcases h with rfl | ⟨t, rfl, ht⟩
  · cases hx
  · rcases List.mem_cons.mp hx with rfl | hx
    · decide
    · exact ht x hx

theorem line_chr {l : Line} (h : l.Ok) : ∀ x ∈ l.text, 0 < x ∧ x < 128 ∧ x ≠ 10 := by
  intro x hx
  cases l with
  | blank w c =>
    rcases List.mem_append.mp hx with hx | hx
    · exact blank_chr h.1 x hx
    · exact comment_chr h.2 x hx
  | header s w1 w2 w3 w4 c =>
    obtain ⟨hs, h1, h2, h3, h4, hc⟩ := h
    obtain ⟨_, _, hr, _⟩ := secName_facts s hs
    simp only [Line.text, List.mem_append, List.mem_cons, List.not_mem_nil, or_false] at hx
    rcases hx with ((hx | rfl | ((hx | hx) | hx) | rfl) | hx) | hx
    · exact blank_chr h1 x hx
    · decide
    · exact blank_chr h2 x hx
    · have := hr x hx
      omega
    · exact blank_chr h3 x hx
    · decide
    · exact blank_chr h4 x hx
    · exact comment_chr hc x hx
  | entry name v w1 w2 w3 w4 c =>
    obtain ⟨hn, hlen, hv, h1, h2, h3, h4, hc⟩ := h
    simp only [Line.text, List.mem_append, List.mem_cons] at hx
    rcases hx with ((hx | (hx | hx) | rfl | hx | hx) | hx) | hx
    · exact blank_chr h1 x hx
    · have := hn.2.1 x hx
      omega
    · exact blank_chr h2 x hx
    · decide
    · exact blank_chr h3 x hx
    · have : 48 ≤ x ∧ x ≤ 57 := decN_digits 10 v x hx
      omega
    · exact blank_chr h4 x hx
    · exact comment_chr hc x hx

theorem file_cons (l : Line) (ls : List Line) : fileText (l :: ls) = l.text ++ 10 :: fileText ls := by
  unfold fileText
  simp

theorem file_append (a b : List Line) : fileText (a ++ b) = fileText a ++ fileText b := by
  unfold fileText
  rw [List.flatMap_append]

theorem file_nil {ls : List Line} (h : fileText ls = []) : ls = [] := by
  cases ls with
  | nil => rfl
  | cons l ls =>
    rw [file_cons] at h
    simp at h

theorem file_chr {ls : List Line} (h : ∀ l ∈ ls, l.Ok) : ∀ x ∈ fileText ls, 0 < x ∧ x < 128 := by
  intro x hx
  unfold fileText at hx
  obtain ⟨l, hl, hx⟩ := List.mem_flatMap.mp hx
  rcases List.mem_append.mp hx with hx | hx
  · have := line_chr (h l hl) x hx
    exact ⟨this.1, this.2.1⟩
  · cases List.mem_singleton.mp hx
    decide

theorem lines_file (db : Db) (ls : List Line) (n : Nat) (sec : Sec) (ids : FsIds) (h : ∀ l ∈ ls, l.Ok)
    (hn : (fileText ls).length < n) : parseLines db n (fileText ls) sec ids = meaning db sec ids ls := by
  induction ls generalizing n sec ids with
  | nil =>
    cases n with
    | zero => exact absurd hn (Nat.not_lt_zero _)
    | succ n =>
      show parseLines db (n + 1) [] sec ids = some ids
      rw [parseLines, if_pos ⟨rfl, rfl⟩]
  | cons l ls ih =>
    cases n with
    | zero => exact absurd hn (Nat.not_lt_zero _)
    | succ n =>
      have hl := h l List.mem_cons_self
      have hlen : (fileText ls).length < n := by
        rw [file_cons] at hn
        simp at hn
        omega
      have ih' := fun sec ids => ih n sec ids (fun m hm => h m (List.mem_cons_of_mem _ hm)) hlen
      have hsp : splitChr 10 (fileText (l :: ls)) = (l.text, fileText ls) := by
        rw [file_cons]
        exact splitChr_at (fun hm => (line_chr hl 10 hm).2.2 rfl)
      rw [parseLines, hsp]
      by_cases he : l.text = [] ∧ fileText ls = []
      · rw [if_pos he, file_nil he.2]
        cases l with
        | blank w c => rfl
        | header s w1 w2 w3 w4 c =>
          have := he.1
          simp [Line.text] at this
        | entry name v w1 w2 w3 w4 c =>
          have := he.1
          simp [Line.text] at this
      · rw [if_neg he]
        simp only
        cases l with
        | blank w c =>
          have := line_blank db sec ids hl.1 hl.2
          rw [show (Line.blank w c).text = w ++ c from rfl, this]
          simp only
          rw [ih']
          cases sec <;> rfl
        | header s w1 w2 w3 w4 c =>
          rw [line_header db sec ids hl]
          by_cases hs : s = sec
          · rw [if_pos hs]
            cases sec <;> (simp only [meaning]; rw [if_pos hs])
          · rw [if_neg hs]
            simp only
            rw [ih']
            cases sec <;> (simp only [meaning]; rw [if_neg hs])
        | entry name v w1 w2 w3 w4 c =>
          rw [line_entry db sec ids hl]
          cases sec with
          | nil =>
            simp only [meaning]
            rw [ih']
          | users =>
            simp only [meaning]
            cases uidByName db name with
            | none => rfl
            | some u =>
              simp only
              rw [ih']
          | groups =>
            simp only [meaning]
            cases gidByName db name with
            | none => rfl
            | some u =>
              simp only
              rw [ih']

theorem takeWhile_all {p : Nat → Bool} {s : List Nat} (h : ∀ x ∈ s, p x = true) : s.takeWhile p = s := by
  induction s with
  | nil => rfl
  | cons x s ih =>
    rw [List.takeWhile_cons, if_pos (h x List.mem_cons_self), ih (fun y hy => h y (List.mem_cons_of_mem _ hy))]

/-- C60: a file is read as what its lines say: sections, entries in order, comments and white space
anywhere, lines before the first section ignored; a name the host does not know, or the header of the section
which is open, stop the command. -/
theorem C60_parse (db : Db) (ls : List Line) (h : ∀ l ∈ ls, l.Ok) (hs : (fileText ls).length < 1048576) :
    load db (fileText ls) = meaning db .nil .empty ls := by
  have hc := file_chr h
  unfold load
  rw [if_neg (by omega), if_neg]
  · unfold parse
    rw [takeWhile_all (by intro x hx; have := (hc x hx).1; simp; omega)]
    exact lines_file db ls _ _ _ h (by omega)
  · intro hany
    obtain ⟨x, hx, hd⟩ := List.any_eq_true.mp hany
    have h1 := (hc x hx).2
    have h2 := of_decide_eq_true hd
    omega

/-! ### What is written -/

theorem toUid {db : Db} (hdb : db.Ok) {u : Nat} {name : List Nat} (h : uidToName db u = some name) :
    Word name ∧ name.length < 256 ∧ uidByName db name = some u := by
  unfold uidToName at h
  cases hp : db.pwUid u with
  | none =>
    rw [hp] at h
    cases h
  | some p =>
    rw [hp] at h
    simp only at h
    obtain ⟨e1, e2, e3⟩ := hdb.pw u p hp
    by_cases hb : bufSize db < p.size
    · rw [if_pos hb] at h
      cases h
    · rw [if_neg hb] at h
      by_cases hn : p.name = [] ∨ 256 ≤ p.name.length
      · rw [if_pos hn] at h
        cases h
      · rw [if_neg hn] at h
        cases h
        refine ⟨e3, by omega, ?_⟩
        unfold uidByName
        rw [e2]
        simp only
        rw [if_neg hb, e1]

theorem toGid {db : Db} (hdb : db.Ok) {g : Nat} {name : List Nat} (h : gidToName db g = some name) :
    Word name ∧ name.length < 256 ∧ gidByName db name = some g := by
  unfold gidToName at h
  cases hp : db.grGid g with
  | none =>
    rw [hp] at h
    cases h
  | some p =>
    rw [hp] at h
    simp only at h
    obtain ⟨e1, e2, e3⟩ := hdb.gr g p hp
    by_cases hb : bufSize db < p.size
    · rw [if_pos hb] at h
      cases h
    · rw [if_neg hb] at h
      by_cases hn : p.name = [] ∨ 256 ≤ p.name.length
      · rw [if_pos hn] at h
        cases h
      · rw [if_neg hn] at h
        cases h
        refine ⟨e3, by omega, ?_⟩
        unfold gidByName
        rw [e2]
        simp only
        rw [if_neg hb, e1]

/-- An entry as it is written. -/
def wrLine (name : List Nat) (v : Nat) : Line := .entry name v [] [32] [32] [] []

theorem blank_space : Blank [32] := by
  intro x hx
  exact Or.inl (List.mem_singleton.mp hx)

theorem wrLine_ok {name : List Nat} {v : Nat} (hn : Word name) (hl : name.length < 256) (hv : v ≤ 1073741823) : (wrLine name v).Ok :=
  ⟨hn, hl, hv, blank_nil, blank_space, blank_space, blank_nil, Or.inl rfl⟩

theorem idLine_text {name : List Nat} (v : Nat) (hl : name.length < 256) : idLine name v = (wrLine name v).text ++ [10] := by
  unfold idLine
  have := decN_length 10 v
  rw [List.take_of_length_le (by unfold dec; simp; omega)]
  simp [wrLine, Line.text]

theorem users_lines {db : Db} (hdb : db.Ok) (es : List Ent) (t : List Nat) (h : lines (userLine db) es = some t)
    (hm : ∀ e ∈ es, e.fs ≤ 1073741823) :
    ∃ ls, t = fileText ls ∧ (∀ l ∈ ls, l.Ok) ∧
      ∀ ids rest, meaning db .users ids (ls ++ rest) = meaning db .users { ids with users := ids.users ++ es.map swap } rest := by
  induction es generalizing t with
  | nil =>
    cases h
    refine ⟨[], rfl, (fun _ h => nomatch h), fun ids rest => ?_⟩
    show meaning db .users ids rest = meaning db .users { ids with users := ids.users ++ [] } rest
    rw [List.append_nil]
  | cons e es ih =>
    rw [lines] at h
    cases hn : uidToName db e.host with
    | none =>
      rw [show userLine db e = none by unfold userLine; rw [hn]] at h
      cases h
    | some name =>
      rw [show userLine db e = some (idLine name e.fs) by unfold userLine; rw [hn]] at h
      simp only at h
      cases hr : lines (userLine db) es with
      | none =>
        rw [hr] at h
        cases h
      | some r =>
        rw [hr] at h
        cases h
        obtain ⟨ls, e1, e2, e3⟩ := ih r hr (fun x hx => hm x (List.mem_cons_of_mem _ hx))
        obtain ⟨w1, w2, w3⟩ := toUid hdb hn
        refine ⟨wrLine name e.fs :: ls, ?_, ?_, fun ids rest => ?_⟩
        · rw [file_cons, idLine_text _ w2, e1, List.append_assoc]
          rfl
        · intro l hl
          rcases List.mem_cons.mp hl with rfl | hl
          · exact wrLine_ok w1 w2 (hm e List.mem_cons_self)
          · exact e2 l hl
        · rw [List.cons_append]
          unfold wrLine
          rw [meaning, w3]
          simp only
          rw [e3]
          simp [swap]

theorem groups_lines {db : Db} (hdb : db.Ok) (es : List Ent) (t : List Nat) (h : lines (groupLine db) es = some t)
    (hm : ∀ e ∈ es, e.host ≤ 1073741823) :
    ∃ ls, t = fileText ls ∧ (∀ l ∈ ls, l.Ok) ∧
      ∀ ids rest, meaning db .groups ids (ls ++ rest) = meaning db .groups { ids with groups := ids.groups ++ es.map swap } rest := by
  induction es generalizing t with
  | nil =>
    cases h
    refine ⟨[], rfl, (fun _ h => nomatch h), fun ids rest => ?_⟩
    show meaning db .groups ids rest = meaning db .groups { ids with groups := ids.groups ++ [] } rest
    rw [List.append_nil]
  | cons e es ih =>
    rw [lines] at h
    cases hn : gidToName db e.fs with
    | none =>
      rw [show groupLine db e = none by unfold groupLine; rw [hn]] at h
      cases h
    | some name =>
      rw [show groupLine db e = some (idLine name e.host) by unfold groupLine; rw [hn]] at h
      simp only at h
      cases hr : lines (groupLine db) es with
      | none =>
        rw [hr] at h
        cases h
      | some r =>
        rw [hr] at h
        cases h
        obtain ⟨ls, e1, e2, e3⟩ := ih r hr (fun x hx => hm x (List.mem_cons_of_mem _ hx))
        obtain ⟨w1, w2, w3⟩ := toGid hdb hn
        refine ⟨wrLine name e.host :: ls, ?_, ?_, fun ids rest => ?_⟩
        · rw [file_cons, idLine_text _ w2, e1, List.append_assoc]
          rfl
        · intro l hl
          rcases List.mem_cons.mp hl with rfl | hl
          · exact wrLine_ok w1 w2 (hm e List.mem_cons_self)
          · exact e2 l hl
        · rw [List.cons_append]
          unfold wrLine
          rw [meaning, w3]
          simp only
          rw [e3]
          simp [swap]

/-- The numbers of the mappings are ones the reader takes. -/
def FsIds.Small (ids : FsIds) : Prop :=
  (∀ e ∈ ids.users, e.host ≤ 1073741823 ∧ e.fs ≤ 1073741823) ∧ (∀ e ∈ ids.groups, e.host ≤ 1073741823 ∧ e.fs ≤ 1073741823)

/-- The same mappings the other way round. -/
def FsIds.swapped (ids : FsIds) : FsIds := ⟨ids.users.map swap, ids.groups.map swap⟩

/-- C60: what is read after mappings were written is every mapping the other way round. -/
theorem C60_save_load_swaps (db : Db) (hdb : db.Ok) (ids : FsIds) (hm : ids.Small) (t : List Nat) (h : save db ids = some t)
    (hl : t.length < 1048576) : load db t = some ids.swapped := by
  unfold save at h
  cases hu : lines (userLine db) ids.users with
  | none =>
    rw [hu] at h
    cases h
  | some u =>
    rw [hu] at h
    simp only at h
    cases hg : lines (groupLine db) ids.groups with
    | none =>
      rw [hg] at h
      cases h
    | some g =>
      rw [hg] at h
      simp only at h
      cases h
      obtain ⟨lu, u1, u2, u3⟩ := users_lines hdb ids.users u hu (fun e he => (hm.1 e he).2)
      obtain ⟨lg, g1, g2, g3⟩ := groups_lines hdb ids.groups g hg (fun e he => (hm.2 e he).1)
      have e : sectionLine .users ++ u ++ [10] ++ sectionLine .groups ++ g ++ [10] =
          fileText (.header .users [] [] [] [] [] :: (lu ++ (.blank [] [] :: .header .groups [] [] [] [] [] :: (lg ++ [.blank [] []])))) := by
        rw [file_cons, file_append, file_cons, file_cons, file_append, file_cons, u1, g1]
        simp [sectionLine, Line.text, fileText]
      rw [e] at hl ⊢
      rw [C60_parse db _ _ hl]
      · rw [meaning, if_neg (by decide), u3]
        simp only [meaning]
        rw [if_neg (by decide), g3]
        simp [meaning, FsIds.empty, FsIds.swapped]
      · have hh : ∀ s, s ≠ Sec.nil → (Line.header s [] [] [] [] []).Ok := fun s hs =>
          ⟨hs, blank_nil, blank_nil, blank_nil, blank_nil, Or.inl rfl⟩
        have hb : (Line.blank [] []).Ok := ⟨blank_nil, Or.inl rfl⟩
        intro l hl
        rcases List.mem_cons.mp hl with rfl | hl
        · exact hh _ (by decide)
        rcases List.mem_append.mp hl with hl | hl
        · exact u2 l hl
        rcases List.mem_cons.mp hl with rfl | hl
        · exact hb
        rcases List.mem_cons.mp hl with rfl | hl
        · exact hh _ (by decide)
        rcases List.mem_append.mp hl with hl | hl
        · exact g2 l hl
        cases List.mem_singleton.mp hl
        exact hb

theorem map_swap_eq {es : List Ent} : es.map swap = es ↔ ∀ e ∈ es, e.host = e.fs := by
  induction es with
  | nil => exact ⟨(fun _ _ h => nomatch h), fun _ => rfl⟩
  | cons e es ih =>
    rw [List.map_cons, List.cons.injEq, ih]
    constructor
    · rintro ⟨h1, h2⟩ x hx
      rcases List.mem_cons.mp hx with rfl | hx
      · exact (congrArg Ent.fs h1)
      · exact h2 x hx
    · intro h
      refine ⟨?_, fun x hx => h x (List.mem_cons_of_mem _ hx)⟩
      have := h e List.mem_cons_self
      cases e with
      | mk a b =>
        unfold swap
        simp only at this
        rw [this]

/-- Every id is mapped to itself. -/
def FsIds.Id (ids : FsIds) : Prop := (∀ e ∈ ids.users, e.host = e.fs) ∧ (∀ e ∈ ids.groups, e.host = e.fs)

/-- C60 (in full: what is written is read back): so it is exactly for mappings of ids to themselves. -/
theorem C60_save_load_partial (db : Db) (hdb : db.Ok) (ids : FsIds) (hm : ids.Small) (t : List Nat) (h : save db ids = some t)
    (hl : t.length < 1048576) : load db t = some ids ↔ ids.Id := by
  rw [C60_save_load_swaps db hdb ids hm t h hl]
  unfold FsIds.swapped FsIds.Id
  cases ids with
  | mk us gs =>
    simp only [Option.some.injEq, FsIds.mk.injEq, map_swap_eq]

/-! ### Example host -/

/-- "ann". -/
def exName : List Nat := [97, 110, 110]
/-- "root". -/
def exRoot : List Nat := [114, 111, 111, 116]
/-- "big". -/
def exBig : List Nat := [98, 105, 103]

/-- A host with users root, ann and big (with a large id), each with a group of its name; the entry of
group "big" takes 2000 bytes, for which sysconf(3) asks to make room. -/
def exDb : Db where
  pwName := fun n => if n = exRoot then some ⟨exRoot, 0, 0, 20⟩ else if n = exName then some ⟨exName, 1000, 1000, 20⟩
    else if n = exBig then some ⟨exBig, 2000000000, 0, 20⟩ else none
  pwUid := fun u => if u = 0 then some ⟨exRoot, 0, 0, 20⟩ else if u = 1000 then some ⟨exName, 1000, 1000, 20⟩
    else if u = 2000000000 then some ⟨exBig, 2000000000, 0, 20⟩ else none
  grName := fun n => if n = exRoot then some ⟨exRoot, 0, 20⟩ else if n = exName then some ⟨exName, 1000, 20⟩
    else if n = exBig then some ⟨exBig, 2000, 2000⟩ else none
  grGid := fun u => if u = 0 then some ⟨exRoot, 0, 20⟩ else if u = 1000 then some ⟨exName, 1000, 20⟩
    else if u = 2000 then some ⟨exBig, 2000, 2000⟩ else none
  groups := fun n => if n = exName then some [1000, 0] else some []
  scPw := 4096
  scGr := 4096

theorem exWord {s : List Nat} (h : s = exName ∨ s = exRoot ∨ s = exBig) : Word s := by
  rcases h with rfl | rfl | rfl <;>
  · refine ⟨by decide, by decide, ?_, ?_⟩
    · intro x hx
      cases hx
      rfl
    · intro x hx
      cases hx
      rfl

theorem exDb_ok : exDb.Ok := by
  constructor
  · intro u p h
    simp only [exDb] at h
    by_cases h0 : u = 0
    · rw [if_pos h0] at h
      cases h
      exact ⟨h0.symm, by decide, exWord (by simp)⟩
    · rw [if_neg h0] at h
      by_cases h1 : u = 1000
      · rw [if_pos h1] at h
        cases h
        exact ⟨h1.symm, by decide, exWord (by simp)⟩
      · rw [if_neg h1] at h
        by_cases h2 : u = 2000000000
        · rw [if_pos h2] at h
          cases h
          exact ⟨h2.symm, by decide, exWord (by simp)⟩
        · rw [if_neg h2] at h
          cases h
  · intro u p h
    simp only [exDb] at h
    by_cases h0 : u = 0
    · rw [if_pos h0] at h
      cases h
      exact ⟨h0.symm, by decide, exWord (by simp)⟩
    · rw [if_neg h0] at h
      by_cases h1 : u = 1000
      · rw [if_pos h1] at h
        cases h
        exact ⟨h1.symm, by decide, exWord (by simp)⟩
      · rw [if_neg h1] at h
        by_cases h2 : u = 2000
        · rw [if_pos h2] at h
          cases h
          exact ⟨h2.symm, by decide, exWord (by simp)⟩
        · rw [if_neg h2] at h
          cases h

/-- C60 fails in full: the mapping of user 1000 of the host to 7 is written and read as that of user 7 to 1000. -/
theorem C60_save_load_violated : ∃ t, save exDb ⟨[⟨1000, 7⟩], []⟩ = some t ∧ load exDb t = some ⟨[⟨7, 1000⟩], []⟩ :=
  ⟨_, rfl, by decide +kernel⟩

/-- C60: the two sections are read in opposite senses: "ann = 7" under users maps user 7 of the host to ann's id
1000, under groups it maps ann's group 1000 to 7 of the file system. -/
theorem C60_sections_disagree_violated :
    load exDb (fileText [.header .users [] [] [] [] [], wrLine exName 7, .header .groups [] [] [] [] [], wrLine exName 7]) =
      some ⟨[⟨7, 1000⟩], [⟨1000, 7⟩]⟩ := by decide +kernel

/-! ### init, and the commands after it -/

theorem addGroups_mem (gs : List Ent) (l : List Nat) :
    ∀ e ∈ addGroups gs l, e ∈ gs ∨ (e.host = e.fs ∧ e.host ∈ l) := by
  induction l generalizing gs with
  | nil => exact fun e he => Or.inl he
  | cons g l ih =>
    intro e he
    rw [addGroups] at he
    by_cases h1 : g = 4294967295
    · rw [if_pos h1] at he
      rcases ih gs e he with h | ⟨ha, hb⟩
      · exact Or.inl h
      · exact Or.inr ⟨ha, List.mem_cons_of_mem _ hb⟩
    · rw [if_neg h1] at he
      by_cases h2 : hasHost gs g = true
      · rw [if_pos h2] at he
        rcases ih gs e he with h | ⟨ha, hb⟩
        · exact Or.inl h
        · exact Or.inr ⟨ha, List.mem_cons_of_mem _ hb⟩
      · rw [if_neg h2] at he
        rcases ih _ e he with h | ⟨ha, hb⟩
        · rcases List.mem_append.mp h with h | h
          · exact Or.inl h
          · cases List.mem_singleton.mp h
            exact Or.inr ⟨rfl, List.mem_cons_self⟩
        · exact Or.inr ⟨ha, List.mem_cons_of_mem _ hb⟩

theorem addGroups_keep (gs : List Ent) (l : List Nat) : ∀ e ∈ gs, e ∈ addGroups gs l := by
  induction l generalizing gs with
  | nil => exact fun e he => he
  | cons g l ih =>
    intro e he
    rw [addGroups]
    by_cases h1 : g = 4294967295
    · rw [if_pos h1]
      exact ih gs e he
    · rw [if_neg h1]
      by_cases h2 : hasHost gs g = true
      · rw [if_pos h2]
        exact ih gs e he
      · rw [if_neg h2]
        exact ih _ e (List.mem_append_left _ he)

theorem addGroups_has (gs : List Ent) (l : List Nat) (g : Nat) (hg : g ∈ l) (hne : g ≠ 4294967295) :
    ∃ e ∈ addGroups gs l, e.host = g := by
  induction l generalizing gs with
  | nil => cases hg
  | cons x l ih =>
    rw [addGroups]
    rcases List.mem_cons.mp hg with rfl | hg
    · rw [if_neg hne]
      by_cases h2 : hasHost gs g = true
      · rw [if_pos h2]
        obtain ⟨e, he, hx⟩ := List.any_eq_true.mp h2
        exact ⟨e, addGroups_keep _ _ e he, by simpa using hx⟩
      · rw [if_neg h2]
        exact ⟨⟨g, g⟩, addGroups_keep _ _ _ (List.mem_append_right _ List.mem_cons_self), rfl⟩
    · by_cases h1 : x = 4294967295
      · rw [if_pos h1]
        exact ih _ hg
      · rw [if_neg h1]
        by_cases h2 : hasHost gs x = true
        · rw [if_pos h2]
          exact ih _ hg
        · rw [if_neg h2]
          exact ih _ hg

/-- What adding a user does. -/
theorem addUser_spec {db : Db} {ids ids' : FsIds} {user : List Nat} {sup : Bool} (h : addUser db ids user sup = some ids') :
    ∃ u g, resolve db user = some (u, g) ∧ ⟨u, u⟩ ∈ ids'.users ∧ ⟨g, g⟩ ∈ ids'.groups ∧
      (∀ e ∈ ids.users, e ∈ ids'.users) ∧ (∀ e ∈ ids.groups, e ∈ ids'.groups) ∧
      (∀ e ∈ ids'.users, e ∈ ids.users ∨ e.host = e.fs) ∧ (∀ e ∈ ids'.groups, e ∈ ids.groups ∨ e.host = e.fs) ∧
      (sup = true → ∃ l, db.groups user = some l ∧ ∀ x ∈ l, x ≠ 4294967295 → ∃ e ∈ ids'.groups, e.host = x) := by
  unfold addUser at h
  cases hr : resolve db user with
  | none =>
    rw [hr] at h
    cases h
  | some p =>
    obtain ⟨u, g⟩ := p
    rw [hr] at h
    simp only at h
    have hu : ∀ e ∈ ids.users ++ [⟨u, u⟩], e ∈ ids.users ∨ e.host = e.fs := by
      intro e he
      rcases List.mem_append.mp he with he | he
      · exact Or.inl he
      · cases List.mem_singleton.mp he
        exact Or.inr rfl
    have hg : ∀ e ∈ ids.groups ++ [⟨g, g⟩], e ∈ ids.groups ∨ e.host = e.fs := by
      intro e he
      rcases List.mem_append.mp he with he | he
      · exact Or.inl he
      · cases List.mem_singleton.mp he
        exact Or.inr rfl
    cases sup with
    | false =>
      cases h
      exact ⟨u, g, rfl, List.mem_append_right _ List.mem_cons_self, List.mem_append_right _ List.mem_cons_self,
        fun e he => List.mem_append_left _ he, fun e he => List.mem_append_left _ he, hu, hg, (fun h => nomatch h)⟩
    | true =>
      cases hl : db.groups user with
      | none =>
        rw [hl] at h
        cases h
      | some l =>
        rw [hl] at h
        cases h
        refine ⟨u, g, rfl, List.mem_append_right _ List.mem_cons_self,
          addGroups_keep _ _ _ (List.mem_append_right _ List.mem_cons_self), fun e he => List.mem_append_left _ he,
          fun e he => addGroups_keep _ _ _ (List.mem_append_left _ he), hu, fun e he => ?_, fun _ => ⟨l, rfl, fun x hx hn => ?_⟩⟩
        · rcases addGroups_mem _ _ e he with he | ⟨he, _⟩
          · exact hg e he
          · exact Or.inr he
        · exact addGroups_has _ _ x hx hn

theorem initIds_spec {db : Db} {user : List Nat} {sup root : Bool} {ids : FsIds} (h : initIds db user sup root = some ids) :
    ids.Id ∧ (∃ u g, resolve db user = some (u, g) ∧ hasHost ids.users u = true ∧ hasHost ids.groups g = true) ∧
    (sup = true → ∃ l, db.groups user = some l ∧ ∀ x ∈ l, x ≠ 4294967295 → hasHost ids.groups x = true) ∧
    (root = true → ∃ rn, uidToName db 0 = some rn ∧ ∃ u g, resolve db rn = some (u, g) ∧
      hasHost ids.users u = true ∧ hasHost ids.groups g = true) := by
  have hm : ∀ {es : List Ent} {u : Nat}, (⟨u, u⟩ : Ent) ∈ es → hasHost es u = true := by
    intro es u h
    exact List.any_eq_true.mpr ⟨_, h, by simp⟩
  have hm' : ∀ {es : List Ent} {u : Nat}, (∃ e ∈ es, e.host = u) → hasHost es u = true := by
    rintro es u ⟨e, he, rfl⟩
    exact List.any_eq_true.mpr ⟨_, he, by simp⟩
  unfold initIds at h
  cases hn : uidToName db 0 with
  | none =>
    rw [hn] at h
    cases h
  | some rn =>
    rw [hn] at h
    simp only at h
    by_cases hlen : 255 ≤ rn.length
    · rw [if_pos hlen] at h
      cases h
    · rw [if_neg hlen] at h
      cases ha : addUser db .empty user sup with
      | none =>
        rw [ha] at h
        cases h
      | some ids1 =>
        rw [ha] at h
        simp only at h
        obtain ⟨u, g, r1, r2, r3, r4, r5, r6, r7, r8⟩ := addUser_spec ha
        have i1 : ids1.Id := by
          refine ⟨fun e he => ?_, fun e he => ?_⟩
          · rcases r6 e he with h | h
            · cases h
            · exact h
          · rcases r7 e he with h | h
            · cases h
            · exact h
        by_cases hr : root = true ∧ rn ≠ user
        · rw [if_pos hr] at h
          obtain ⟨u', g', q1, q2, q3, q4, q5, q6, q7, q8⟩ := addUser_spec h
          refine ⟨⟨fun e he => ?_, fun e he => ?_⟩, ⟨u, g, r1, hm (q4 _ r2), hm (q5 _ r3)⟩, fun hs => ?_,
            fun _ => ⟨rn, rfl, u', g', q1, hm q2, hm q3⟩⟩
          · rcases q6 e he with h | h
            · exact i1.1 e h
            · exact h
          · rcases q7 e he with h | h
            · exact i1.2 e h
            · exact h
          · obtain ⟨l, hl, hx⟩ := r8 hs
            refine ⟨l, hl, fun x hxl hne => ?_⟩
            obtain ⟨e, he, h⟩ := hx x hxl hne
            exact hm' ⟨e, q5 e he, h⟩
        · rw [if_neg hr] at h
          cases h
          refine ⟨i1, ⟨u, g, r1, hm r2, hm r3⟩, fun hs => ?_, fun hroot => ?_⟩
          · obtain ⟨l, hl, hx⟩ := r8 hs
            refine ⟨l, hl, fun x hxl hne => ?_⟩
            exact hm' (hx x hxl hne)
          · have hru : rn = user := by
              cases Decidable.em (rn = user) with
              | inl h => exact h
              | inr h => exact (hr ⟨hroot, h⟩).elim
            rw [hru]
            exact ⟨user, rfl, u, g, r1, hm r2, hm r3⟩

/-- C60: the mappings which init makes take every id to itself, and cover the user with their group, with the
supplementary groups and the user 0 as asked for. -/
theorem C60_init (db : Db) (user : List Nat) (sup root : Bool) (ids : FsIds) (h : initIds db user sup root = some ids) :
    ids.Id ∧ (∃ u g, resolve db user = some (u, g) ∧ hasHost ids.users u = true ∧ hasHost ids.groups g = true) ∧
    (sup = true → ∃ l, db.groups user = some l ∧ ∀ x ∈ l, x ≠ 4294967295 → hasHost ids.groups x = true) ∧
    (root = true → ∃ rn, uidToName db 0 = some rn ∧ ∃ u g, resolve db rn = some (u, g) ∧
      hasHost ids.users u = true ∧ hasHost ids.groups g = true) := initIds_spec h

theorem holds_list (es : List Ent) : ∃ t, Ids.populate Ids.Tab.empty (es.map (fun e => (e, true))) = some t := by
  have : ∀ (es : List Ent) (t : Ids.Tab), ∃ t', Ids.populate t (es.map (fun e => (e, true))) = some t' := by
    intro es
    induction es with
    | nil => exact fun t => ⟨t, rfl⟩
    | cons e es ih =>
      intro t
      rw [List.map_cons, Ids.populate, if_pos rfl]
      exact ih _
  exact this es _

theorem map_id {es : List Ent} (hid : ∀ e ∈ es, e.host = e.fs) {t : Ids.Tab}
    (h : Ids.populate Ids.Tab.empty (es.map (fun e => (e, true))) = some t) (allow : Bool) {u : Nat} (hu : hasHost es u = true) :
    t.map allow (some u) = ⟨some u, true⟩ ∧ t.rmap allow (some u) = ⟨some u, true⟩ := by
  have he : (es.map (fun e => (e, true))).map Prod.fst = es := by
    rw [List.map_map]
    exact List.map_id es
  have hh := Ids.holds_populate Ids.Tab.empty t [] _ Ids.holds_empty h
  rw [List.nil_append, he] at hh
  obtain ⟨e, hm, hx⟩ := List.any_eq_true.mp hu
  have hx : e.host = u := by simpa using hx
  constructor
  · rw [Ids.Tab.map, Ids.lookup_host t es hh u]
    cases hf : es.reverse.find? (fun e => e.host == u) with
    | none =>
      have := Ids.last_none hf e hm
      simp [hx] at this
    | some e' =>
      obtain ⟨h1, h2⟩ := Ids.last_mem hf
      have h2 : e'.host = u := by simpa using h2
      rw [show Ids.lastHost es u = some e' from hf]
      simp only
      rw [← hid e' h1, h2]
  · rw [Ids.Tab.rmap, Ids.lookup_fs t es hh u]
    cases hf : es.reverse.find? (fun e => e.fs == u) with
    | none =>
      have := Ids.last_none hf e hm
      simp [← hid e hm, hx] at this
    | some e' =>
      obtain ⟨h1, h2⟩ := Ids.last_mem hf
      have h2 : e'.fs = u := by simpa using h2
      rw [show Ids.lastFs es u = some e' from hf]
      simp only
      rw [hid e' h1, h2]

/-- C60: after init, every later command reads the mappings init made, mkfs finds the user's ids in them, and a
mount with them takes the user and their group to themselves, both ways.  The ids must be at most 1073741823, and the
file less than 1M. -/
theorem C60_init_then_use_partial (db : Db) (hdb : db.Ok) (user : List Nat) (sup root : Bool) (ids : FsIds) (t : List Nat)
    (h : initIds db user sup root = some ids) (hm : ids.Small) (hs : save db ids = some t) (hl : t.length < 1048576) :
    load db t = some ids ∧ ∃ u g, resolve db user = some (u, g) ∧ requireIds db ids user = some (u, g) ∧
      ∃ tu tg, Ids.populate Ids.Tab.empty (ids.users.map (fun e => (e, true))) = some tu ∧
        Ids.populate Ids.Tab.empty (ids.groups.map (fun e => (e, true))) = some tg ∧
        ∀ allow, (Ids.Map.mk tu tg allow).both (some u) (some g) = some (some u, some g) ∧
          (Ids.Map.mk tu tg allow).shown u g = (some u, some g) := by
  obtain ⟨hid, ⟨u, g, hr, hu, hg⟩, _, _⟩ := initIds_spec h
  refine ⟨(C60_save_load_partial db hdb ids hm t hs hl).mpr hid, u, g, hr, ?_, ?_⟩
  · unfold requireIds
    rw [hr]
    simp only
    rw [if_pos ⟨hu, hg⟩]
  · obtain ⟨tu, htu⟩ := holds_list ids.users
    obtain ⟨tg, htg⟩ := holds_list ids.groups
    refine ⟨tu, tg, htu, htg, fun allow => ?_⟩
    obtain ⟨a1, a2⟩ := map_id hid.1 htu allow hu
    obtain ⟨b1, b2⟩ := map_id hid.2 htg allow hg
    constructor
    · unfold Ids.Map.both
      simp only [a1, b1]
      rfl
    · unfold Ids.Map.shown
      simp only [a2, b2]

/-- Such a run: ann initializes a repository with their groups and root. -/
example : ∃ ids t, initIds exDb exName true true = some ids ∧ ids.Small ∧ save exDb ids = some t ∧ t.length < 1048576 ∧
    ids = ⟨[⟨1000, 1000⟩, ⟨0, 0⟩], [⟨1000, 1000⟩, ⟨0, 0⟩, ⟨0, 0⟩]⟩ := by
  refine ⟨⟨[⟨1000, 1000⟩, ⟨0, 0⟩], [⟨1000, 1000⟩, ⟨0, 0⟩, ⟨0, 0⟩]⟩, _, by decide +kernel, ?_, rfl, by decide +kernel, rfl⟩
  unfold FsIds.Small
  decide

/-- C60 fails in full: for a user with a large id init succeeds and every later command fails. -/
theorem C60_large_id_violated : ∃ ids t, initIds exDb exBig false false = some ids ∧ save exDb ids = some t ∧ load exDb t = none :=
  ⟨⟨[⟨2000000000, 2000000000⟩], [⟨0, 0⟩]⟩, _, by decide +kernel, rfl, by decide +kernel⟩

/-! ### What is refused and what is taken -/

/-- C60: entries of the host of more than 1024 bytes are not found, however much room the host asks for. -/
theorem C60_room (db : Db) : bufSize db = 1024 := by
  unfold bufSize sysconf
  rfl

/-- C60 fails in full: a group with many members is not found although it exists. -/
theorem C60_big_group_violated : (∃ p, exDb.grName exBig = some p ∧ p.size ≤ exDb.scGr) ∧ gidByName exDb exBig = none ∧
    load exDb (fileText [.header .groups [] [] [] [] [], wrLine exBig 7]) = none :=
  ⟨⟨⟨exBig, 2000, 2000⟩, rfl, by decide⟩, by decide +kernel, by decide +kernel⟩

/-- C60 fails in full: a character after the number is overlooked: "1000x" is taken for 1000. -/
theorem C60_trailing_violated : parseId [49, 48, 48, 48, 120] = some 1000 := by decide +kernel

/-- C60: a number with a leading zero is octal: "0100" is 64. -/
theorem C60_octal_violated : parseId [48, 49, 48, 48] = some 64 := by decide +kernel

/-- C60 fails in full: a copy of mappings is not the original: of one entry it holds (0, 0). -/
theorem C60_assign_violated : assign ⟨[⟨1000, 1000⟩], []⟩ = some ⟨[⟨0, 0⟩], []⟩ := rfl

theorem assignLoop_none (e : Ent) (i n : Nat) (es : List Ent) (hl : es.length = i) (h : es ≠ []) : assignLoop es i (n + 1) = none := by
  rw [assignLoop, if_neg h, List.getElem?_eq_none (by omega)]

/-- C60 fails in full: a copy of two entries or more reads memory which was given back. -/
theorem C60_assign_undefined_violated (other : FsIds) (h : 2 ≤ other.users.length ∨ 2 ≤ other.groups.length) :
    assign other = none := by
  have key : ∀ n, 2 ≤ n → assignLoop [] 0 n = none := by
    intro n hn
    obtain ⟨m, rfl⟩ : ∃ m, n = m + 2 := ⟨n - 2, by omega⟩
    rw [assignLoop, if_pos rfl]
    exact assignLoop_none ⟨0, 0⟩ _ _ _ rfl (List.cons_ne_nil _ _)
  unfold assign
  rcases h with h | h
  · rw [key _ h]
  · rw [key _ h]
    cases assignLoop [] 0 other.users.length <;> rfl

/-- Lines of every kind which are well formed. -/
example : ∀ l ∈ [Line.blank [32] [35, 120], .header .users [32] [32] [] [9] [], .entry exName 7 [] [] [32] [32] [35, 33]], l.Ok := by
  have hb : ∀ x : Nat, x = 32 ∨ x = 9 → Blank [x] := by
    intro x hx y hy
    cases List.mem_singleton.mp hy
    omega
  intro l hl
  simp only [List.mem_cons, List.not_mem_nil, or_false] at hl
  rcases hl with rfl | rfl | rfl
  · exact ⟨hb 32 (by decide), Or.inr ⟨[120], rfl, by decide⟩⟩
  · exact ⟨by decide, hb 32 (by decide), hb 32 (by decide), blank_nil, hb 9 (by decide), Or.inl rfl⟩
  · exact ⟨exWord (by simp), by decide, by decide, blank_nil, blank_nil, hb 32 (by decide), hb 32 (by decide), Or.inr ⟨[33], rfl, by decide⟩⟩

end Silofs.Idsconf
