import Verif.Props.Mntconf
import Verif.Props.Mntsvc
/-
C47: whatever the text of the configuration, each rule read from it is stated
by a line of it.
-/
set_option linter.unusedSimpArgs false
set_option linter.unusedVariables false
namespace Silofs.Mnt

/-! ### Specification -/

/-- `ws` are the words of a text, between blanks. -/
inductive Words : List Nat → List (List Nat) → Prop
  | nil : Words [] []
  | blank {b l ws} : blank b → Words l ws → Words (b :: l) ws
  | word {w l ws} : w ≠ [] → (∀ b ∈ w, ¬ blank b) → (∀ b, l.head? = some b → blank b) → Words l ws →
      Words (w ++ l) (w :: ws)

/-- "uid=" followed by something. -/
def NamesUser (a : List Nat) : Prop := ∃ v, v ≠ [] ∧ a = [117, 105, 100, 61] ++ v
/-- "recursive=" followed by a truth value. -/
def SaysRecursive (b : Bool) (a : List Nat) : Prop :=
  ∃ v, a = [114, 101, 99, 117, 114, 115, 105, 118, 101, 61] ++ v ∧
    (if b then v = [49] ∨ v = [116, 114, 117, 101] else v = [48] ∨ v = [102, 97, 108, 115, 101])

/-- What the arguments of a line must be, and the rule say, for it to be right. -/
structure Stated (args : List (List Nat)) (r : Rule) : Prop where
  known : ∀ a ∈ args, NamesUser a ∨ (∃ b, SaysRecursive b a)
  /-- A rule is for all users exactly if the line names none. -/
  user : ((∃ a ∈ args, NamesUser a) ∧ r.uid ≤ 1073741823) ∨ ((¬ ∃ a ∈ args, NamesUser a) ∧ r.uid = 4294967295)
  /-- It is recursive only if the line says so. -/
  recursive : r.recursive = true → ∃ a ∈ args, SaysRecursive true a

/-- What a line means: up to its comment and without white space around it,
nothing, or a path and arguments. -/
def Means (rp : Path → Path) (line : List Nat) (o : Option Rule) : Prop :=
  ∃ lead body trail rest : List Nat, line = lead ++ body ++ trail ++ rest ∧
    (rest = [] ∨ ∃ c, rest = 35 :: c) ∧ (∀ b ∈ lead ++ body ++ trail, b ≠ 35) ∧
    (∀ b ∈ lead, isWs b = true) ∧ (∀ b ∈ trail, isWs b = true) ∧
    (∀ b, body.head? = some b → isWs b = false) ∧ (∀ b, body.getLast? = some b → isWs b = false) ∧
    match o with
    | none => body = []
    | some r => ∃ path args, Words body (path :: args) ∧ r.path = rp path ∧ Stated args r

/-! ### Proofs -/

theorem mem_takeWhile_f (f : Nat → Bool) (l : List Nat) : ∀ b ∈ l.takeWhile f, f b = true := by
  induction l with
  | nil => simp
  | cons a l ih =>
    intro b hb
    rw [List.takeWhile_cons] at hb
    by_cases h : f a = true
    · rw [if_pos h] at hb
      rcases List.mem_cons.1 hb with rfl | hb
      · exact h
      · exact ih b hb
    · rw [if_neg h] at hb; simp at hb

theorem head_dropWhile (f : Nat → Bool) (l : List Nat) : ∀ b, (l.dropWhile f).head? = some b → f b = false := by
  induction l with
  | nil => simp
  | cons a l ih =>
    intro b hb
    rw [List.dropWhile_cons] at hb
    by_cases h : f a = true
    · rw [if_pos h] at hb; exact ih b hb
    · rw [if_neg h] at hb
      have : a = b := by simpa using hb
      subst this; simpa using h

/-- A text split at a character. -/
theorem splitChr_spec (c : Nat) (s : List Nat) : (∀ b ∈ (splitChr c s).1, b ≠ c) ∧
    ((s = (splitChr c s).1 ∧ (splitChr c s).2 = []) ∨ s = (splitChr c s).1 ++ c :: (splitChr c s).2) := by
  unfold splitChr
  refine ⟨fun b hb => by simpa using mem_takeWhile_f _ s b hb, ?_⟩
  have hap := List.takeWhile_append_dropWhile (p := (· != c)) (l := s)
  cases hd : s.dropWhile (· != c) with
  | nil =>
    left
    rw [hd, List.append_nil] at hap
    exact ⟨hap.symm, rfl⟩
  | cons x y =>
    right
    have := head_dropWhile (· != c) s x (by rw [hd]; rfl)
    have hx : x = c := by simpa using this
    rw [hd] at hap
    simp only [List.drop_one, List.tail_cons]
    rw [hx] at hap; exact hap.symm

theorem blank_iff (b : Nat) : blank b ↔ isSep b = true := by
  unfold blank isSep; simp only [Bool.or_eq_true, beq_iff_eq]

/-- Splitting off a word. -/
theorem splitSep_spec (s : List Nat) : ∃ seps, s = (splitSep s).1 ++ (seps ++ (splitSep s).2) ∧
    (∀ b ∈ (splitSep s).1, ¬ blank b) ∧ (∀ b ∈ seps, blank b) ∧
    (∀ b, (splitSep s).2.head? = some b → ¬ blank b) ∧ ((splitSep s).2 ≠ [] → seps ≠ []) := by
  unfold splitSep
  simp only
  refine ⟨(s.dropWhile (fun b => !isSep b)).takeWhile isSep, ?_, ?_, ?_, ?_, ?_⟩
  · rw [List.takeWhile_append_dropWhile, List.takeWhile_append_dropWhile]
  · intro b hb
    have := mem_takeWhile_f _ s b hb
    rw [blank_iff]; simpa using this
  · intro b hb; rw [blank_iff]; exact mem_takeWhile_f _ _ b hb
  · intro b hb
    have := head_dropWhile _ _ b hb
    rw [blank_iff, this]; decide
  · intro hne
    cases hd : s.dropWhile (fun b => !isSep b) with
    | nil => rw [hd] at hne; simp at hne
    | cons x y =>
      have := head_dropWhile _ s x (by rw [hd]; rfl)
      have hx : isSep x = true := by simpa using this
      rw [List.takeWhile_cons, if_pos hx]; simp

theorem Words.blanks {seps l : List Nat} {ws : List (List Nat)} (h : ∀ b ∈ seps, Silofs.Mnt.blank b) (hw : Words l ws) :
    Words (seps ++ l) ws := by
  induction seps with
  | nil => exact hw
  | cons b s ih => exact .blank (h b (by simp)) (ih (fun c hc => h c (by simp [hc])))

theorem parseUid_le {s : List Nat} {u : Nat} (h : parseUid s = some u) : u ≤ 1073741823 := by
  unfold parseUid at h
  cases hp : parseLong s with
  | none => rw [hp] at h; simp at h
  | some v =>
    rw [hp] at h
    simp only at h
    split at h
    · simp at h
    · split at h
      · simp at h
      · simp only [Option.some.injEq] at h
        omega

theorem parseBool_lit {v : List Nat} {b : Bool} (h : parseBool v = some b) :
    if b then v = [49] ∨ v = [116, 114, 117, 101] else v = [48] ∨ v = [102, 97, 108, 115, 101] := by
  unfold parseBool at h
  by_cases h1 : v = [49] ∨ v = [116, 114, 117, 101]
  · rw [if_pos h1] at h
    simp only [Option.some.injEq] at h
    subst h; simpa using h1
  · rw [if_neg h1] at h
    by_cases h2 : v = [48] ∨ v = [102, 97, 108, 115, 101]
    · rw [if_pos h2] at h
      simp only [Option.some.injEq] at h
      subst h; simpa using h2
    · rw [if_neg h2] at h; simp at h

theorem not_both {a : List Nat} {b : Bool} (h1 : NamesUser a) (h2 : SaysRecursive b a) : False := by
  obtain ⟨v, _, rfl⟩ := h1
  obtain ⟨w, hw, _⟩ := h2
  simp at hw

/-- One accepted argument. -/
theorem parseArg_spec {a : List Nat} {r r' : Rule} (h : parseArg a r = some r') :
    (NamesUser a ∧ r'.uid ≤ 1073741823 ∧ r'.recursive = r.recursive ∧ r'.path = r.path) ∨
    (∃ b, SaysRecursive b a ∧ r'.recursive = b ∧ r'.uid = r.uid ∧ r'.path = r.path) := by
  unfold parseArg at h
  obtain ⟨hk, hs⟩ := splitChr_spec 61 a
  by_cases h0 : (splitChr 61 a).1 = [] ∨ (splitChr 61 a).2 = []
  · rw [if_pos h0] at h; simp at h
  rw [if_neg h0] at h
  have hsp : a = (splitChr 61 a).1 ++ 61 :: (splitChr 61 a).2 := by
    rcases hs with hs | hs
    · exact absurd (Or.inr hs.2) h0
    · exact hs
  by_cases h1 : (splitChr 61 a).1 = kwRecursive
  · rw [if_pos h1] at h
    cases hb : parseBool (splitChr 61 a).2 with
    | none => rw [hb] at h; simp at h
    | some b =>
      rw [hb] at h
      simp only [Option.some.injEq] at h
      subst h
      refine Or.inr ⟨b, ⟨(splitChr 61 a).2, ?_, parseBool_lit hb⟩, rfl, rfl, rfl⟩
      rw [h1] at hsp
      simpa [kwRecursive] using hsp
  · rw [if_neg h1] at h
    by_cases h2 : (splitChr 61 a).1 = kwUid
    · rw [if_pos h2] at h
      cases hb : parseUid (splitChr 61 a).2 with
      | none => rw [hb] at h; simp at h
      | some u =>
        rw [hb] at h
        simp only [Option.some.injEq] at h
        subst h
        refine Or.inl ⟨⟨(splitChr 61 a).2, fun hh => h0 (Or.inr hh), ?_⟩, parseUid_le hb, rfl, rfl⟩
        rw [h2] at hsp
        simpa [kwUid] using hsp
    · rw [if_neg h2] at h; simp at h

/-- Rules that arguments `done` state remain so with one more. -/
theorem parseArgs_spec {n : Nat} {s : List Nat} {r r' : Rule} (h : parseArgs n s r = some r')
    (hh : ∀ b, s.head? = some b → ¬ blank b) (done : List (List Nat)) (hd : Stated done r) :
    ∃ args, Words s args ∧ Stated (done ++ args) r' ∧ r'.path = r.path := by
  induction n generalizing s r done with
  | zero => simp [parseArgs] at h
  | succ n ih =>
    unfold parseArgs at h
    obtain ⟨seps, hs, h1, h2, h3, h4⟩ := splitSep_spec s
    by_cases h0 : (splitSep s).1 = [] ∧ (splitSep s).2 = []
    · rw [if_pos h0] at h
      simp only [Option.some.injEq] at h
      subst h
      refine ⟨[], ?_, by simpa using hd, rfl⟩
      rw [h0.1, h0.2, List.nil_append, List.append_nil] at hs
      have : s = [] := by
        cases s with
        | nil => rfl
        | cons b s =>
          exfalso
          exact hh b rfl (h2 b (by rw [← hs]; simp))
      rw [this]; exact .nil
    · rw [if_neg h0] at h
      cases ha : parseArg (splitSep s).1 r with
      | none => rw [ha] at h; simp at h
      | some r1 =>
        rw [ha] at h
        simp only at h
        have hsp := parseArg_spec ha
        have hne : (splitSep s).1 ≠ [] := by
          intro he
          rw [he] at ha
          simp [parseArg, splitChr] at ha
        have hst : Stated (done ++ [(splitSep s).1]) r1 := by
          rcases hsp with ⟨hu, hle, hrec, _⟩ | ⟨b, hb, hrec, huid, _⟩
          · refine ⟨?_, ?_, ?_⟩
            · intro a ham
              rcases List.mem_append.1 ham with ham | ham
              · exact hd.known a ham
              · rw [List.mem_singleton.1 ham]; exact Or.inl hu
            · exact Or.inl ⟨⟨_, by simp, hu⟩, hle⟩
            · intro ht
              rw [hrec] at ht
              obtain ⟨a, ham, hsa⟩ := hd.recursive ht
              exact ⟨a, by simp [ham], hsa⟩
          · refine ⟨?_, ?_, ?_⟩
            · intro a ham
              rcases List.mem_append.1 ham with ham | ham
              · exact hd.known a ham
              · rw [List.mem_singleton.1 ham]; exact Or.inr ⟨b, hb⟩
            · have hiff : (∃ a ∈ done ++ [(splitSep s).1], NamesUser a) ↔ ∃ a ∈ done, NamesUser a := by
                constructor
                · rintro ⟨a, ham, hu⟩
                  rcases List.mem_append.1 ham with ham | ham
                  · exact ⟨a, ham, hu⟩
                  · rw [List.mem_singleton.1 ham] at hu
                    exact (not_both hu hb).elim
                · rintro ⟨a, ham, hu⟩; exact ⟨a, by simp [ham], hu⟩
              have := hd.user
              rw [huid]
              rw [hiff]; exact this
            · intro ht
              rw [hrec] at ht
              subst ht
              exact ⟨_, by simp, hb⟩
        obtain ⟨args, hw, hst', hp⟩ := ih h h3 _ hst
        refine ⟨(splitSep s).1 :: args, ?_, by simpa using hst', ?_⟩
        · have := Words.word hne h1 (l := seps ++ (splitSep s).2) (ws := args) (by
            intro b hb
            cases hse : seps with
            | nil =>
              rw [hse, List.nil_append] at hb
              cases ht : (splitSep s).2 with
              | nil => rw [ht] at hb; simp at hb
              | cons x y => exact absurd hse (h4 (by rw [ht]; simp))
            | cons x y =>
              rw [hse] at hb
              have : x = b := by simpa using hb
              subst this
              exact h2 x (by rw [hse]; simp)) (Words.blanks h2 hw)
          rwa [← hs] at this
        · rcases hsp with hsp | ⟨b, hsp⟩
          · rw [hp]; exact hsp.2.2.2
          · rw [hp]; exact hsp.2.2.2

theorem stripWs_spec (s : List Nat) : ∃ a b, s = a ++ stripWs s ++ b ∧ (∀ c ∈ a, isWs c = true) ∧
    (∀ c ∈ b, isWs c = true) ∧ (∀ c, (stripWs s).head? = some c → isWs c = false) ∧
    (∀ c, (stripWs s).getLast? = some c → isWs c = false) := by
  refine ⟨s.takeWhile isWs, ((s.dropWhile isWs).reverse.takeWhile isWs).reverse, ?_, mem_takeWhile_f _ _, ?_, ?_, ?_⟩
  · have h1 := List.takeWhile_append_dropWhile (p := isWs) (l := (s.dropWhile isWs).reverse)
    have h2 := congrArg List.reverse h1
    rw [List.reverse_append, List.reverse_reverse] at h2
    unfold stripWs
    rw [List.append_assoc, h2, List.takeWhile_append_dropWhile]
  · intro c hc; exact mem_takeWhile_f _ _ c (List.mem_reverse.1 hc)
  · intro c hc
    have h1 := List.takeWhile_append_dropWhile (p := isWs) (l := (s.dropWhile isWs).reverse)
    have h2 := congrArg List.reverse h1
    rw [List.reverse_append, List.reverse_reverse] at h2
    apply head_dropWhile isWs s c
    rw [← h2]
    unfold stripWs at hc
    cases hx : ((s.dropWhile isWs).reverse.dropWhile isWs).reverse with
    | nil => rw [hx] at hc; simp at hc
    | cons y ys => rw [hx] at hc; simpa using hc
  · intro c hc
    unfold stripWs at hc
    rw [List.getLast?_reverse] at hc
    exact head_dropWhile _ _ c hc

theorem parseLine_spec {rp : Path → Path} {line : List Nat} {rules rules' : List Rule}
    (h : parseLine rp line rules = some rules') :
    ∃ o, Means rp line o ∧ rules' = rules ++ o.toList ∧ (o = none ∨ rules.length < 1024) := by
  unfold parseLine at h
  obtain ⟨hk, hs⟩ := splitChr_spec 35 line
  obtain ⟨a, b, hab, h1, h2, h3, h4⟩ := stripWs_spec (splitChr 35 line).1
  obtain ⟨rest, hrest, hline⟩ : ∃ rest : List Nat, (rest = [] ∨ ∃ c, rest = 35 :: c) ∧
      line = (splitChr 35 line).1 ++ rest := by
    rcases hs with hs | hs
    · exact ⟨[], Or.inl rfl, by rw [List.append_nil]; exact hs.1⟩
    · exact ⟨_, Or.inr ⟨_, rfl⟩, hs⟩
  have mk : ∀ o : Option Rule, (match o with
      | none => stripWs (splitChr 35 line).1 = []
      | some r => ∃ path args, Words (stripWs (splitChr 35 line).1) (path :: args) ∧ r.path = rp path ∧ Stated args r) →
      Means rp line o := by
    intro o ho
    refine ⟨a, _, b, rest, ?_, hrest, ?_, h1, h2, h3, h4, ho⟩
    · rw [← hab]; exact hline
    · rw [← hab]; exact hk
  by_cases h0 : stripWs (splitChr 35 line).1 = []
  · rw [if_pos h0] at h
    simp only [Option.some.injEq] at h
    subst h
    exact ⟨none, mk none h0, by simp, Or.inl rfl⟩
  · rw [if_neg h0] at h
    by_cases hl : 1024 ≤ rules.length
    · rw [if_pos hl] at h; simp at h
    rw [if_neg hl] at h
    generalize stripWs (splitChr 35 line).1 = body at *
    obtain ⟨seps, hsp, g1, g2, g3, g4⟩ := splitSep_spec body
    cases hp : parseArgs (body.length + 1) (splitSep body).2 ⟨rp (splitSep body).1, uidNone, false⟩ with
    | none => rw [hp] at h; simp at h
    | some r =>
      rw [hp] at h
      simp only [Option.some.injEq] at h
      obtain ⟨args, hw, hst, hpath⟩ := parseArgs_spec hp g3 [] ⟨by simp, Or.inr ⟨by simp, rfl⟩, by simp⟩
      have hne : (splitSep body).1 ≠ [] := by
        intro he
        rw [he, List.nil_append] at hsp
        cases hb : body with
        | nil => exact h0 hb
        | cons x y =>
          have hx := h3 x (by rw [hb]; rfl)
          cases hse : seps with
          | nil =>
            rw [hse, List.nil_append] at hsp
            exact g4 (by rw [← hsp]; exact h0) hse
          | cons z zs =>
            rw [hse, hb, List.cons_append] at hsp
            have hz : x = z := (List.cons.inj hsp).1
            have := g2 z (by rw [hse]; simp)
            rw [← hz] at this
            rcases this with rfl | rfl <;> exact absurd hx (by decide)
      refine ⟨some r, mk (some r) ⟨(splitSep body).1, args, ?_, hpath, by simpa using hst⟩, by simpa using h.symm,
        Or.inr (by omega)⟩
      have := Words.word hne g1 (l := seps ++ (splitSep body).2) (ws := args) (by
        intro b hb
        cases hse : seps with
        | nil =>
          rw [hse, List.nil_append] at hb
          cases ht : (splitSep body).2 with
          | nil => rw [ht] at hb; simp at hb
          | cons x y => exact absurd hse (g4 (by rw [ht]; simp))
        | cons x y =>
          rw [hse] at hb
          have : x = b := by simpa using hb
          subst this
          exact g2 x (by rw [hse]; simp)) (Words.blanks g2 hw)
      rwa [← hsp] at this

/-- Lines of a text, with what each means. -/
def joinLines : List (List Nat) → List Nat
  | [] => []
  | [l] => l
  | l :: m :: ls => l ++ 10 :: joinLines (m :: ls)

theorem parseLines_spec {rp : Path → Path} {n : Nat} {s : List Nat} {rules rules' : List Rule}
    (h : parseLines rp n s rules = some rules') (hl : rules.length ≤ 1024) :
    ∃ ls : List (List Nat × Option Rule), joinLines (ls.map (·.1)) = s ∧
      (∀ x ∈ ls, (∀ b ∈ x.1, b ≠ 10) ∧ Means rp x.1 x.2) ∧ rules' = rules ++ ls.filterMap (·.2) ∧
      rules'.length ≤ 1024 ∧ ls ≠ [] := by
  have means_nil : Means rp [] none :=
    ⟨[], [], [], [], rfl, Or.inl rfl, by simp, by simp, by simp, by simp, by simp, rfl⟩
  induction n generalizing s rules with
  | zero => simp [parseLines] at h
  | succ n ih =>
    unfold parseLines at h
    obtain ⟨hk, hs⟩ := splitChr_spec 10 s
    by_cases h0 : (splitChr 10 s).1 = [] ∧ (splitChr 10 s).2 = []
    · rw [if_pos h0] at h
      simp only [Option.some.injEq] at h
      subst h
      rw [h0.1, h0.2] at hs
      rcases hs with hs | hs
      · refine ⟨[([], none)], by rw [hs.1]; rfl, ?_, by simp, hl, by simp⟩
        intro x hx
        rw [List.mem_singleton.1 hx]
        exact ⟨by simp, means_nil⟩
      · refine ⟨[([], none), ([], none)], by rw [hs]; rfl, ?_, by simp, hl, by simp⟩
        intro x hx
        simp only [List.mem_cons, List.not_mem_nil, or_false, or_self] at hx
        rw [hx]
        exact ⟨by simp, means_nil⟩
    · rw [if_neg h0] at h
      cases hp : parseLine rp (splitChr 10 s).1 rules with
      | none => rw [hp] at h; simp at h
      | some rules1 =>
        rw [hp] at h
        simp only at h
        obtain ⟨o, hm, hr, hlt⟩ := parseLine_spec hp
        have hl1 : rules1.length ≤ 1024 := by
          rw [hr, List.length_append]
          rcases hlt with rfl | hlt
          · simpa using hl
          · cases o <;> simp <;> omega
        obtain ⟨ls, g1, g2, g3, g4, g5⟩ := ih h hl1
        rcases hs with hs | hs
        · -- no newline: the rest is empty
          rw [hs.2] at h
          have hr1 : rules' = rules1 := by
            cases n with
            | zero => simp [parseLines] at h
            | succ n =>
              unfold parseLines at h
              rw [if_pos ⟨rfl, rfl⟩] at h
              exact (Option.some.inj h).symm
          refine ⟨[((splitChr 10 s).1, o)], by rw [← hs.1]; rfl, ?_, ?_, g4, by simp⟩
          · intro x hx
            rw [List.mem_singleton.1 hx]
            exact ⟨hk, hm⟩
          · rw [hr1, hr]
            cases o <;> simp
        · refine ⟨((splitChr 10 s).1, o) :: ls, ?_, ?_, ?_, g4, by simp⟩
          · cases ls with
            | nil => exact absurd rfl g5
            | cons m ls =>
              simp only [List.map_cons, joinLines]
              simp only [List.map_cons] at g1
              rw [g1]
              exact hs.symm
          · intro x hx
            rcases List.mem_cons.1 hx with rfl | hx
            · exact ⟨hk, hm⟩
            · exact g2 x hx
          · rw [g3, hr, List.append_assoc]
            cases o <;> simp

/-- **C47**: for any text whatsoever that the daemon accepts, its rules are
those its lines state, in order: each line is empty (but for white space and a
comment) or states one rule, by a path and arguments of the two known kinds; a
rule is for all users exactly if its line names none, and recursive only if its
line says so; there are at most 1024. -/
theorem C47_only_stated (rp : Path → Path) (text : List Nat) (rules : List Rule) (h : parseConf rp text = some rules) :
    ∃ ls : List (List Nat × Option Rule), joinLines (ls.map (·.1)) = text.takeWhile (· != 0) ∧
      (∀ x ∈ ls, (∀ b ∈ x.1, b ≠ 10) ∧ Means rp x.1 x.2) ∧ rules = ls.filterMap (·.2) ∧ rules.length ≤ 1024 := by
  unfold parseConf at h
  obtain ⟨ls, h1, h2, h3, h4, _⟩ := parseLines_spec h (by simp)
  exact ⟨ls, h1, h2, by simpa using h3, h4⟩

/-! ### Concrete texts -/

/-- "/a uid=100 recursive=1", a comment, an empty line, "/b" without arguments. -/
def sample : List Line :=
  [⟨[], some ([47, 97], [([32], .uid 100), ([32, 9], .recursive true false)]), [], none⟩,
   ⟨[], none, [], some [32, 120]⟩, ⟨[32], none, [], none⟩,
   ⟨[9], some ([47, 98], []), [13], some []⟩]

theorem sample_valid : ∀ l ∈ sample, l.Valid := by
  intro l hl
  simp only [sample, List.mem_cons, List.not_mem_nil, or_false] at hl
  rcases hl with rfl | rfl | rfl | rfl
  all_goals
    refine ⟨?_, ?_, ?_, ?_, ?_⟩
    · simp [space]
    · simp [space]
    · intro c hc
      first
        | (simp only [Option.some.injEq, reduceCtorEq] at hc; done)
        | (simp only [Option.some.injEq] at hc; subst hc; simp)
    · intro p as hb
      first
        | (simp only [Option.some.injEq, reduceCtorEq] at hb; done)
        | (simp only [Option.some.injEq, Prod.mk.injEq] at hb; obtain ⟨rfl, rfl⟩ := hb; simp [space])
    · intro p as hb
      first
        | (simp only [Option.some.injEq, reduceCtorEq] at hb; done)
        | (simp only [Option.some.injEq, Prod.mk.injEq] at hb; obtain ⟨rfl, rfl⟩ := hb; simp [blank, Arg.Valid])

/-- The sample read: two rules. -/
example : parseConf id (confText sample) = some [⟨[47, 97], 100, true⟩, ⟨[47, 98], 4294967295, false⟩] := by
  rw [C47_rules id sample sample_valid (by decide)]; rfl

/-- False: "a user number that is not a number is refused": one character after
the digits is let through (mntd/mntconf.c:142), so that "/a uid=10O" (letter O)
is for user 10 and "/a uid=0x" for root. -/
theorem C47_garbage_violated :
    parseConf id ([47, 97, 32] ++ [117, 105, 100, 61] ++ [49, 48, 79]) = some [⟨[47, 97], 10, false⟩] ∧
    parseConf id ([47, 97, 32] ++ [117, 105, 100, 61] ++ [48, 120]) = some [⟨[47, 97], 0, false⟩] := by
  decide +kernel

/-- False: "the digits of a user number are decimal": after a zero they are
octal, "/a uid=0100" is for user 64 (mntd/mntconf.c:137). -/
theorem C47_octal_violated :
    parseConf id ([47, 97, 32] ++ [117, 105, 100, 61] ++ [48, 49, 48, 48]) = some [⟨[47, 97], 64, false⟩] := by
  decide +kernel

/-- The recursive mark of rules. -/
def Svc.unmark (s : Svc) : Svc := { s with rules := s.rules.map fun l => l.map fun r => { r with recursive := false } }

theorem matchMount_unmark (w : Nat → World) (st : Stat) (t : Nat) (l : List Rule) :
    matchMount w st t (l.map fun r => { r with recursive := false }) =
      (matchMount w st t l).map fun r => { r with recursive := false } := by
  induction l generalizing t with
  | nil => rfl
  | cons r l ih =>
    simp only [List.map_cons, matchMount]
    by_cases h : equalPathByStat (w t) r.path st
    · rw [if_pos h, if_pos h]; rfl
    · rw [if_neg h, if_neg h, ih]

/-- False: "a rule said to be recursive covers what is below its path": the mark
is read from the file and never looked at (lib/mntsvc.c:835, TODO-0048); no mount
is granted that would not be without it. -/
theorem C47_recursive_violated (s : Svc) (w : Nat → World) (t : Nat) (m : Params) :
    checkMount s w t m = checkMount s.unmark w t m := by
  have hr : ∀ p, checkMountRule s w t p = checkMountRule s.unmark w t p := by
    intro p
    unfold checkMountRule Svc.unmark
    cases s.rules with
    | none => rfl
    | some rs =>
      simp only [Option.map_some]
      cases (w t).stat p with
      | error e => rfl
      | ok st =>
        simp only
        rw [matchMount_unmark]
        cases matchMount w st (t + 1) rs <;> rfl
  have hl : (s.unmark.rules.getD []).length = (s.rules.getD []).length := by
    unfold Svc.unmark
    cases s.rules <;> simp
  unfold checkMount
  simp only [hl, ← hr]
  rfl

end Silofs.Mnt
