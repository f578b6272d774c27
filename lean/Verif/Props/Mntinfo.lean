import Verif.Model.Mntinfo
import Verif.Spec.Mntinfo
import Verif.Props.Strview
set_option linter.unusedSimpArgs false
set_option linter.unusedVariables false
/-
C66: reading the list of mounts.
-/
namespace Silofs.Mi
open Silofs.Sv Silofs.MiSpec

/-! ### Reading the file -/

theorem readLoop_ok (f : List Nat) (pg bsz : Nat) (hpg : 0 < pg) (as : Nat → Ans)
    (has : ∀ n, ∃ k, as n = .upto k) (k len : Nat) (hl : len ≤ f.length) (hb : len ≤ bsz) (hk : bsz ≤ len + k) :
    readLoop f pg bsz as k len = .ok (min f.length bsz) := by
  induction k generalizing len with
  | zero =>
    unfold readLoop
    congr 1
    omega
  | succ k ih =>
    unfold readLoop
    by_cases h : len < bsz
    · rw [if_pos h]
      obtain ⟨n, hn⟩ := has len
      rw [hn]
      simp only
      by_cases h0 : min (min pg (bsz - len)) (min (n + 1) (f.length - len)) = 0
      · rw [if_pos h0]
        congr 1
        omega
      · rw [if_neg h0]
        exact ih _ (by omega) (by omega) (by omega)
    · rw [if_neg h]
      congr 1
      omega

/-- However the reads are cut, the buffer holds the file. -/
theorem readInfo_ok (f : List Nat) (pg : Nat) (hpg : 0 < pg) (as : Nat → Ans)
    (has : ∀ n, ∃ k, as n = .upto k) :
    readInfo f pg as = .ok (f.take BSZ ++ List.replicate (BSZ - f.length) 0) := by
  unfold readInfo
  rw [readLoop_ok f pg BSZ hpg as has BSZ 0 (by omega) (by omega) (by omega)]
  simp only
  congr 2
  · rw [show min f.length BSZ = min BSZ f.length by omega]
    rw [← List.take_take, List.take_length]
  · congr 1
    omega

/-- An error of a read ends the program. -/
theorem readLoop_err (f : List Nat) (pg bsz : Nat) (as : Nat → Ans) (k len e : Nat)
    (h : readLoop f pg bsz as k len = .error e) : ∃ n, as n = .err e := by
  induction k generalizing len with
  | zero => unfold readLoop at h; exact absurd h (by simp)
  | succ k ih =>
    unfold readLoop at h
    by_cases hl : len < bsz
    · rw [if_pos hl] at h
      cases ha : as len with
      | err x =>
        rw [ha] at h
        simp only at h
        exact ⟨len, by rw [ha]; cases h; rfl⟩
      | upto n =>
        rw [ha] at h
        simp only at h
        split at h
        · exact absurd h (by simp)
        · exact ih _ h
    · rw [if_neg hl] at h
      exact absurd h (by simp)

/-! ### Texts instead of views -/

/-- One turn of the loop on texts. -/
def fieldL : Nat → List Nat → List Nat → List Nat
  | 0, w, t => if w ≠ [] ∨ t ≠ [] then Mnt.stripWs w else []
  | i + 1, w, t =>
    if w ≠ [] ∨ t ≠ [] then
      fieldL i (t.takeWhile (fun x => !fieldSeps.contains x))
        ((t.dropWhile (fun x => !fieldSeps.contains x)).dropWhile (fun x => fieldSeps.contains x))
    else []

theorem bytes_nil {b : Buf} {v : View} (h : Inside b v) : bytes b v = [] ↔ v.len = 0 := by
  have := length_bytes h
  constructor
  · intro e; rw [e] at this; exact this.symm
  · intro e; exact List.length_eq_zero_iff.mp (by omega)

theorem fieldLoop_spec {b : Buf} {v : View} (hv : Inside b v) (i : Nat) (w t : View) (hw : Within w v)
    (ht : Within t v) : ∃ u, fieldLoop b i w t = some u ∧ Inside b u ∧
      bytes b u = fieldL i (bytes b w) (bytes b t) := by
  induction i generalizing w t with
  | zero =>
    unfold fieldLoop fieldL
    have h1 := bytes_nil (hw.inside hv)
    have h2 := bytes_nil (ht.inside hv)
    by_cases h : w.len ≠ 0 ∨ t.len ≠ 0
    · rw [if_pos h, if_pos (by rw [ne_eq, ne_eq, h1, h2]; exact h)]
      obtain ⟨u, hu, wu, eu⟩ := stripWs_spec (hw.inside hv)
      exact ⟨u, hu, wu.inside (hw.inside hv), eu⟩
    · rw [if_neg h, if_neg (by rw [ne_eq, ne_eq, h1, h2]; exact h)]
      exact ⟨_, rfl, ⟨by simp, by decide⟩, rfl⟩
  | succ i ih =>
    unfold fieldLoop fieldL
    have h1 := bytes_nil (hw.inside hv)
    have h2 := bytes_nil (ht.inside hv)
    by_cases h : w.len ≠ 0 ∨ t.len ≠ 0
    · rw [if_pos h, if_pos (by rw [ne_eq, ne_eq, h1, h2]; exact h)]
      obtain ⟨p, hp, w1, w2, e1, e2⟩ := split_spec (ht.inside hv) fieldSeps (by decide)
      rw [hp]
      simp only
      rw [← e1, ← e2]
      have tr : ∀ {u : View}, Within u t → Within u v := fun h => by
        unfold Within at *; omega
      exact ih _ _ (tr w1) (tr w2)
    · rw [if_neg h, if_neg (by rw [ne_eq, ne_eq, h1, h2]; exact h)]
      exact ⟨_, rfl, ⟨by simp, by decide⟩, rfl⟩

/-- A field of a text. -/
def field (i : Nat) (t : List Nat) : List Nat :=
  fieldL i (t.takeWhile (fun x => !fieldSeps.contains x))
    ((t.dropWhile (fun x => !fieldSeps.contains x)).dropWhile (fun x => fieldSeps.contains x))

theorem parseField_spec {b : Buf} {v : View} (hv : Inside b v) (i : Nat) :
    ∃ u, parseField b v i = some u ∧ Inside b u ∧ bytes b u = field i (bytes b v) := by
  unfold parseField
  obtain ⟨p, hp, w1, w2, e1, e2⟩ := split_spec hv fieldSeps (by decide)
  rw [hp]
  simp only
  unfold field
  rw [← e1, ← e2]
  exact fieldLoop_spec hv i _ _ w1 w2

/-- Cutting at a text: at its first occurrence, or nowhere. -/
theorem splitStr_spec {b : Buf} {v : View} (h : Inside b v) (s : List Nat) (hs : 1 < s.length) :
    ∃ p, splitStr b v s = some p ∧ Within p.1 v ∧ Within p.2 v ∧
      ((∃ t, Text.First s (bytes b v) t ∧ bytes b p.1 = t ∧ bytes b v = t ++ s ++ bytes b p.2) ∨
        ((∀ t, ¬ Text.At s (bytes b v) t) ∧ bytes b p.1 = bytes b v ∧ bytes b p.2 = [])) := by
  have hl := length_bytes h
  unfold splitStr
  obtain ⟨i, hi, hc⟩ := find_spec h s hs
  rw [hi]
  refine ⟨_, rfl, sub_within _ _ _, sub_within _ _ _, ?_⟩
  simp only [mkPair]
  rw [bytes_sub h, bytes_sub h, List.drop_zero]
  rcases hc with ⟨hlt, hf⟩ | ⟨he, hno⟩
  · left
    refine ⟨(bytes b v).take i, hf, rfl, ?_⟩
    rw [if_pos hlt]
    obtain ⟨r, hr⟩ := hf.1
    have h2 : (bytes b v).drop (i + s.length) = r := by
      have := congrArg (List.drop (i + s.length)) hr
      rw [this, List.drop_left' (by rw [List.length_append, List.length_take]; omega)]
    have h3 : r.take v.len = r := List.take_of_length_le (by rw [← h2, List.length_drop]; omega)
    rw [h2, h3]
    exact hr
  · right
    refine ⟨hno, ?_, ?_⟩
    · rw [List.take_of_length_le (by have := h.2; omega)]
    · rw [if_neg (by have := h.2; omega), List.drop_eq_nil_of_le (by omega), List.take_nil]

theorem parseLine_some {b : Buf} {v : View} (hv : Inside b v) :
    ∃ d a, parseLine b v = some (d, a) ∧ Inside b d ∧ Inside b a ∧
      ∀ t r, Text.First [32, 45, 32] (bytes b v) t → bytes b v = t ++ [32, 45, 32] ++ r →
        bytes b d = field 4 t ∧ bytes b a = field 2 r := by
  unfold parseLine
  obtain ⟨p, hp, w1, w2, hc⟩ := splitStr_spec hv [32, 45, 32] (by decide)
  rw [hp]
  simp only
  obtain ⟨d, hd, id, ed⟩ := parseField_spec (w1.inside hv) 4
  obtain ⟨a, ha, ia, ea⟩ := parseField_spec (w2.inside hv) 2
  rw [hd, ha]
  refine ⟨d, a, rfl, id, ia, fun t r hf hr => ?_⟩
  rcases hc with ⟨t', hf', e1, e2⟩ | ⟨hno, _⟩
  · have hlen : t.length = t'.length := Nat.le_antisymm (hf.2 _ hf'.1) (hf'.2 _ hf.1)
    have ht : t = t' := by rw [at_take hf.1, at_take hf'.1, hlen]
    subst ht
    have : r = bytes b p.2 := by
      rw [hr] at e2
      exact List.append_cancel_left e2
    rw [ed, ea, e1, this]
    exact ⟨rfl, rfl⟩
  · exact (hno _ hf.1).elim

theorem newText_spec {b : Buf} {v : View} (hv : Inside b v) :
    newText b v = some ((bytes b v).takeWhile (· ≠ 0)) := by
  have hl := length_bytes hv
  unfold newText copyTo
  have hr : v.len < roundUp (v.len + 1) := by unfold roundUp; omega
  rw [show min (roundUp (v.len + 1)) v.len = v.len by omega, if_pos hv.1]
  simp only
  have e : List.take v.len (List.drop v.pos b) = bytes b v := rfl
  rw [e]
  obtain ⟨n, hn⟩ : ∃ n, roundUp (v.len + 1) - v.len = n + 1 := ⟨roundUp (v.len + 1) - v.len - 1, by omega⟩
  rw [hn, if_pos (by rw [List.replicate_succ]; simp)]
  congr 1
  unfold Rep.cstr
  rw [List.drop_zero, List.replicate_succ]
  generalize bytes b v = l
  induction l with
  | nil => rfl
  | cons c l ih =>
    rw [List.cons_append]
    by_cases hc : c = 0
    · subst hc; rfl
    · rw [List.takeWhile_cons_of_pos (by simpa using hc), List.takeWhile_cons_of_pos (by simpa using hc), ih]

theorem newMntinfo_some {b : Buf} {v : View} (hv : Inside b v) :
    ∃ m, newMntinfo b v = some m ∧
      ∀ t r, Text.First [32, 45, 32] (bytes b v) t → bytes b v = t ++ [32, 45, 32] ++ r →
        m.mntdir = (field 4 t).takeWhile (· ≠ 0) ∧ m.mntargs = (field 2 r).takeWhile (· ≠ 0) := by
  obtain ⟨d, a, hp, id, ia, h⟩ := parseLine_some hv
  unfold newMntinfo
  rw [hp]
  simp only
  rw [newText_spec id, newText_spec ia]
  refine ⟨_, rfl, fun t r hf hr => ?_⟩
  obtain ⟨h1, h2⟩ := h t r hf hr
  rw [h1, h2]
  exact ⟨rfl, rfl⟩

theorem isSilofs_spec {b : Buf} {v : View} (hv : Inside b v) :
    ∃ x, isSilofs b v = some x ∧ (x = true ↔ ∃ h r, bytes b v = h ++ fuseSilofs ++ r) := by
  unfold isSilofs
  obtain ⟨i, hi, hc⟩ := find_spec hv fuseSilofs (by decide)
  rw [hi]
  refine ⟨_, rfl, ?_⟩
  rcases hc with ⟨hlt, ⟨r, hr⟩, _⟩ | ⟨he, hno⟩
  · simp only [decide_eq_true_eq]
    exact ⟨fun _ => ⟨_, r, hr⟩, fun _ => hlt⟩
  · simp only [decide_eq_true_eq]
    constructor
    · intro hlt; have := hv.2; omega
    · rintro ⟨h, r, hr⟩
      exact (hno h ⟨r, hr⟩).elim

/-! ### All lines -/

/-- The reading of one line. -/
def Read (b : Buf) (line : List Nat) (m : Mnt) : Prop :=
  ∀ t r, Text.First [32, 45, 32] line t → line = t ++ [32, 45, 32] ++ r →
    m.mntdir = (field 4 t).takeWhile (· ≠ 0) ∧ m.mntargs = (field 2 r).takeWhile (· ≠ 0)

theorem takeWhile_line (c : Nat) (x r : List Nat) (hx : c ∉ x) :
    Silofs.Mnt.splitChr c (x ++ c :: r) = (x, r) := by
  unfold Silofs.Mnt.splitChr
  induction x with
  | nil => simp
  | cons a x ih =>
    have ha : a ≠ c := fun e => hx (by simp [e])
    have hx' : c ∉ x := fun e => hx (by simp [e])
    have := ih hx'
    simp only [Prod.mk.injEq] at this
    rw [List.cons_append, List.takeWhile_cons_of_pos (by simpa using ha),
      List.dropWhile_cons_of_pos (by simpa using ha), this.1, this.2]

/-- Never a read outside the buffer, whatever it holds. -/
theorem parseLoop_some {b : Buf} {v : View} (hv : Inside b v) (k : Nat) (line tail : View)
    (hl : Within line v) (ht : Within tail v) (l : List Mnt) : ∃ r, parseLoop b k line tail l = some r := by
  induction k generalizing line tail l with
  | zero => exact ⟨l, rfl⟩
  | succ k ih =>
    unfold parseLoop
    split
    · obtain ⟨x, hx, _⟩ := isSilofs_spec (hl.inside hv)
      rw [hx]
      obtain ⟨p, hp, w1, w2, e⟩ := splitChr_spec (ht.inside hv) 10
      have tr : ∀ {u : View}, Within u tail → Within u v := fun h => by
        unfold Within at *; omega
      cases x with
      | true =>
        simp only
        obtain ⟨m, hm, _⟩ := newMntinfo_some (hl.inside hv)
        rw [hm, hp]
        exact ih _ _ (tr w1) (tr w2) _
      | false =>
        simp only
        rw [hp]
        exact ih _ _ (tr w1) (tr w2) _
    · exact ⟨l, rfl⟩

/-- The lines of a text, one after the other. -/
theorem parseLoop_text {b : Buf} {v : View} (hv : Inside b v) (g : List Nat → Mnt) (ls : List (List Nat))
    (hg : ∀ x ∈ ls, x ≠ [] ∧ 10 ∉ x)
    (hd : ∀ x ∈ ls, fuseSilofs <:+: x → ∀ u, Inside b u → bytes b u = x → newMntinfo b u = some (g x))
    (k : Nat) (line tail : View) (hl : Within line v) (ht : Within tail v) (l : List Mnt)
    (he : Mnt.splitChr 10 (ls.flatMap (fun x => x ++ [10])) = (bytes b line, bytes b tail))
    (hk : ls.length < k) :
    parseLoop b k line tail l = some (((ls.filter (fun x => decide (fuseSilofs <:+: x))).map g).reverse ++ l) := by
  induction ls generalizing k line tail l with
  | nil =>
    obtain ⟨k, rfl⟩ : ∃ j, k = j + 1 := ⟨k - 1, by simp at hk; omega⟩
    have e : (bytes b line, bytes b tail) = ([], []) := he.symm
    have h1 := (bytes_nil (hl.inside hv)).mp (Prod.mk.inj e).1
    have h2 := (bytes_nil (ht.inside hv)).mp (Prod.mk.inj e).2
    unfold parseLoop
    rw [if_neg (by omega)]
    rfl
  | cons x ls ih =>
    obtain ⟨k, rfl⟩ : ∃ j, k = j + 1 := ⟨k - 1, by simp at hk; omega⟩
    rw [List.flatMap_cons, List.append_assoc, List.singleton_append, takeWhile_line 10 x _ (hg x (by simp)).2] at he
    have e1 := (Prod.mk.inj he).1
    have e2 := (Prod.mk.inj he).2
    have hne : line.len ≠ 0 := by
      intro h0
      exact (hg x (by simp)).1 (e1.trans ((bytes_nil (hl.inside hv)).mpr h0))
    unfold parseLoop
    rw [if_pos (Or.inl hne)]
    obtain ⟨y, hy, hyi⟩ := isSilofs_spec (hl.inside hv)
    obtain ⟨p, hp, w1, w2, e⟩ := splitChr_spec (ht.inside hv) 10
    have tr : ∀ {u : View}, Within u tail → Within u v := fun h => by
      unfold Within at *; omega
    rw [← e2] at e
    have hin : y = true ↔ fuseSilofs <:+: x := by
      rw [hyi, ← e1]
      constructor
      · rintro ⟨h, r, hr⟩; exact ⟨h, r, hr.symm⟩
      · rintro ⟨h, r, hr⟩; exact ⟨h, r, hr.symm⟩
    have hrec := fun l => ih (fun x hx => hg x (by simp [hx])) (fun x hx => hd x (by simp [hx])) k p.1 p.2
      (tr w1) (tr w2) l e.symm (by simp at hk; omega)
    rw [hy]
    cases y with
    | true =>
      have hx := hin.mp rfl
      simp only
      rw [hd x (by simp) hx line (hl.inside hv) e1.symm, hp]
      simp only
      rw [hrec, List.filter_cons_of_pos (by simpa using hx)]
      simp
    | false =>
      have hx : ¬ fuseSilofs <:+: x := fun h => by have := hin.mpr h; exact absurd this (by decide)
      simp only
      rw [hp]
      simp only
      rw [hrec, List.filter_cons_of_neg (by simpa using hx)]

/-! ### Lines of the kernel -/

theorem word_seps {w : List Nat} (h : ∀ c ∈ w, Plain c) (x : Nat) (hx : x ∈ w) : fieldSeps.contains x = false := by
  have := h x hx
  unfold Plain at this
  simp [fieldSeps]
  omega

theorem takeWhile_all_of {p : Nat → Bool} {w : List Nat} (h : ∀ x ∈ w, p x = true) : w.takeWhile p = w := by
  induction w with
  | nil => rfl
  | cons a w ih =>
    rw [List.takeWhile_cons_of_pos (h a (by simp)), ih (fun x hx => h x (by simp [hx]))]

theorem dropWhile_none_of {p : Nat → Bool} {w : List Nat} (h : ∀ x ∈ w, p x = false) : w.dropWhile p = w := by
  cases w with
  | nil => rfl
  | cons a w => rw [List.dropWhile_cons_of_neg (by simp [h a (by simp)])]

theorem takeWhile_word {w r : List Nat} (h : ∀ c ∈ w, Plain c) :
    (w ++ 32 :: r).takeWhile (fun x => !fieldSeps.contains x) = w := by
  rw [List.takeWhile_append_of_pos (fun x hx => by rw [word_seps h x hx]; rfl)]
  rw [List.takeWhile_cons_of_neg (by decide), List.append_nil]

theorem dropWhile_word {w r : List Nat} (h : ∀ c ∈ w, Plain c) :
    (w ++ 32 :: r).dropWhile (fun x => !fieldSeps.contains x) = 32 :: r := by
  rw [List.dropWhile_append_of_pos (fun x hx => by rw [word_seps h x hx]; rfl)]
  rw [List.dropWhile_cons_of_neg (by decide)]

theorem spaced_head {w : List Nat} {ws : List (List Nat)} (hw : ∀ c ∈ w, Plain c) (hn : w ≠ []) :
    (spaced (w :: ws)).dropWhile (fun x => fieldSeps.contains x) = spaced (w :: ws) := by
  obtain ⟨a, w, rfl⟩ := List.exists_cons_of_ne_nil hn
  have ha := word_seps hw a (by simp)
  cases ws with
  | nil => simp only [spaced]; rw [List.dropWhile_cons_of_neg (by rw [ha]; decide)]
  | cons v ws => simp only [spaced]; rw [List.cons_append, List.dropWhile_cons_of_neg (by rw [ha]; decide)]

theorem stripWs_word {w : List Nat} (h : ∀ c ∈ w, Plain c) : Mnt.stripWs w = w := by
  have hp : ∀ x ∈ w, Mnt.isWs x = false := fun x hx => by
    have := h x hx
    unfold Plain at this
    simp [Mnt.isWs]
    omega
  unfold Mnt.stripWs
  rw [dropWhile_none_of hp, dropWhile_none_of (fun x hx => hp x (List.mem_reverse.mp hx)), List.reverse_reverse]

theorem field_cut {w : List Nat} {ws : List (List Nat)} (hw : Word w) (hws : ∀ x ∈ ws, Word x) :
    (spaced (w :: ws)).takeWhile (fun x => !fieldSeps.contains x) = w ∧
    ((spaced (w :: ws)).dropWhile (fun x => !fieldSeps.contains x)).dropWhile (fun x => fieldSeps.contains x)
      = spaced ws := by
  cases ws with
  | nil =>
    have hp : ∀ x ∈ w, (fun x => !fieldSeps.contains x) x = true := fun x hx => by
      simp only [word_seps hw.2.2 x hx, Bool.not_false]
    have hn : w.dropWhile (fun x => !fieldSeps.contains x) = [] := by
      have e := List.takeWhile_append_dropWhile (p := fun x => !fieldSeps.contains x) (l := w)
      rw [takeWhile_all_of hp] at e
      exact List.append_cancel_left (e.trans (List.append_nil w).symm)
    simp only [spaced]
    rw [takeWhile_all_of hp, hn]
    exact ⟨rfl, rfl⟩
  | cons v ws =>
    simp only [spaced]
    rw [takeWhile_word hw.2.2, dropWhile_word hw.2.2, List.dropWhile_cons_of_pos (by decide)]
    exact ⟨rfl, spaced_head (hws v (by simp)).2.2 (hws v (by simp)).1⟩

/-- Fields of words with spaces between. -/
theorem field_spaced (i : Nat) (ws : List (List Nat)) (hws : ∀ x ∈ ws, Word x) (w : List Nat)
    (hi : ws[i]? = some w) : field i (spaced ws) = w := by
  induction i generalizing ws with
  | zero =>
    cases ws with
    | nil => exact absurd hi (by simp)
    | cons a ws =>
      simp only [List.getElem?_cons_zero, Option.some.injEq] at hi
      subst hi
      have h := field_cut (ws := ws) (hws a (by simp)) (fun x hx => hws x (by simp [hx]))
      unfold field
      rw [h.1, h.2]
      unfold fieldL
      rw [if_pos (Or.inl (hws a (by simp)).1), stripWs_word (hws a (by simp)).2.2]
  | succ i ih =>
    cases ws with
    | nil => exact absurd hi (by simp)
    | cons a ws =>
      rw [List.getElem?_cons_succ] at hi
      have h := field_cut (ws := ws) (hws a (by simp)) (fun x hx => hws x (by simp [hx]))
      unfold field
      rw [h.1, h.2]
      unfold fieldL
      rw [if_pos (Or.inl (hws a (by simp)).1)]
      exact ih ws (fun x hx => hws x (by simp [hx])) hi

/-- " - " is not in words with spaces between, nor begins there. -/
theorem first_dash (ws : List (List Nat)) (hn : ws ≠ []) (hws : ∀ x ∈ ws, Word x) (r : List Nat) :
    Text.First [32, 45, 32] (spaced ws ++ [32, 45, 32] ++ r) (spaced ws) := by
  refine ⟨⟨r, rfl⟩, ?_⟩
  induction ws with
  | nil => exact (hn rfl).elim
  | cons w ws ih =>
    have hw := hws w (by simp)
    have low : ∀ (t h' : List Nat), Text.At [32, 45, 32] (w ++ t) h' → w.length ≤ h'.length := by
      rintro t h' ⟨q, hq⟩
      by_cases hlt : h'.length < w.length
      · exfalso
        have e := congrArg (fun l => l[h'.length]?) hq
        rw [List.getElem?_append_left hlt, List.append_assoc, List.getElem?_append_right (by omega)] at e
        have hm : (32 : Nat) ∈ w := by
          simp only [Nat.sub_self, List.cons_append, List.getElem?_cons_zero] at e
          exact List.mem_of_getElem? e
        exact (hw.2.2 32 hm).2.1 rfl
      · omega
    cases ws with
    | nil =>
      intro h' ha
      simp only [spaced, List.append_assoc] at ha ⊢
      exact low _ _ ha
    | cons v ws =>
      intro h' ha
      have hv := hws v (by simp)
      have ha0 := ha
      simp only [spaced, List.append_assoc] at ha
      have h1 := low _ _ ha
      obtain ⟨q, hq⟩ := ha
      have hpre : w <+: h' := by
        have p1 : w <+: (h' ++ [32, 45, 32] ++ q) := ⟨_, hq⟩
        have p2 : h' <+: (h' ++ [32, 45, 32] ++ q) := by rw [List.append_assoc]; exact ⟨_, rfl⟩
        exact List.prefix_of_prefix_length_le p1 p2 h1
      obtain ⟨z, rfl⟩ := hpre
      rw [List.append_assoc, List.append_assoc] at hq
      have hq' := List.append_cancel_left hq
      cases z with
      | nil =>
        exfalso
        rw [List.nil_append] at hq'
        have hq2 := (List.cons.inj hq').2
        -- the next word begins with "- "
        obtain ⟨a, v', rfl⟩ := List.exists_cons_of_ne_nil hv.1
        have key : ∀ t, (a :: v') ++ 32 :: t = [45, 32] ++ q → False := by
          intro t ht
          rw [List.cons_append] at ht
          have e1 : a = 45 := (List.cons.inj ht).1
          have e2 := (List.cons.inj ht).2
          cases v' with
          | nil => exact hv.2.1 (by rw [e1])
          | cons c v'' =>
            have e3 : c = 32 := (List.cons.inj e2).1
            exact (hv.2.2 c (by simp)).2.1 e3
        cases ws with
        | nil =>
          simp only [spaced] at hq2
          exact key _ hq2
        | cons u ws =>
          simp only [spaced] at hq2
          have hq3 : (a :: v') ++ 32 :: spaced (u :: ws) ++ ([32, 45, 32] ++ r) = [45, 32] ++ q := hq2
          rw [List.append_assoc] at hq3
          exact key _ hq3
      | cons c z =>
        have e1 := (List.cons.inj hq').1
        have e2 := (List.cons.inj hq').2
        have := ih (by simp) (fun x hx => hws x (by simp [hx])) z ⟨q, by
          rw [List.append_assoc, List.append_assoc]; exact e2⟩
        simp only [spaced, List.length_append, List.length_cons] at this ⊢
        omega

theorem esc_plain {p : List Nat} (h : ∀ c ∈ p, c ≠ 0 ∧ c ≠ 11 ∧ c ≠ 12 ∧ c ≠ 13) : ∀ c ∈ esc p, Plain c := by
  induction p with
  | nil => intro c hc; exact absurd hc (by simp [esc])
  | cons a p ih =>
    intro c hc
    rw [esc, List.mem_append] at hc
    rcases hc with hc | hc
    · have ha := h a (by simp)
      split at hc
      · rename_i hs
        unfold Plain
        rcases hs with rfl | rfl | rfl | rfl <;> simp at hc <;> omega
      · rename_i hs
        have : c = a := by simpa using hc
        subst this
        unfold Plain
        omega
    · exact ih (fun c hc => h c (by simp [hc])) c hc

theorem esc_path {p : List Nat} (h : Path p) : Word (esc p) := by
  obtain ⟨h1, h2⟩ := h
  cases p with
  | nil => exact absurd h1 (by simp)
  | cons a p =>
    simp only [List.head?_cons, Option.some.injEq] at h1
    subst h1
    refine ⟨by simp [esc], ?_, esc_plain h2⟩
    rw [esc, if_neg (by decide)]
    intro e
    exact absurd (List.cons.inj e).1 (by decide)

theorem ok_words {m : Mount} (h : Ok m) : ∀ w ∈ m.ids ++ [esc m.root, esc m.dir] ++ m.opts, Word w := by
  intro w hw
  rw [List.mem_append, List.mem_append] at hw
  rcases hw with (hw | hw) | hw
  · exact h.ids.2 w hw
  · simp only [List.mem_cons, List.not_mem_nil, or_false] at hw
    rcases hw with rfl | rfl
    · exact esc_path h.root
    · exact esc_path h.dir
  · exact h.opts w hw

theorem spaced_not_mem {ws : List (List Nat)} (h : ∀ w ∈ ws, Word w) (c : Nat) (hc : ¬ Plain c) (h32 : c ≠ 32) :
    c ∉ spaced ws := by
  induction ws with
  | nil => simp [spaced]
  | cons w ws ih =>
    have hw : c ∉ w := fun e => hc ((h w (by simp)).2.2 c e)
    have ih := ih (fun x hx => h x (by simp [hx]))
    cases ws with
    | nil => simpa [spaced] using hw
    | cons v ws =>
      simp only [spaced, List.mem_append, List.mem_cons] at ih ⊢
      rintro (e | e | e)
      · exact hw e
      · exact h32 e
      · exact ih e

theorem line_not_mem {m : Mount} (h : Ok m) (c : Nat) (hc : c = 0 ∨ c = 10) : c ∉ line m := by
  have hp : ¬ Plain c := by unfold Plain; omega
  unfold line
  simp only [List.mem_append, List.mem_cons, List.not_mem_nil, or_false]
  rintro ((e | e | e | e) | e)
  · exact spaced_not_mem (ok_words h) c hp (by omega) (by simpa using e)
  · omega
  · omega
  · omega
  · refine spaced_not_mem (ws := [m.fstype, m.source, m.super]) ?_ c hp (by omega) e
    intro w hw
    simp only [List.mem_cons, List.not_mem_nil, or_false] at hw
    rcases hw with rfl | rfl | rfl
    · exact h.tail.1
    · exact h.tail.2.1
    · exact h.tail.2.2

theorem takeWhile_nz {w : List Nat} (h : ∀ c ∈ w, Plain c) : w.takeWhile (· ≠ 0) = w :=
  takeWhile_all_of (fun x hx => by have := h x hx; unfold Plain at this; simp; omega)

/-- What a line of the kernel is read as. -/
theorem newMntinfo_line {b : Buf} {v : View} (hv : Inside b v) {m : Mount} (h : Ok m)
    (e : bytes b v = line m) : newMntinfo b v = some ⟨esc m.dir, m.super⟩ := by
  obtain ⟨x, hx, hr⟩ := newMntinfo_some hv
  rw [hx]
  congr 1
  have hne : m.ids ++ [esc m.root, esc m.dir] ++ m.opts ≠ [] := by simp
  obtain ⟨h1, h2⟩ := hr (spaced (m.ids ++ [esc m.root, esc m.dir] ++ m.opts))
    (spaced [m.fstype, m.source, m.super])
    (by rw [e]; unfold line; exact first_dash _ hne (ok_words h) _) (by rw [e]; rfl)
  rw [field_spaced 4 _ (ok_words h) (esc m.dir) (by
    rw [List.append_assoc, List.getElem?_append_right (by have := h.ids.1; omega), h.ids.1]; rfl)] at h1
  rw [field_spaced 2 _ (by
    intro w hw
    simp only [List.mem_cons, List.not_mem_nil, or_false] at hw
    rcases hw with rfl | rfl | rfl
    · exact h.tail.1
    · exact h.tail.2.1
    · exact h.tail.2.2) m.super rfl] at h2
  rw [takeWhile_nz (esc_path h.dir).2.2] at h1
  rw [takeWhile_nz h.tail.2.2.2.2] at h2
  cases x
  simp only at h1 h2
  rw [h1, h2]

end Silofs.Mi
