import Verif.Props.Strview
set_option linter.unusedSimpArgs false
set_option linter.unusedVariables false
/-
C59: the functions which cut texts, against the specification in `Spec/Text.lean`.
-/
namespace Silofs.Sv

open Silofs.Text

theorem mem_takeWhile {p : Nat → Bool} {l : List Nat} {x : Nat} (h : x ∈ l.takeWhile p) : p x = true := by
  induction l with
  | nil => cases h
  | cons y l ih =>
    by_cases hp : p y = true
    · rw [List.takeWhile_cons, if_pos hp] at h
      rcases List.mem_cons.mp h with e | h
      · rw [e]
        exact hp
      · exact ih h
    · rw [List.takeWhile_cons, if_neg hp] at h
      cases h

theorem head_dropWhile {p : Nat → Bool} {l : List Nat} {x : Nat} (h : x ∈ (l.dropWhile p).head?) : p x = false := by
  induction l with
  | nil => cases h
  | cons y l ih =>
    by_cases hp : p y = true
    · rw [List.dropWhile_cons, if_pos hp] at h
      exact ih h
    · rw [List.dropWhile_cons, if_neg hp] at h
      cases h
      simpa using hp

theorem takeWhile_dropWhile (p : Nat → Bool) (l : List Nat) : l = l.takeWhile p ++ l.dropWhile p :=
  (List.takeWhile_append_dropWhile).symm

theorem cutAt_spec (c : Nat) (t : List Nat) : CutAt c t (Mnt.splitChr c t).1 (Mnt.splitChr c t).2 := by
  refine ⟨fun h => ?_, ?_⟩
  · have := mem_takeWhile h
    simp at this
  · unfold Mnt.splitChr
    simp only
    have e := takeWhile_dropWhile (· != c) t
    cases hd : t.dropWhile (· != c) with
    | nil =>
      right
      rw [hd, List.append_nil] at e
      exact ⟨e, rfl⟩
    | cons x r =>
      left
      have hx : (x != c) = false := head_dropWhile (p := (· != c)) (l := t) (by rw [hd]; rfl)
      have hx' : x = c := by simpa using hx
      rw [hd, hx'] at e
      exact e

theorem cut_spec (set t : List Nat) : Cut set t (t.takeWhile (fun x => !set.contains x))
    ((t.dropWhile (fun x => !set.contains x)).dropWhile (fun x => set.contains x)) := by
  refine ⟨fun x hx => ?_, (t.dropWhile (fun x => !set.contains x)).takeWhile (fun x => set.contains x), ?_, ?_, ?_, ?_⟩
  · have := mem_takeWhile hx
    simpa using this
  · rw [List.append_assoc, ← takeWhile_dropWhile, ← takeWhile_dropWhile]
  · intro x hx
    have := mem_takeWhile hx
    simpa using this
  · intro h
    cases hd : t.dropWhile (fun x => !set.contains x) with
    | nil => rfl
    | cons x r =>
      have hx : (!set.contains x) = false := head_dropWhile (p := fun x => !set.contains x) (l := t) (by rw [hd]; rfl)
      have hx' : set.contains x = true := by simpa using hx
      rw [hd, List.takeWhile_cons, if_pos hx'] at h
      cases h
  · intro x hx
    have := head_dropWhile hx
    simpa using this

theorem stripped_spec (set t : List Nat) : Stripped set t
    ((t.dropWhile (fun x => set.contains x)).reverse.dropWhile (fun x => set.contains x)).reverse := by
  have e1 := takeWhile_dropWhile (fun x => set.contains x) t
  have e2 := congrArg List.reverse (takeWhile_dropWhile (fun x => set.contains x) (t.dropWhile (fun x => set.contains x)).reverse)
  rw [List.reverse_reverse, List.reverse_append] at e2
  have last : ∀ x ∈ (((t.dropWhile (fun x => set.contains x)).reverse.dropWhile (fun x => set.contains x)).reverse).getLast?, x ∉ set := by
    intro x hx
    rw [List.getLast?_reverse] at hx
    have := head_dropWhile hx
    simpa using this
  refine ⟨t.takeWhile (fun x => set.contains x),
    ((t.dropWhile (fun x => set.contains x)).reverse.takeWhile (fun x => set.contains x)).reverse, ?_, ?_, ?_, ?_, last⟩
  · rw [List.append_assoc, ← e2]
    exact e1
  · intro x hx
    have := mem_takeWhile hx
    simpa using this
  · intro x hx
    have := mem_takeWhile (List.mem_reverse.mp hx)
    simpa using this
  · intro x hx
    generalize hu : ((t.dropWhile (fun x => set.contains x)).reverse.dropWhile (fun x => set.contains x)).reverse = u at *
    have : x ∈ (t.dropWhile (fun x => set.contains x)).head? := by
      rw [e2]
      cases u with
      | nil => cases hx
      | cons y u => exact hx
    have := head_dropWhile this
    simpa using this

/-- A text is cut at the first `c`; nothing outside the text is read, and both parts lie in it. -/
theorem C59_split_chr {b : Buf} {v : View} (h : Inside b v) (c : Nat) :
    ∃ p, splitChr b v c = some p ∧ Within p.1 v ∧ Within p.2 v ∧ CutAt c (bytes b v) (bytes b p.1) (bytes b p.2) := by
  obtain ⟨p, hp, w1, w2, e⟩ := splitChr_spec h c
  refine ⟨p, hp, w1, w2, ?_⟩
  have e1 := congrArg Prod.fst e
  have e2 := congrArg Prod.snd e
  simp only at e1 e2
  rw [e1, e2]
  exact cutAt_spec c _

/-- A text is cut at a run of separators. -/
theorem C59_split {b : Buf} {v : View} (h : Inside b v) (seps : List Nat) (hs : seps ≠ []) :
    ∃ p, split b v seps = some p ∧ Within p.1 v ∧ Within p.2 v ∧ Cut seps (bytes b v) (bytes b p.1) (bytes b p.2) := by
  obtain ⟨p, hp, w1, w2, e1, e2⟩ := split_spec h seps hs
  refine ⟨p, hp, w1, w2, ?_⟩
  rw [e1, e2]
  exact cut_spec seps _

/-- A text is cut at the first occurrence of another one. -/
theorem C59_split_str {b : Buf} {v : View} (h : Inside b v) (s : List Nat) (hs : 1 < s.length) :
    ∃ p, splitStr b v s = some p ∧ Within p.1 v ∧ Within p.2 v ∧
      ((First s (bytes b v) (bytes b p.1) ∧ bytes b v = bytes b p.1 ++ s ++ bytes b p.2) ∨
        (bytes b p.1 = bytes b v ∧ bytes b p.2 = [] ∧ ∀ k, ¬ At s (bytes b v) k)) := by
  have hl := length_bytes h
  obtain ⟨i, hi, hc⟩ := find_spec h s hs
  unfold splitStr
  rw [hi]
  refine ⟨_, rfl, sub_within _ _ _, sub_within _ _ _, ?_⟩
  simp only [mkPair]
  rw [bytes_sub h, bytes_sub h, List.drop_zero]
  rcases hc with ⟨hlt, hf⟩ | ⟨rfl, hn⟩
  · left
    refine ⟨hf, ?_⟩
    obtain ⟨r, hr⟩ := hf.1
    rw [if_pos hlt, List.take_of_length_le (i := v.len) (by simp; omega)]
    have hti : ((bytes b v).take i).length = i := by
      rw [List.length_take]
      omega
    have hd : (bytes b v).drop (i + s.length) = r := by
      conv => lhs; rw [hr]
      rw [List.drop_left' (by simp; omega)]
    rw [hd]
    exact hr
  · right
    unfold Inside at h
    rw [if_neg (by omega), List.take_of_length_le (by omega), List.drop_eq_nil_of_le (by omega), List.take_nil]
    exact ⟨rfl, rfl, hn⟩

/-- Characters of a set are taken off both ends. -/
theorem C59_strip {b : Buf} {v : View} (h : Inside b v) (set : List Nat) (hs : set ≠ []) :
    ∃ u, strip b v set = some u ∧ Within u v ∧ Stripped set (bytes b v) (bytes b u) := by
  obtain ⟨u, hu, wu, e⟩ := strip_spec h set hs
  refine ⟨u, hu, wu, ?_⟩
  rw [e]
  exact stripped_spec set _

/-- Comparison with a text, with the first and with the last character. -/
theorem C59_compare {b : Buf} {v : View} (h : Inside b v) (s : List Nat) (c : Nat) :
    isEqual b v s = some (decide (bytes b v = s)) ∧
    startsWith b v c = some (decide ((bytes b v).head? = some c)) ∧
    endsWith b v c = some (decide ((bytes b v).getLast? = some c)) := by
  have hl := length_bytes h
  refine ⟨?_, ?_, ?_⟩
  · unfold isEqual
    by_cases hn : v.len ≠ s.length
    · rw [if_pos hn]
      have : bytes b v ≠ s := fun e => hn (by rw [← hl, e])
      simp [this]
    · have hn' : v.len = s.length := by omega
      rw [if_neg hn, same_eq (by rw [← hn']; exact h.1), ← hn']
      show some (bytes b v == s) = _
      by_cases hh : bytes b v = s <;> simp [hh]
  · unfold startsWith
    by_cases h0 : 0 < v.len
    · rw [if_pos h0]
      obtain ⟨x, hx, hb⟩ := bytesAt_succ (b := b) (p := v.pos) (n := v.len - 1) (by unfold Inside at h; omega)
      rw [show v.len - 1 + 1 = v.len by omega] at hb
      have hb' : bytes b v = x :: bytesAt b (v.pos + 1) (v.len - 1) := hb
      rw [hx, hb']
      simp only [List.head?_cons, Option.some.injEq]
      congr 1
    · have : bytes b v = [] := List.length_eq_zero_iff.mp (by omega)
      rw [if_neg h0, this]
      rfl
  · unfold endsWith
    by_cases h0 : 0 < v.len
    · rw [if_pos h0]
      obtain ⟨x, hx, hb⟩ := bytesAt_last (b := b) (p := v.pos) (n := v.len - 1) (by unfold Inside at h; omega)
      rw [show v.len - 1 + 1 = v.len by omega] at hb
      have hb' : bytes b v = bytesAt b v.pos (v.len - 1) ++ [x] := hb
      rw [hx, hb']
      simp only [List.getLast?_append, List.getLast?_singleton, Option.some_or, Option.some.injEq]
      congr 1
    · have : bytes b v = [] := List.length_eq_zero_iff.mp (by omega)
      rw [if_neg h0, this]
      rfl

/-- The test for characters beyond ASCII. -/
theorem C59_ascii {b : Buf} {v : View} (h : Inside b v) : isAscii b v = some (decide (∀ x ∈ bytes b v, x < 128)) := by
  have hl := length_bytes h
  unfold isAscii
  rw [scan_eq _ _ _ _ h.1]
  have e := takeWhile_dropWhile (fun x => !decide (128 ≤ x)) (bytes b v)
  have hle := takeWhile_len_le (fun x => !decide (128 ≤ x)) (bytes b v)
  by_cases hc : ((bytes b v).takeWhile (fun x => !decide (128 ≤ x))).length < v.len
  · have hc' : ((bytesAt b v.pos v.len).takeWhile (fun x => !decide (128 ≤ x))).length < v.len := hc
    rw [if_pos hc']
    have : ¬ ∀ x ∈ bytes b v, x < 128 := by
      intro hall
      cases hd : (bytes b v).dropWhile (fun x => !decide (128 ≤ x)) with
      | nil =>
        rw [hd, List.append_nil] at e
        rw [← e] at hc
        omega
      | cons y r =>
        have hy := head_dropWhile (p := fun x => !decide (128 ≤ x)) (l := bytes b v) (x := y) (by rw [hd]; rfl)
        have hm : y ∈ bytes b v := by
          rw [e, hd]
          exact List.mem_append_right _ (List.mem_cons_self)
        have := hall y hm
        simp at hy
        omega
    simp [this]
  · have hc' : ¬ ((bytesAt b v.pos v.len).takeWhile (fun x => !decide (128 ≤ x))).length < v.len := hc
    rw [if_neg hc']
    have hall := takeWhile_all (p := fun x => !decide (128 ≤ x)) (l := bytes b v) (by omega)
    have : ∀ x ∈ bytes b v, x < 128 := by
      intro x hx
      rw [← hall.1] at hx
      have := mem_takeWhile hx
      simpa using this
    simp only [decide_eq_true this]

/-- A text copied into a buffer which has room for it and a zero byte is there as a string. -/
theorem C59_copy {b : Buf} {v : View} (h : Inside b v) (n : Nat) (hn : v.len < n) :
    ∃ m, copyTo b v n = some (bytes b v ++ 0 :: m, v.len) ∧ (bytes b v ++ 0 :: m).length = n := by
  have hl := length_bytes h
  unfold copyTo
  rw [Nat.min_eq_right (by omega), if_pos h.1]
  refine ⟨List.replicate (n - v.len - 1) 0, ?_, ?_⟩
  · rw [show n - v.len = n - v.len - 1 + 1 by omega, List.replicate_succ, Nat.add_sub_cancel]
    rfl
  · simp
    omega

/-- The last characters of a text, as many as there are at most. -/
theorem C59_rsub_partial {b : Buf} {v : View} (h : Inside b v) (n : Nat) (hn : n ≤ v.len) :
    Within (rsub v n) v ∧ bytes b (rsub v n) = (bytes b v).drop (v.len - n) := by
  have hl := length_bytes h
  have e : rsub v n = ⟨v.pos + (v.len - n), n⟩ := by
    unfold rsub
    unfold Inside at h
    have hv : v.len < npos := h.2
    unfold npos at hv
    rw [Nat.min_eq_left hn]
    congr 2
    omega
  rw [e]
  refine ⟨by unfold Within; simp only; omega, ?_⟩
  simp only [bytes]
  rw [bytesAt_add, show v.len - n + n = v.len by omega]

/-- FALSE of the code: that a request for more characters than there are gives the whole text. -/
theorem C59_rsub_violated : ∃ (b : Buf) (v : View) (n : Nat), Inside b v ∧ v.len < n ∧ ¬ Within (rsub v n) v ∧
    ¬ Inside b (rsub v n) := by
  refine ⟨[1, 2], ⟨0, 2⟩, 3, ?_⟩
  unfold Inside Within rsub npos
  decide

/-- Views inside an object. -/
example : Inside [97, 61, 98, 0] ⟨0, 3⟩ ∧
    splitChr [97, 61, 98, 0] ⟨0, 3⟩ 61 = some (⟨0, 1⟩, ⟨2, 1⟩) := by
  unfold Inside npos
  decide

example : Inside [32, 97, 32, 0] ⟨0, 3⟩ ∧ stripWs [32, 97, 32, 0] ⟨0, 3⟩ = some ⟨1, 1⟩ := by
  unfold Inside npos
  decide

example : splitStr [97, 32, 45, 32, 98] ⟨0, 5⟩ [32, 45, 32] = some (⟨0, 1⟩, ⟨4, 1⟩) := by decide

end Silofs.Sv
