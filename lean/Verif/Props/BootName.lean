import Verif.Model.Boot
/-!
C48: which names a file-system may have, and that its temporary file is no such name.
-/
set_option linter.unusedSimpArgs false
namespace Silofs.Boot

/-- Letters, digits and `_`, `-`, `+`, `.` as a user reads them. -/
def PlainName (s : List Nat) : Prop :=
  s ≠ [] ∧ s.length ≤ 127 ∧ s.head? ≠ some ('.'.toNat) ∧
  ∀ c ∈ s, ('a'.toNat ≤ c ∧ c ≤ 'z'.toNat) ∨ ('A'.toNat ≤ c ∧ c ≤ 'Z'.toNat) ∨
    ('0'.toNat ≤ c ∧ c ≤ '9'.toNat) ∨ c ∈ ['_', '-', '+', '.'].map Char.toNat

theorem fsChar_iff (c : Nat) : fsChar c = true ↔ (('a'.toNat ≤ c ∧ c ≤ 'z'.toNat) ∨ ('A'.toNat ≤ c ∧ c ≤ 'Z'.toNat) ∨
    ('0'.toNat ≤ c ∧ c ≤ '9'.toNat) ∨ c ∈ ['_', '-', '+', '.'].map Char.toNat) := by
  have e : ['_', '-', '+', '.'].map Char.toNat = [95, 45, 43, 46] := by decide
  have a : 'a'.toNat = 97 := by decide
  have b : 'z'.toNat = 122 := by decide
  have c1 : 'A'.toNat = 65 := by decide
  have d : 'Z'.toNat = 90 := by decide
  have f : '0'.toNat = 48 := by decide
  have g : '9'.toNat = 57 := by decide
  rw [e, a, b, c1, d, f, g]
  unfold fsChar
  simp only [Bool.or_eq_true, Bool.and_eq_true, decide_eq_true_eq, beq_iff_eq, List.mem_cons, List.not_mem_nil, or_false]
  omega

/-- **C48 (names)**: a name is accepted for a file-system exactly if it is plain. -/
theorem C48_name (s : List Nat) : fsnameOk s = true ↔ PlainName s := by
  unfold fsnameOk PlainName
  simp only [Bool.and_eq_true, bne_iff_ne, ne_eq, decide_eq_true_eq, List.all_eq_true, fsChar_iff,
    List.length_eq_zero_iff]
  constructor
  · rintro ⟨⟨⟨⟨⟨h1, h2⟩, h3⟩, h4⟩, h5⟩, h6⟩
    exact ⟨h1, h5, h4, h6⟩
  · rintro ⟨h1, h2, h3, h4⟩
    refine ⟨⟨⟨⟨⟨h1, by omega⟩, fun c hc e => ?_⟩, h3⟩, h2⟩, h4⟩
    have := h4 c hc
    rw [e] at this
    revert this
    decide

/-- **C48 (names)**: an accepted name is one component of a path: not empty, no `/`, neither `.` nor
`..`, no NUL; the temporary file through which its boot reference is replaced is not a
name of any file-system, and differs for different names. -/
theorem C48_tmp_name (s : List Nat) (h : fsnameOk s = true) :
    s ≠ [] ∧ 47 ∉ s ∧ 0 ∉ s ∧ s ≠ [46] ∧ s ≠ [46, 46] ∧
    (∀ t, fsnameOk t = true → tmpName s ≠ t) ∧ (∀ t, tmpName s = tmpName t → s = t) := by
  have hp := (C48_name s).mp h
  obtain ⟨h1, h2, h3, h4⟩ := hp
  refine ⟨h1, fun m => ?_, fun m => ?_, ?_, ?_, fun t ht e => ?_, fun t e => ?_⟩
  · exact absurd (h4 _ m) (by decide)
  · exact absurd (h4 _ m) (by decide)
  · rintro rfl; exact h3 (by decide)
  · rintro rfl; exact h3 (by decide)
  · have := ((C48_name t).mp ht).2.2.2 126 (by rw [← e]; unfold tmpName; simp)
    exact absurd this (by decide)
  · unfold tmpName at e
    exact List.append_cancel_right e

example : fsnameOk [109, 121, 45, 102, 115] = true := by decide
example : fsnameOk [46, 102, 115] = false ∧ fsnameOk [97, 47, 98] = false := by decide

end Silofs.Boot
