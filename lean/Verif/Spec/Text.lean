/-
Cutting of texts, said on lists of characters.
-/
namespace Silofs.Text

/-- `s` occurs in `t` after `h`. -/
def At (s t h : List Nat) : Prop := ∃ r, t = h ++ s ++ r

/-- The first occurrence of `s` in `t` is after `h`. -/
def First (s t h : List Nat) : Prop := At s t h ∧ ∀ h', At s t h' → h.length ≤ h'.length

/-- The text without characters of the set at its ends. -/
def Stripped (set t u : List Nat) : Prop :=
  ∃ l r, t = l ++ u ++ r ∧ (∀ x ∈ l, x ∈ set) ∧ (∀ x ∈ r, x ∈ set) ∧
    (∀ x ∈ u.head?, x ∉ set) ∧ (∀ x ∈ u.getLast?, x ∉ set)

/-- The text cut at the first character of the set; the second part starts after all characters of
the set there. -/
def Cut (set t h r : List Nat) : Prop :=
  (∀ x ∈ h, x ∉ set) ∧
  ∃ m, t = h ++ m ++ r ∧ (∀ x ∈ m, x ∈ set) ∧ (m = [] → r = []) ∧ (∀ x ∈ r.head?, x ∉ set)

/-- The text cut at the first `c`, if there is one. -/
def CutAt (c : Nat) (t h r : List Nat) : Prop :=
  c ∉ h ∧ (t = h ++ c :: r ∨ (t = h ∧ r = []))

end Silofs.Text
