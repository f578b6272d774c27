import Verif.Model.Snap
/-
Specification of snapshots: every volume is a map from objects to content, and a request
changes only what it names, in the mounted volume.
-/
namespace Silofs.SnapSpec
open Silofs.Snap (Lvid Act)

/-- The volumes as a user sees them. -/
structure Vols where
  cur : Lvid
  view : Lvid → Nat → Nat → Option (Nat → Nat)

/-- Set one object of the mounted volume. -/
def Vols.set (m : Vols) (b j : Nat) (x : Option (Nat → Nat)) : Vols :=
  { m with view := fun v b' j' => if v = m.cur ∧ b' = b ∧ j' = j then x else m.view v b' j' }

/-- What each request may do. -/
def Next (a : Act) (m m' : Vols) : Prop :=
  match a with
  | .internal => m' = m
  | .touch _ _ => m' = m
  | .write b j g => ∃ x, m.view m.cur b j = some x ∧ m' = m.set b j (some (g x))
  | .spawn b j => m.view m.cur b j = none ∧ m' = m.set b j (some fun _ => 0)
  | .free b j => m.view m.cur b j ≠ none ∧ m' = m.set b j none
  | .fork a n => m' = { cur := n, view := fun v => if v = a ∨ v = n then m.view m.cur else m.view v }
  | .mount v => m' = { m with cur := v }

end Silofs.SnapSpec
