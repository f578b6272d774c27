import Verif.Model.Qalloc
/-
What the users of the allocator rely on.  A client keeps a list of what it holds, each with offset and length.
-/
namespace Silofs.Qalloc

/-- What a client holds: offset and length. -/
abbrev Held := List (Nat × Nat)

/-- Two ranges have no byte in common. -/
def Apart (x y : Nat × Nat) : Prop := x.1 + x.2 ≤ y.1 ∨ y.1 + y.2 ≤ x.1

/-- Byte `a` is in the range. -/
def Within (a : Nat) (x : Nat × Nat) : Prop := x.1 ≤ a ∧ a < x.1 + x.2

/-- Page `q` (of 65536 bytes) has a byte of something held. -/
def Occupied (L : Held) (q : Nat) : Prop := ∃ x ∈ L, ∃ a, Within a x ∧ a / 65536 = q

/-- Executions of a client which keeps the rules: it frees what it holds, with the length it asked for, and
writes only what it holds.  `Reach n d s L`: after some such execution, on a region of `n` pages, the allocator
is in state `s` and the client holds `L`. -/
inductive Reach (n : Nat) (d : Bool) : St → Held → Prop where
  | init : Reach n d (St.init n d) []
  | malloc {s s' L nb f g o} : Reach n d s L → s.malloc nb f g = (.ptr o, s') → Reach n d s' ((o, nb) :: L)
  | nomem {s s' L nb f g} : Reach n d s L → s.malloc nb f g = (.null, s') → Reach n d s' L
  | free {s s' L x f g} : Reach n d s L → x ∈ L → s.free x.1 x.2 f g = some s' → Reach n d s' (L.erase x)
  | write {s L a v x} : Reach n d s L → x ∈ L → Within a x → Reach n d (s.write a v) L

end Silofs.Qalloc
