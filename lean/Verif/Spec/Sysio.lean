import Verif.Model.Sysio
/-
What a caller of the whole-read and whole-write functions relies on, stated on the bytes of the
file alone.
-/
namespace Silofs.Sysio

/-- `f'` is `f` with the bytes `l` at `off` and nothing else changed. -/
def Wrote (f : File) (off : Nat) (l : List Byte) (f' : File) : Prop :=
  f'.size = (if l = [] then f.size else max f.size (off + l.length)) ∧
  (∀ i b, l[i]? = some b → f'.byte (off + i) = b) ∧
  (∀ i, (i < off ∨ off + l.length ≤ i) → f'.byte i = f.byte i)

/-- `l` are the `n` bytes of `f` from `off` on, all of them inside the file. -/
def Holds (f : File) (off n : Nat) (l : List Byte) : Prop :=
  l.length = n ∧ (0 < n → off + n ≤ f.size) ∧ ∀ i b, l[i]? = some b → f.byte (off + i) = b

/-- The kernel reports no error and makes progress whenever it is not interrupted. -/
def Steady (as : List Ans) : Prop := ∀ a ∈ as, a = .intr ∨ ∃ n, 0 < n ∧ a = .upto n

/-- The kernel never transfers part of a request of `n` bytes. -/
def AllOrNothing (n : Nat) (as : List Ans) : Prop := ∀ a ∈ as, a = .intr ∨ (∃ e, 0 < e ∧ a = .fail e) ∨ ∃ m, n ≤ m ∧ a = .upto m

end Silofs.Sysio
