/-
What storage holds after a list of writes, each of several objects at once.
-/
namespace Silofs.SmqSpec

/-- The content which a list of writes leaves for object `n`, beginning with `c`: that of the last write which has it. -/
def last (n : Nat) : List Nat → List (List UInt8) → List UInt8 → List UInt8
  | m :: ms, b :: bs, c => last n ms bs (if m = n then b else c)
  | _, _, c => c

def lastOf (n : Nat) : List (List Nat × List (List UInt8)) → List UInt8 → List UInt8
  | [], c => c
  | w :: ws, c => lastOf n ws (last n w.1 w.2 c)

end Silofs.SmqSpec
