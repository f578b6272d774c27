import Verif.Model.Cmdval
/-
What a user means by a size: decimal digits, perhaps a point and more digits, perhaps a letter for the
unit.
-/
namespace Silofs.Cv

/-- Number written with these digits. -/
def decVal (ds : List Nat) : Nat := ds.foldl (fun a b => a * 10 + b) 0

/-- Units: letter, and the power of two it stands for. -/
inductive Unt where
  | one | K | k | M | m | G | g | T | t | P | p
  deriving DecidableEq

/-- The letter. -/
def Unt.text : Unt → List Nat
  | .one => []
  | .K => [75] | .k => [107] | .M => [77] | .m => [109] | .G => [71] | .g => [103]
  | .T => [84] | .t => [116] | .P => [80] | .p => [112]

/-- The factor. -/
def Unt.factor : Unt → Nat
  | .one => 1
  | .K => 1024 | .k => 1024
  | .M => 1024 * 1024 | .m => 1024 * 1024
  | .G => 1024 * 1024 * 1024 | .g => 1024 * 1024 * 1024
  | .T => 1024 * 1024 * 1024 * 1024 | .t => 1024 * 1024 * 1024 * 1024
  | .P => 1024 * 1024 * 1024 * 1024 * 1024 | .p => 1024 * 1024 * 1024 * 1024 * 1024

/-- A size as a user writes it. -/
structure Size where
  /-- digits before the point -/
  ip : List Nat
  /-- digits behind the point -/
  fp : List Nat
  unt : Unt

/-- Digits are digits, there is at least one, and not thousands behind the point. -/
structure Size.Wf (w : Size) : Prop where
  ip : ∀ d ∈ w.ip, d < 10
  fp : ∀ d ∈ w.fp, d < 10
  some : w.ip ≠ []
  short : w.fp.length ≤ 4000

/-- The number without its unit, as text. -/
def Size.digits (w : Size) : List Nat :=
  w.ip.map (· + 48) ++ (if w.fp = [] then [] else 46 :: w.fp.map (· + 48))

/-- The text. -/
def Size.text (w : Size) : List Nat := w.digits ++ w.unt.text

/-- The size meant is `num / den` bytes. -/
def Size.num (w : Size) : Nat := decVal (w.ip ++ w.fp) * w.unt.factor
/-- See `num`. -/
def Size.den (w : Size) : Nat := 10 ^ w.fp.length

/-- `r` is a whole number of bytes for the size meant: cut down to whole bytes; or one more, if the
size lies so close below it that 64 bits cannot tell. -/
structure Size.Is (w : Size) (r : Nat) : Prop where
  low : w.num / w.den ≤ r
  high : r ≤ w.num / w.den + 1
  near : r * w.den * 2 ^ 64 ≤ w.num * (2 ^ 64 + 1)
  exact : w.den ∣ w.num → r * w.den = w.num

end Silofs.Cv
