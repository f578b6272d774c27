/-
Passwords and the options of mount, as the manual has them.
-/
namespace Silofs.PwSpec

/-- A password: 1 to 255 visible ASCII characters. -/
def Legal (p : List Nat) : Prop := 0 < p.length ∧ p.length ≤ 255 ∧ ∀ c ∈ p, 33 ≤ c ∧ c ≤ 126

/-- Characters which can stand around a password: zero and blanks. -/
def around : List Nat := [0, 9, 10, 11, 12, 13, 32]

/-- Options. -/
inductive Opt where
  | ro | rw | dev | nodev | suid | nosuid | exec | noexec | hostids
  | passwd (p : List Nat)
  deriving DecidableEq

/-- Their texts. -/
def Opt.text : Opt → List Nat
  | .ro => [114, 111]
  | .rw => [114, 119]
  | .dev => [100, 101, 118]
  | .nodev => [110, 111, 100, 101, 118]
  | .suid => [115, 117, 105, 100]
  | .nosuid => [110, 111, 115, 117, 105, 100]
  | .exec => [101, 120, 101, 99]
  | .noexec => [110, 111, 101, 120, 101, 99]
  | .hostids => [104, 111, 115, 116, 105, 100, 115]
  | .passwd p => [112, 97, 115, 115, 119, 100, 61] ++ p

/-- Options with commas between. -/
def commas : List Opt → List Nat
  | [] => []
  | [o] => o.text
  | o :: os => o.text ++ 44 :: commas os

/-- The last option of two which exclude each other, if there is one: `some true` for the second. -/
def last (a b : Opt) (os : List Opt) (d : Bool) : Bool :=
  os.foldl (fun x o => if o = b then true else if o = a then false else x) d

/-- The last password. -/
def lastPass (os : List Opt) (d : Option (List Nat)) : Option (List Nat) :=
  os.foldl (fun x o => match o with | .passwd p => some p | _ => x) d

end Silofs.PwSpec
