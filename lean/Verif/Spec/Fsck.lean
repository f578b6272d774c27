import Verif.Model.Fsck
/-
C79: what `fsck` and `view` should say.
-/
namespace Silofs.Fk
open Silofs Silofs.Addr Silofs.Pack

/-- The children of the space map at `a`, if it is stored and sound. -/
def Env.map (e : Env) (r : Repo) (d : Nat) (a : Laddr) : Option (List (Option Laddr)) :=
  match r.read a with
  | .error _ => none
  | .ok b => if e.good d a b then some (e.slots d b) else none

/-- The children before the first empty slot. -/
def front (l : List (Option Laddr)) : List Laddr := (l.takeWhile Option.isSome).filterMap id

/-- Map `k`, `j` levels above the leaves, is met from map `a` going down over children that have no gap before them. -/
inductive Met (e : Env) (r : Repo) : Nat → Laddr → Nat → Laddr → Prop
  | self {d : Nat} {a : Laddr} : Met e r d a d a
  | down {d : Nat} {a : Laddr} {l : List (Option Laddr)} {c : Laddr} {j : Nat} {k : Laddr} :
      e.map r (d + 1) a = some l → c ∈ front l → Met e r d c j k → Met e r (d + 1) a j k

/-- The same over any children. -/
inductive Under (e : Env) (r : Repo) : Nat → Laddr → Nat → Laddr → Prop
  | self {d : Nat} {a : Laddr} : Under e r d a d a
  | down {d : Nat} {a : Laddr} {l : List (Option Laddr)} {c : Laddr} {j : Nat} {k : Laddr} :
      e.map r (d + 1) a = some l → some c ∈ l → Under e r d c j k → Under e r (d + 1) a j k

/-- The maps have no gaps: `claim.c:251-268` takes new children in order. -/
def NoGap (e : Env) (r : Repo) (roots : List (Option Laddr)) : Prop :=
  ∀ a, some a ∈ roots → ∀ d k, Under e r 4 a d k → 0 < d → ∀ l, e.map r d k = some l →
    ∀ c, some c ∈ l → c ∈ front l

/-- A block of zeros is no space map. -/
def Strict (e : Env) : Prop := ∀ d a, e.good d a (List.replicate a.len 0) = false

/-- Byte `p` of segment `s` is in the range. -/
def Has (a : Laddr) (s : Lsid) (p : Int) : Prop := a.lsid = s ∧ a.pos ≤ p ∧ p < a.pos + a.len

/-- The byte belongs to the file-system: to its super block, its boot record, one of its space maps, or a block in use. -/
def Belongs (e : Env) (r : Repo) (roots : List (Option Laddr)) (sb br : Laddr) (s : Lsid) (p : Int) : Prop :=
  Has sb s p ∨ Has br s p ∨ (∃ a, some a ∈ roots ∧ Has a s p) ∨
    ∃ a d k l c, some a ∈ roots ∧ Met e r 4 a d k ∧ e.map r d k = some l ∧ some c ∈ l ∧ Has c s p

end Silofs.Fk
