import Verif.Model.Super
/-
A volume as its super block is to show it: tables by kind of object, with no bytes and no places.
-/
namespace Silofs.Super.Spec
open Silofs Silofs.Addr

structure Vol where
  self : Uaddr
  origin : Option Uaddr
  uuid : List Nat
  roots : Nat → Option Uaddr
  ivs : Nat → List Nat
  mains : Nat → Option Lsid
  curr : Grp → Nat → Int
  base : Grp → Nat → Int
  cap : Nat
  gen : Nat
  fossil : Nat

/-- A table with one entry replaced. -/
def upd {α : Type} (f : Nat → α) (t : Nat) (x : α) : Nat → α := fun s => if s = t then x else f s

/-- One is added in each group for the super block itself. -/
def countSuper (c : Grp → Nat → Int) : Grp → Nat → Int := fun w t => c w t + if t = LTYPE_SUPER then 1 else 0

/-- A volume just formatted. -/
def format (r : Rnd) (self : Uaddr) (cap : Nat) : Vol :=
  ⟨self, none, r.uuid, fun _ => none, r.ivs, fun _ => none, countSuper fun _ _ => 0, fun _ _ => 0, cap, 0, 0⟩

def step (v : Vol) : Op → Vol
  | .bindRoot t u iv => { v with roots := upd v.roots t (some u), ivs := upd v.ivs t iv }
  | .bindMain t l => { v with mains := upd v.mains t (some l) }
  | .take w t n => { v with curr := fun w' s => v.curr w' s + if w' = w ∧ s = t then n else 0 }
  | .nextGen => { v with gen := v.gen + 1 }
  | .addFlags f => { v with fossil := f ||| v.fossil }
  | .fork self _ =>
    { v with
      self := self
      origin := some v.self
      mains := fun _ => none
      base := fun w t => v.curr w t + v.base w t
      curr := countSuper fun _ _ => 0 }

/-- An address that can be stored and is of use. -/
structure Good (u : Uaddr) : Prop where
  fits : u.laddr.Fits
  voff0 : 0 ≤ u.voff
  voff1 : u.voff < 9223372036854775808
  null : uaddrNull u = false

/-- Counters far from the ends of their range. -/
def Sane (v : Vol) : Prop :=
  v.gen < 18446744073709551616 ∧
  ∀ w t, (-4611686018427387903 ≤ v.curr w t ∧ v.curr w t ≤ 4611686018427387903) ∧
    (-4611686018427387903 ≤ v.base w t ∧ v.base w t ≤ 4611686018427387903)

/-- What callers pass. -/
def Ok : Op → Prop
  | .bindRoot t u iv =>
    Space.isVnode t = true ∧ Good u ∧ u.laddr.lsid.ltype = LTYPE_SPNODE ∧ u.laddr.lsid.height = 6 ∧ iv.length = 16
  | .bindMain t l => Space.isVnode t = true ∧ l.Fits ∧ l.isNull = false
  | .take _ t _ => 2 ≤ t ∧ t ≤ 12
  | .nextGen => True
  | .addFlags f => f < 4294967296
  | .fork self birth => Good self ∧ self.laddr.lsid.ltype = LTYPE_SUPER ∧ birth.length = 64

/-- A life: every call is a good one and no counter runs out. -/
inductive Life (v : Vol) : List Op → Vol → Prop
  | nil : Life v [] v
  | snoc {ops v' op} : Life v ops v' → Ok op → Sane (step v' op) → Life v (ops ++ [op]) (step v' op)

/-- What format is given. -/
structure FormatOk (r : Rnd) (date : List Nat) (me : Uaddr) (size : Nat) : Prop where
  uuid : r.uuid.length = 16
  ivs : ∀ t, (r.ivs t).length = 16
  birth : date.length = 64
  place : Good me
  super : me.laddr.lsid.ltype = LTYPE_SUPER
  cap : size ≤ 4611686018427387903

end Silofs.Super.Spec
