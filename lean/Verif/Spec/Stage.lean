import Verif.Model.Stage

/-
What a volume is, apart from what of it is in memory: the content of each node, and the way down from the
super block by which nodes and blocks are found.
-/
namespace Silofs.Stage

/-- Content of a node: in memory, or else on storage. -/
def St.cont (s : St) (v k i : Nat) : Option Node :=
  match s.mem v k i with
  | some e => some e.n
  | none => s.dsk v k i

/-- The volume that node `i` of level `k` (block `i` for level 5) is stored in, from the super block down. -/
def St.loc (s : St) : Nat → Nat → Option Nat
  | 0, i => if i = 0 then s.sb.root else none
  | k + 1, i =>
    match s.loc k (i / 256) with
    | none => none
    | some v =>
      match s.cont v k (i / 256) with
      | none => none
      | some n => n.child (i % 256)

/-- Block `b` is allocated. -/
def St.isUsed (s : St) (b : Nat) : Bool :=
  match s.loc 4 (b / 256) with
  | none => false
  | some v =>
    match s.cont v 4 (b / 256) with
    | none => false
    | some n => n.used (b % 256)

/-- Volume `c` before anything was made in it. -/
def St.init (c : Nat) : St :=
  { cur := c, sb := {}, sbDirty := false, mem := fun _ _ _ => none, rng := fun _ _ => []
    sbD := fun _ => {}, dsk := fun _ _ _ => none, seg := fun _ _ _ => false, dat := fun _ _ => 0 }

/-- Histories of a volume and its forks in which memory is only lost, and the volume only forked, when
everything is written. -/
inductive Reach : St → Prop where
  | init (c : Nat) : Reach (.init c)
  | step : Reach s → Step s s' → Reach s'
  | stop : Reach s → s.clean → Reach s.crash
  | fork (n : Nat) : Reach s → s.clean → s.fresh n → Reach (s.fork n)

/-- Histories without a fork, but with losses of memory at any time. -/
inductive Later : St → St → Prop where
  | refl : Later s s
  | step : Later s s' → Step s' s'' → Later s s''
  | crash : Later s s' → Later s s'.crash

end Silofs.Stage
