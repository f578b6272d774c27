import Verif.Model.Cmdseq
/-
What the names in a repository are for: each of them opens a file-system, or an archive, which is there completely.
-/
namespace Silofs.Cs

/-- The volumes a volume needs: itself, the one it shares segments with, and so on. -/
inductive Needs (base : Nat → Option Nat) : Nat → Nat → Prop
  | self (v : Nat) : Needs base v v
  | up {v u w : Nat} : base v = some u → Needs base u w → Needs base v w

/-- A reference opens: there is a boot record and all the volume needs, or there is an archive. -/
def Opens (d : Disk) : Ref → Prop
  | .boot i => d.recs i = true ∧ ∀ u, Needs d.base (d.recVol i) u → d.vols u = .whole
  | .pack j => (d.arch j).isSome

/-- A repository in order: names open; identifiers have been drawn before; an archive is of the volume in its boot record, and
what this shares with others is there. -/
structure Sound (d : Disk) : Prop where
  names : ∀ n r, d.names n = some r → Opens d r
  ids : ∀ n i, d.names n = some (.boot i) → i < d.next ∧ d.recVol i < d.next
  base : ∀ v u, d.base v = some u → u < v ∧ v < d.next
  arch : ∀ j i v c, d.arch j = some (i, v, c) → j < d.next ∧ i < d.next ∧ v < d.next ∧ d.recVol i = v ∧
    ∀ u, Needs d.base v u → u ≠ v → d.vols u = .whole

/-- No name needs the volume of another one. -/
def Apart (d : Disk) : Prop :=
  ∀ n n' i i', n ≠ n' → d.names n = some (.boot i) → d.names n' = some (.boot i') → ¬ Needs d.base (d.recVol i) (d.recVol i')

/-- Commands which have not begun. -/
structure Start (s : Sys) : Prop where
  procs : ∀ p, ∃ c, s.p p = start c
  hist : s.hist = []
  sound : Sound s.d

/-- Some command has removed all or part of a volume. -/
def Removed (s : Sys) (v : Nat) : Prop := ∃ e ∈ s.hist, e.s = .delVol ∧ e.m.vol = some v

/-- Some command has removed a boot record. -/
def Unbooted (s : Sys) (i : Nat) : Prop := ∃ e ∈ s.hist, e.s = .delRec ∧ e.m.ref = some i

/-- Some command has failed while it restored an archive of a volume. -/
def HalfRestored (s : Sys) (v : Nat) : Prop :=
  ∃ e ∈ s.hist, e.s = .unpack ∧ e.all = false ∧ ∃ j i c, e.m.arc = some j ∧ s.d.arch j = some (i, v, c)

/-- The names a command may change. -/
def Cmd.writes : Cmd → List Nat
  | .mkfs n => [n]
  | .rmfs n => [n]
  | .archive _ a => [a]
  | .restore _ n => [n]
  | .snap n s => [s, n]
  | .mount _ => []
  | .fsck _ => []

def Cmd.isSnap : Cmd → Bool
  | .snap _ _ => true
  | _ => false

end Silofs.Cs
