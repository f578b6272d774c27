import Verif.Model.Mntcmd
/-
What a caller takes the answers of "mount" and "umount" for.
-/
namespace Silofs.Mc

open Silofs.Mnt (Path World)

/-- The command and the service see the same tree, for paths from the root; names by realpath are such. -/
structure SameTree (x : Site) : Prop where
  stat : ∀ t p, p.head? = some 47 → (x.svc t).stat p = (x.see t).stat p
  canon : ∀ t arg p, (x.see t).canon arg = .ok p → p.head? = some 47

/-- Errors of system calls have numbers. -/
structure Numbered (w : Nat → World) : Prop where
  stat : ∀ t p e, (w t).stat p = .error e → e ≠ 0
  canon : ∀ t p e, (w t).canon p = .error e → e ≠ 0
  fstype : ∀ t p e, (w t).fstype p = .error e → e ≠ 0

/-- Nobody but the daemon of this command mounts at `p`, and nobody replaces the directory: `ours` tells
when the daemon's mount is on top. -/
def Alone (x : Site) (p : Path) (ours : Nat → Bool) (t : Nat) : Prop :=
  ∀ u v, t ≤ u → t ≤ v → ours u = false → ours v = false → (x.see u).stat p = (x.see v).stat p

/-- The directory shows a root of a file-system of ours, or of another with the same number. -/
def ShowsRoot (w : World) (p : Path) : Prop :=
  ∃ st, w.stat p = .ok st ∧ Mnt.isDir st.mode = true ∧ st.ino = 1

/-- A directory on which nothing of ours is mounted. -/
def PlainDir (w : World) (p : Path) : Prop :=
  ∃ st, w.stat p = .ok st ∧ Mnt.isDir st.mode = true ∧ st.ino ≠ 1

/-- umount2 was called on `p`, and worked. -/
def Detached (x : Site) (o : Option Mnt.Out) (p : Path) (flags : Nat) : Prop :=
  x.e.umountErr.getD 0 = 0 ∧ ∃ out u, o = some out ∧ out.sys = some (u, .umount p flags)

end Silofs.Mc
