import Verif.Model.Report
import Verif.Model.Fuse
/-
What identifies a file to the kernel, and through it to NFS clients: its inode number and its generation.
lib/stats.c:261-312, 546-561, 650-654, lib/vstage.c:50-54, 2790-2848, 2935-2945, lib/inode.c:378-381, 619-659, 1131-1154,
lib/fuseq.c:556-565, lib/fsenv.c:527-539.

Inode numbers are places in the space of inodes and are used again when a file is gone; the generation, a
counter in the super block, tells the files of one number from each other.

Simplifications: which free number a new file gets is not said (any; C19: never one in use); an inode is its
generation and the object it stands for, `obj`, which nobody can see: objects are counted as they are made.
A snapshot is one step together with its flushes (C49). After a crash the store has, of the super block and of each inode, what was
there at the last sync or anything newer (C39).
-/
namespace Silofs.Idn
open Silofs Silofs.Rep Silofs.Fuse

/-- lib/stats.c:261-267 `spst_inc_generation`: 64 bits. -/
def incGen (s : Stats) : Stats × Nat :=
  ({ s with generation := (s.generation + 1) % 2 ^ 64 }, (s.generation + 1) % 2 ^ 64)

/-- lib/stats.c:281-286 `spst_renew`. -/
def renewCurr (s : Stats) : Stats := { s with lsegs := fun _ => 0, bks := fun _ => 0, objs := fun _ => 0 }

/-- The statistics in a super block. -/
structure Sb where
  curr : Stats
  base : Stats

/-- lib/stats.c:553-561 `silofs_sti_renew_stats`. -/
def Sb.renew (b : Sb) : Sb := ⟨renewCurr b.curr, collect b.curr b.base⟩

/-- lib/fsenv.c:527-539 `sbi_make_clone` with lib/super.c:1003-1017, lib/stats.c:288-299, 546-551: a copy of all of the
super block, then of its current statistics, field by field; then renewed. -/
def cloneSb (cur : Sb) : Sb := Sb.renew ⟨cur.curr, cur.base⟩

structure Inode where
  gen : Nat
  obj : Nat
  deriving DecidableEq

structure Fs where
  sb : Sb
  inodes : Nat → Option Inode

/-- The counter. -/
def Fs.gen (f : Fs) : Nat := f.sb.curr.generation

/-- lib/vstage.c:2829-2848 `silofs_spawn_inode`: the number `ino` was claimed; 0 and numbers above INO_MAX do not occur (C30). -/
def spawn (f : Fs) (ino obj : Nat) : Option Fs :=
  if ino = 0 ∨ 2 ^ 56 ≤ ino ∨ (f.inodes ino).isSome then none
  else some ⟨{ f.sb with curr := (incGen f.sb.curr).1 },
    fun k => if k = ino then some ⟨(incGen f.sb.curr).2, obj⟩ else f.inodes k⟩

/-- lib/vstage.c:2935-2945 `silofs_remove_inode`. -/
def remove (f : Fs) (ino : Nat) : Fs := { f with inodes := fun k => if k = ino then none else f.inodes k }

/-- lib/inode.c:1131-1154 `silofs_ii_stat_of`, as far as it matters: `st` is all the rest. -/
def statOf (st : St) (ino : Nat) (i : Inode) : St := { st with ino := ino, gen := i.gen }

/-- What the kernel goes by in an entry: the first two fields of `struct fuse_entry_out`.  The entries of a listing with attributes are
the same: lib/dir.c:2093-2114 copies all of `struct silofs_stat` (from its first member), lib/fuseq.c:1486-1512 emits it. -/
def key (st : St) (ino : Nat) (i : Inode) : Buf := (entryBytes (statOf st ino i)).take 16

/-- A file-system over its life. -/
structure World where
  fs : Fs
  disk : Fs
  /-- objects made so far; each with number, inode number and generation -/
  n : Nat
  made : List (Nat × Nat × Nat)
  /-- what the kernel was told: the object meant, and what it was told by -/
  told : List (Nat × Buf)
  /-- objects made since the last crash are those from here on -/
  start : Nat
  /-- objects made, and synced before any crash -/
  kept : List Nat

inductive Op
  | create (ino : Nat) (st : St)
  | remove (ino : Nat)
  | lookup (ino : Nat) (st : St)
  | snapshot
  | sync
  | remount
  | crash (sb : Sb) (t : Nat → Option Inode)

/-- Everything is stored. -/
def World.store (w : World) (f : Fs) : World :=
  { w with fs := f, disk := f, kept := w.kept ++ (List.range w.n).filter (w.start ≤ ·) }

/-- What a crash can leave. -/
def CrashOk (w : World) (sb : Sb) (t : Nat → Option Inode) : Prop :=
  w.disk.gen ≤ sb.curr.generation ∧ sb.curr.generation ≤ w.fs.gen ∧
  ∀ ino i, t ino = some i → w.disk.inodes ino = some i ∨ (w.start ≤ i.obj ∧ (i.obj, ino, i.gen) ∈ w.made)

/-- One thing that happens. -/
inductive Step : World → Op → World → Prop
  | create {w : World} {ino : Nat} {st : St} {f : Fs} {i : Inode} : spawn w.fs ino w.n = some f → f.inodes ino = some i →
      Step w (.create ino st) { w with
        fs := f, n := w.n + 1, made := (w.n, ino, i.gen) :: w.made, told := (w.n, key st ino i) :: w.told }
  | remove {w : World} {ino : Nat} : Step w (.remove ino) { w with fs := Idn.remove w.fs ino }
  | lookup {w : World} {ino : Nat} {st : St} {i : Inode} : w.fs.inodes ino = some i →
      Step w (.lookup ino st) { w with told := (i.obj, key st ino i) :: w.told }
  | snapshot {w : World} : Step w .snapshot (w.store { w.fs with sb := cloneSb w.fs.sb })
  | sync {w : World} : Step w .sync (w.store w.fs)
  | remount {w : World} : Step w .remount (w.store w.fs)
  | crash {w : World} {sb : Sb} {t : Nat → Option Inode} : CrashOk w sb t →
      Step w (.crash sb t) { w with fs := ⟨sb, t⟩, disk := ⟨sb, t⟩, start := w.n }

/-- Any life. -/
inductive Runs : World → List Op → World → Prop
  | nil {w : World} : Runs w [] w
  | cons {w w' w'' : World} {o : Op} {l : List Op} : Step w o w' → Runs w' l w'' → Runs w (o :: l) w''

/-- lib/stats.c:269-279 `spst_init`, before the root directory is made. -/
def Stats.zero (now cap vsz : Nat) : Stats := ⟨now, now, cap, vsz, 0, fun _ => 0, fun _ => 0, fun _ => 0⟩

/-- A new file-system. -/
def fresh (now cap vsz : Nat) : World :=
  { fs := ⟨⟨Stats.zero now cap vsz, Stats.zero 0 0 0⟩, fun _ => none⟩
    disk := ⟨⟨Stats.zero now cap vsz, Stats.zero 0 0 0⟩, fun _ => none⟩
    n := 0, made := [], told := [], start := 0, kept := [] }

end Silofs.Idn
