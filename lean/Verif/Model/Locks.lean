/-
Model of the lock-files by which commands keep each other from working on one
file-system at the same time: cmd/locks.c, and how the commands use it.

Any number of processes, numbered; a step of one process is one system call.  The
repository's directory is the set of existing file names (content of lock-files is never
read) and the map of file-system names to boot references.
-/
namespace Silofs.Locks

abbrev Name := List Nat

/-- The bytes of `.lock`. -/
def dotLock : List Nat := [46, 108, 111, 99, 107]

/-- One lower-case hex digit. -/
def hexDigit (d : Nat) : Nat := if d < 10 then 48 + d else 87 + d

/-- `%08x` of a time cast to `int`. -/
def hex8 (t : Nat) : List Nat :=
  [t / 268435456 % 16, t / 16777216 % 16, t / 1048576 % 16, t / 65536 % 16,
   t / 4096 % 16, t / 256 % 16, t / 16 % 16, t % 16].map hexDigit

/-- cmd/locks.c:60-66 `cmd_lockfile_mknames`: `.<name>.lock`.  Names have at most 127 bytes, the
buffers 256, so nothing is cut. -/
def lockName (n : Name) : List Nat := [46] ++ n ++ dotLock

/-- cmd/locks.c:60-66 `cmd_lockfile_mknames`: `.<name>_<time>.lock~`. -/
def tempName (n : Name) (t : Nat) : List Nat := [46] ++ n ++ [95] ++ hex8 t ++ dotLock ++ [126]

/-- What a command does to its name while it holds the lock: cmd/mkfs.c:207-210
`cmd_mkfs_save_bref` sets it, cmd/rmfs.c:220-223 `cmd_rmfs_unlink_bref` removes it, the others leave it. -/
inductive Kind where
  | mkfs | rmfs | other
  deriving Repr, DecidableEq

/-- Where a process is. -/
inductive Pc where
  | check | stat | temp | ren | fail | hold | unl1 | unl2 | done | dead
  deriving Repr, DecidableEq

/-- A command: the name it locks, the name it unlocks, its kind, where it is and its
last reading of the clock. -/
structure Proc where
  lock : Name
  unlock : Name
  kind : Kind
  pc : Pc
  now : Nat
  deriving Repr, DecidableEq

structure Sys where
  files : List Nat → Bool
  names : Name → Option Nat
  procs : Nat → Proc

/-- What happens next to a process: it goes on (`t` is the time on the clock), it gives up
(dies by `cmd_die`), or it is killed. -/
inductive Act where
  | go (t : Nat)
  | giveUp (t : Nat)
  | kill
  deriving Repr, DecidableEq

def setFile (s : Sys) (f : List Nat) (b : Bool) : Sys := { s with files := fun x => if x = f then b else s.files x }
def setName (s : Sys) (n : Name) (v : Option Nat) : Sys := { s with names := fun x => if x = n then v else s.names x }
def setPc (s : Sys) (p : Nat) (pc : Pc) : Sys :=
  { s with procs := fun x => if x = p then { s.procs p with pc := pc } else s.procs x }
/-- cmd/locks.c:43-52 `cmd_lockfile_init` reads the clock. -/
def setup (s : Sys) (p : Nat) (pc : Pc) (t : Nat) : Sys :=
  { s with procs := fun x => if x = p then { s.procs p with pc := pc, now := t } else s.procs x }

/-- cmd/mkfs.c:141-150 `cmd_mkfs_prepare` (`cmd_check_notexists`, before the lock), then into cmd/locks.c:173-182
`cmd_lock_fs`. -/
def stepCheck (s : Sys) (p t : Nat) : Sys :=
  if (s.procs p).kind = .mkfs ∧ (s.names (s.procs p).lock).isSome then setPc s p .dead
  else setup s p .stat t

/-- cmd/locks.c:110-130 `cmd_lockfile_wait_noent`, one try. -/
def stepStat (s : Sys) (p : Nat) : Sys :=
  if s.files (lockName (s.procs p).lock) then s else setPc s p .temp

/-- cmd/locks.c:132-150 `cmd_lockfile_mktemp`: without O_EXCL. -/
def stepTemp (s : Sys) (p : Nat) : Sys :=
  setPc (setFile s (tempName (s.procs p).lock (s.procs p).now) true) p .ren

/-- cmd/locks.c:152-163 `cmd_lockfile_mklock`: rename without replacing. -/
def stepRen (s : Sys) (p : Nat) : Sys :=
  if s.files (tempName (s.procs p).lock (s.procs p).now) && !s.files (lockName (s.procs p).lock) then
    setPc (setFile (setFile s (tempName (s.procs p).lock (s.procs p).now) false) (lockName (s.procs p).lock) true) p .hold
  else setPc s p .fail

/-- The command's work, then into cmd/locks.c:184-191 `cmd_unlock_fs`. -/
def stepHold (s : Sys) (p t : Nat) : Sys :=
  match (s.procs p).kind with
  | .mkfs => setup (setName s (s.procs p).lock (some p)) p .unl1 t
  | .rmfs => setup (setName s (s.procs p).lock none) p .unl1 t
  | .other => setup s p .unl1 t

/-- cmd/locks.c:165-169 `cmd_lockfile_unlinkall`, first call. -/
def stepUnl1 (s : Sys) (p : Nat) : Sys :=
  setPc (setFile s (tempName (s.procs p).unlock (s.procs p).now) false) p .unl2

/-- cmd/locks.c:165-169 `cmd_lockfile_unlinkall`, second call. -/
def stepUnl2 (s : Sys) (p : Nat) : Sys :=
  setPc (setFile s (lockName (s.procs p).unlock) false) p .done

/-- One step of process `p`. -/
def step (s : Sys) (p : Nat) : Act → Sys
  | .kill => setPc s p .dead
  | .giveUp t =>
    match (s.procs p).pc with
    | .stat => setPc s p .dead
    | .hold => setup s p .unl1 t
    | _ => s
  | .go t =>
    match (s.procs p).pc with
    | .check => stepCheck s p t
    | .stat => stepStat s p
    | .temp => stepTemp s p
    | .ren => stepRen s p
    | .fail => setPc (setFile s (tempName (s.procs p).lock (s.procs p).now) false) p .dead
    | .hold => stepHold s p t
    | .unl1 => stepUnl1 s p
    | .unl2 => stepUnl2 s p
    | .done => s
    | .dead => s

/-- A run: any interleaving. -/
def run (s : Sys) (tr : List (Nat × Act)) : Sys := tr.foldl (fun s e => step s e.1 e.2) s

/-- The commands (cmd/mkfs.c:111-126, cmd/mount.c:290-305, cmd/fsck.c:100-115,
cmd/archive.c:92-107, cmd/view.c:87-102, cmd/rmfs.c:230-245) unlock the name they have locked. -/
def cmd (k : Kind) (n : Name) : Proc := ⟨n, n, k, .check, 0⟩

/-- cmd/restore.c:91-105 `cmd_restore_acquire_lockfile`, `cmd_restore_release_lockfile`:
the archive's name is locked, the file-system's name is unlocked. -/
def cmdRestore (arname name : Name) : Proc := ⟨arname, name, .other, .check, 0⟩

end Silofs.Locks
