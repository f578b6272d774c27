/-
Commands as sequences of steps on one repository, any number of them at a time: cmd/mkfs.c, mount.c, fsck.c, rmfs.c,
archive.c, restore.c, snap.c with what they call in lib/execlib.c.

A step may be done, fail without effect, fail after its effect (or half of it), or be the one at which the
process is killed.  Steps of different processes are interleaved in any way.

Simplifications.  New identifiers (content addresses of boot records and archives, 128 random bits of volumes) are drawn
from a counter: they never repeat.  A lock is granted in one step (C50 is about its system calls); waiting is not
being scheduled.  Snapshots are the offline ones (C49 is about the others).  What a volume contains is one
number.  The segments of a volume which is the base of a snapshot are of that volume only, and archives bring back the
volume itself only: its base is not changed after the snapshot was made.
-/
namespace Silofs.Cs

/-- What a boot reference names: a boot record or the index of an archive: cmd/bootref.c:149-161 `cmd_bootref_verify`. -/
inductive Ref where
  | boot (i : Nat)
  | pack (j : Nat)
  deriving DecidableEq, Repr

/-- State of the segments of a volume. -/
inductive Vs where
  | absent | part | whole
  deriving DecidableEq, Repr

/-- A repository. `recs`: the boot records which are there; `recVol`: the volume in a boot record; `arch`: archives, with the
boot record, volume and content they hold; `base`: the volume whose segments a volume shares; `cont`: what a volume contains;
`lockf`: lock-files; `next`: the first identifier which was not drawn. -/
structure Disk where
  names : Nat → Option Ref
  recs : Nat → Bool
  recVol : Nat → Nat
  arch : Nat → Option (Nat × Nat × Nat)
  vols : Nat → Vs
  base : Nat → Option Nat
  fossil : Nat → Bool
  cont : Nat → Nat
  synced : Nat → Bool
  lockf : Nat → Bool
  next : Nat

/-- What a process keeps: whether there is an environment, a password, a lock of its own (`has_lockfile`); the boot record it
loaded, the archive it loaded, the references it is to save, the volume it works on. -/
structure Mem where
  env : Bool := false
  pass : Bool := false
  hasLock : Bool := false
  ref : Option Nat := none
  arc : Option Nat := none
  out : Option Ref := none
  out2 : Option Ref := none
  vol : Option Nat := none
  deriving DecidableEq, Repr

inductive Step where
  | check | absent (n : Nat) | pass | load (n : Nat) | loadAr (n : Nat) | env | lock (n : Nat) | repo | poke | pokeAr
  | openFs | mkVol | saveRec | fork | pack | unpack | save (n : Nat) | save2 (n : Nat) | serve | closeFs
  | super | delVol | delRec | unlinkName (n : Nat) | closeRepo | unlock (n : Nat) | delEnv | fini
  deriving DecidableEq, Repr

inductive Cmd where
  | mkfs (n : Nat) | mount (n : Nat) | fsck (n : Nat) | rmfs (n : Nat) | archive (n a : Nat) | restore (a n : Nat)
  | snap (n s : Nat)
  deriving DecidableEq, Repr

/-- The steps of each command, in their order: cmd/mkfs.c:219-273 `cmd_execute_mkfs`, cmd/mount.c:652-698
`cmd_execute_mount` with 574-602 `cmd_mount_exec_phase1` and 604-650 `cmd_mount_exec_phase2`, cmd/fsck.c:205-264
`cmd_execute_fsck`, cmd/rmfs.c:278-335 `cmd_execute_rmfs` with lib/execlib.c:1793-1824 `silofs_unref_fs`,
cmd/archive.c:224-286 `cmd_execute_archive`, cmd/restore.c:209-262 `cmd_execute_restore`, cmd/snap.c:390-444 `cmd_execute_snap`
with 365-375 `cmd_snap_offline`.  `check` stands for all that neither changes nor reads anything here: parsing, paths, owner, ids, signals,
becoming a daemon, inspection. -/
def prog : Cmd → List Step
  | .mkfs n => [.check, .absent n, .check, .pass, .check, .env, .lock n, .repo, .mkVol, .saveRec, .save n, .closeFs,
      .closeRepo, .unlock n, .fini]
  | .mount n => [.check, .pass, .check, .load n, .env, .lock n, .repo, .poke, .openFs, .closeFs, .closeRepo, .unlock n,
      .delEnv, .check, .env, .lock n, .repo, .poke, .openFs, .check, .serve, .closeFs, .closeRepo, .unlock n, .delEnv, .fini]
  | .fsck n => [.check, .pass, .check, .load n, .env, .lock n, .repo, .poke, .openFs, .check, .closeFs, .closeRepo,
      .unlock n, .delEnv, .fini]
  | .rmfs n => [.check, .pass, .check, .load n, .env, .lock n, .repo, .poke, .super, .delVol, .delRec, .closeFs,
      .unlinkName n, .closeRepo, .unlock n, .fini]
  | .archive n a => [.check, .absent a, .pass, .check, .load n, .env, .lock n, .repo, .poke, .openFs, .pack, .save a,
      .closeFs, .closeRepo, .unlock n, .delEnv, .fini]
  | .restore a n => [.check, .absent n, .pass, .check, .loadAr a, .env, .lock a, .repo, .pokeAr, .unpack, .save n,
      .closeRepo, .unlock n, .delEnv, .fini]
  | .snap n s => [.check, .absent s, .pass, .check, .load n, .check, .env, .repo, .poke, .openFs, .fork, .closeFs,
      .closeRepo, .save s, .save2 n, .delEnv, .fini]

/-- The lock removed at exit: `cmd_mkfs_atexit` and its copies; cmd/restore.c:99-105 `cmd_restore_release_lockfile` takes the name of the
file-system, not that of the archive which 91-97 has locked. -/
def unlockName : Cmd → Nat
  | .mkfs n | .mount n | .fsck n | .rmfs n | .archive n _ | .restore _ n | .snap n _ => n

def upd {α : Type} (f : Nat → α) (i : Nat) (x : α) : Nat → α := fun j => if j = i then x else f j

/-- A step that is done; `none` if it refuses by itself.  `k` is what a mount writes. -/
def act (k : Nat) (d : Disk) (m : Mem) : Step → Option (Disk × Mem)
  | .check | .repo | .closeRepo => some (d, m)
  /- cmd/cmdutils.c:166-182 `cmd_check_notexists` -/
  | .absent n => if d.names n = none then some (d, m) else none
  | .pass => some (d, { m with pass := true })
  /- cmd/bootref.c:163-167 `cmd_bootref_load` -/
  | .load n => match d.names n with
    | some (.boot i) => some (d, { m with ref := some i })
    | _ => none
  /- cmd/bootref.c:169-173 `cmd_bootref_load_ar` -/
  | .loadAr n => match d.names n with
    | some (.pack j) => some (d, { m with arc := some j })
    | _ => none
  | .env => some (d, { m with env := true })
  /- cmd/locks.c:173-182 `cmd_lock_fs` -/
  | .lock n => if d.lockf n then none else some ({ d with lockf := upd d.lockf n true }, { m with hasLock := true })
  /- lib/execlib.c:1699-1709 `silofs_poke_fs` -/
  | .poke => match m.ref with
    | some i => if d.recs i then some (d, m) else none
    | none => none
  /- lib/execlib.c:1719-1728 `silofs_poke_archive` -/
  | .pokeAr => match m.arc with
    | some j => if (d.arch j).isSome then some (d, m) else none
    | none => none
  /- lib/execlib.c:1621-1656 `do_open_fs`, 1009-1028 `check_superblock` -/
  | .openFs => match m.ref with
    | some i => if d.recs i ∧ d.vols (d.recVol i) = .whole ∧ d.fossil (d.recVol i) = false then
        some (d, { m with vol := some (d.recVol i) }) else none
    | none => none
  /- lib/execlib.c:1551-1595 `do_format_fs` up to `format_rootdir`, which flushes -/
  | .mkVol => some ({ d with vols := upd d.vols d.next .whole, cont := upd d.cont d.next 0, next := d.next + 1 },
      { m with vol := some d.next })
  /- lib/execlib.c:1513-1529 `commit_bootrec` -/
  | .saveRec => match m.vol with
    | some v => some ({ d with recs := upd d.recs d.next true, recVol := upd d.recVol d.next v, next := d.next + 1 },
        { m with out := some (.boot d.next) })
    | none => none
  /- lib/execlib.c:1730-1745 `exec_clone_fs` (C49): both get a volume and a boot record of their own -/
  | .fork => match m.ref with
    | some i => some
        ({ d with
            fossil := upd d.fossil (d.recVol i) true
            vols := upd (upd d.vols d.next .whole) (d.next + 1) .whole
            base := upd (upd d.base d.next (some (d.recVol i))) (d.next + 1) (some (d.recVol i))
            cont := upd (upd d.cont d.next (d.cont (d.recVol i))) (d.next + 1) (d.cont (d.recVol i))
            recs := upd (upd d.recs d.next true) (d.next + 1) true
            recVol := upd (upd d.recVol d.next d.next) (d.next + 1) (d.next + 1)
            next := d.next + 2 },
          { m with out := some (.boot d.next), out2 := some (.boot (d.next + 1)), vol := some (d.next + 1) })
    | none => none
  /- lib/pack.c:1015-1033 `pac_do_export` (C45) -/
  | .pack => match m.ref with
    | some i => if d.vols (d.recVol i) = .whole then
        some ({ d with arch := upd d.arch d.next (some (i, d.recVol i, d.cont (d.recVol i))), next := d.next + 1 },
          { m with out := some (.pack d.next) }) else none
    | none => none
  /- lib/pack.c:1180-1198 `pac_do_import` (C45): the same boot record, the same volume -/
  | .unpack => match m.arc with
    | some j => match d.arch j with
      | some (i, v, c) => some
          ({ d with
              recs := upd d.recs i true
              vols := upd d.vols v .whole
              cont := upd d.cont v c
              synced := upd d.synced v false },
            { m with out := some (.boot i), vol := some v })
      | none => none
    | none => none
  /- cmd/bootref.c:70-108 `cmd_save_bref_file`: one rename -/
  | .save n => match m.out with
    | some r => some ({ d with names := upd d.names n (some r) }, m)
    | none => none
  | .save2 n => match m.out2 with
    | some r => some ({ d with names := upd d.names n (some r) }, m)
    | none => none
  /- cmd/mount.c:404-409 `cmd_mount_execute_fs` -/
  | .serve => match m.vol with
    | some v => some ({ d with cont := upd d.cont v k, synced := upd d.synced v false }, m)
    | none => none
  /- lib/execlib.c:1669-1687 `do_close_fs` -/
  | .closeFs => match m.vol with
    | some v => some ({ d with synced := upd d.synced v true }, m)
    | none => none
  /- lib/execlib.c:1793-1810, `silofs_unref_fs` until the super-block is accepted -/
  | .super => match m.ref with
    | some i => if d.recs i ∧ d.vols (d.recVol i) ≠ .absent ∧ d.fossil (d.recVol i) = false then
        some (d, { m with vol := some (d.recVol i) }) else none
    | none => none
  /- lib/execlib.c:1764-1775 `exec_unref_fs` (C44) -/
  | .delVol => match m.vol with
    | some v => some ({ d with vols := upd d.vols v .absent }, m)
    | none => none
  /- lib/execlib.c:1777-1791 `unlink_bootrec_of` -/
  | .delRec => match m.ref with
    | some i => if d.recs i then some ({ d with recs := upd d.recs i false }, m) else none
    | none => none
  /- cmd/bootref.c:198-204 `cmd_bootref_unlink` -/
  | .unlinkName n => some ({ d with names := upd d.names n none }, m)
  /- cmd/locks.c:184-191 `cmd_unlock_fs` -/
  | .unlock n => if m.hasLock then some ({ d with lockf := upd d.lockf n false }, { m with hasLock := false }) else some (d, m)
  | .delEnv => some (d, { m with env := false })
  | .fini => some (d, { m with env := false, pass := false })

/-- What a failing step leaves when it fails half-way; most have done all or nothing.  The half of an import: lib/pack.c:1143-1157
`pac_import_fs` with the boot record first (C45_order_violated). -/
def half (d : Disk) (m : Mem) : Step → Disk
  | .mkVol => { d with vols := upd d.vols d.next .part, next := d.next + 1 }
  | .fork => match m.ref with
    | some i => { d with fossil := upd d.fossil (d.recVol i) true }
    | none => d
  | .pack => d
  | .unpack => match m.arc with
    | some j => match d.arch j with
      | some (i, v, _) => { d with recs := upd d.recs i true, vols := upd d.vols v .part, synced := upd d.synced v false }
      | none => d
    | none => d
  | .delVol => match m.vol with
    | some v => { d with vols := upd d.vols v .part }
    | none => d
  | .serve => d
  | .closeFs => d
  | s => match act 0 d m s with
    | some (d', _) => d'
    | none => d

/-- Steps whose error nobody looks at. -/
def ignores : Step → Bool
  | .unlinkName _ => true
  | .unlock _ => true
  | _ => false

/-- An ignored error: cmd/locks.c:184-191 with `has_lockfile` reset all the same. -/
def skip (m : Mem) : Step → Mem
  | .unlock _ => { m with hasLock := false }
  | _ => m

inductive Stat where
  | running | ok | failed | killed
  deriving DecidableEq, Repr

structure Proc where
  cmd : Cmd
  todo : List Step
  mem : Mem
  st : Stat
  deriving DecidableEq, Repr

def start (c : Cmd) : Proc := ⟨c, prog c, {}, .running⟩

/-- cmd/cmdutils.c:45-55 `cmd_die`, then the handler of the command: cmd/mkfs.c:127-133 `cmd_mkfs_atexit`. -/
def die (d : Disk) (p : Proc) : Disk × Proc :=
  (if p.mem.hasLock then { d with lockf := upd d.lockf (unlockName p.cmd) false } else d,
    { p with st := .failed, mem := { p.mem with hasLock := false, env := false, pass := false } })

inductive Out where
  | go (k : Nat) | err | late | kill
  deriving DecidableEq, Repr

/-- One step of a process. -/
def stepProc (d : Disk) (p : Proc) (o : Out) : Disk × Proc :=
  if p.st ≠ .running then (d, p)
  else match p.todo with
    | [] => (d, p)
    | s :: rest =>
      match o with
      | .kill => (d, { p with st := .killed })
      | .err => if ignores s then (d, { p with todo := rest, mem := skip p.mem s }) else die d p
      | .late => die (half d p.mem s) p
      | .go k =>
        match act k d p.mem s with
        | none => die d p
        | some (d', m') => (d', { p with todo := rest, mem := m', st := if rest = [] then .ok else .running })

/-- Something done: by which process, which step, what the process kept then, whether all of it was done. -/
structure Ev where
  p : Nat
  s : Step
  m : Mem
  all : Bool
  deriving DecidableEq, Repr

/-- All processes on one repository, and what was done so far. -/
structure Sys where
  d : Disk
  p : Nat → Proc
  hist : List Ev

/-- What a process does next. -/
def doing (i : Nat) (p : Proc) (o : Out) : List Ev :=
  if p.st = .running then
    match p.todo, o with
    | s :: _, .go _ => [⟨i, s, p.mem, true⟩]
    | s :: _, .late => [⟨i, s, p.mem, false⟩]
    | _, _ => []
  else []

def step (s : Sys) (e : Nat × Out) : Sys :=
  ⟨(stepProc s.d (s.p e.1) e.2).1, upd s.p e.1 (stepProc s.d (s.p e.1) e.2).2, doing e.1 (s.p e.1) e.2 ++ s.hist⟩

def run (s : Sys) (tr : List (Nat × Out)) : Sys := tr.foldl step s

end Silofs.Cs
