import Verif.Model.Mntsvc
/-
What "mount" and "umount" tell their caller: cmd/mount.c, cmd/umount.c, the checks of directories in
cmd/cmdutils.c, and the wait for the lock in cmd/locks.c.  The daemon itself is Verif.Model.Serve, the steps
of "mount" inside the repository are Verif.Model.Cmdseq, the service is Verif.Model.Mntsvc; this file has
what lies between them: how the command comes to know what the daemon did.

Time goes in seconds.  Whatever the system answers may change at any moment, thus it is a function of time.
The answers of the checks before the work are those of one moment.  Symbolic links and ".." are those of
`World.canon`.  Texts, logs and colours of messages are left out.
-/
namespace Silofs.Mc

open Silofs.Mnt (Path World Svc Env Params Out)

/-- All a command sees: its own file tree and that of the service (they differ for a path which does not
begin with '/'), access(2), the numbers of entries which one call of getdents
after the other gives, the pid which the ioctl
on an open directory gives, which pids exist, and the failures of the socket: before the request was
served, and after (zero: none). -/
structure Site where
  see : Nat → World
  svc : Nat → World
  acc : Nat → Path → Nat
  ents : Nat → Path → Except Nat (List Nat)
  pidOf : Nat → Path → Except Nat Nat
  alive : Nat → Nat → Bool
  sock : Nat → Nat
  bye : Nat → Nat
  uid : Nat
  gid : Nat
  s : Svc
  e : Env

/-- How a command ends: exit code zero, or another, at its moment. -/
inductive End
  | ok (t : Nat)
  | fail (code t : Nat)
  deriving Repr, DecidableEq

def End.isOk : End → Bool
  | .ok _ => true
  | .fail _ _ => false

/-- The moment of the end. -/
def End.at : End → Nat
  | .ok t => t
  | .fail _ t => t

/-- cmd/cmdutils.c:89-99 `cmd_stat_ok`, 101-115 `cmd_check_isdir` -/
def isdirOk (x : Site) (t : Nat) (p : Path) : Bool :=
  match (x.see t).stat p with
  | .error _ => false
  | .ok st => Mnt.isDir st.mode && x.acc t p == 0

/-- cmd/cmdutils.c:332-344 `cmd_access_ok`, 346-355 `cmd_statfs_ok` -/
def statfsOk (x : Site) (t : Nat) (p : Path) : Option Nat :=
  if x.acc t p ≠ 0 then none
  else match (x.see t).fstype p with
    | .error _ => none
    | .ok ty => some ty

/-- lib/sys/syscall.c:706-757 `silofs_sys_getdents`: no more than eight entries are taken; cmd/cmdutils.c:295-320
`cmd_check_emptydir`, whose count is of the first call alone. -/
def emptydirOk (x : Site) (t : Nat) (p : Path) : Bool :=
  isdirOk x t p &&
  match x.ents t p with
  | .error _ => false
  | .ok l => decide (min (l.headD 0) 8 ≤ 2)

/-- cmd/cmdutils.c:268-293 `cmd_check_nonemptydir` -/
def nonemptydirOk (x : Site) (t : Nat) (p : Path) : Bool :=
  isdirOk x t p &&
  match x.ents t p with
  | .error _ => false
  | .ok l => decide (2 < min (l.headD 0) 8)

/-- lib/mntsvc.c:145-157 `silofs_fsinfo_by_vfstype`: allowed, isfuse. -/
def fsinfo (ty : Nat) : Option (Bool × Bool) :=
  (Mnt.fsinfoAllowed.find? (fun i => i.1 == ty)).map (fun i => i.2)

/-- include/silofs/defs.h:63 `SILOFS_MNTPATH_MAX` -/
def mntpathMax : Nat := 1920

/-- cmd/cmdutils.c:357-410 `cmd_check_mntdir` with `mount` true. -/
def mntdirForMount (x : Site) (t : Nat) (p : Path) : Bool :=
  decide (p.length < mntpathMax) && isdirOk x t p &&
  match statfsOk x t p with
  | none => false
  | some ty => match fsinfo ty with
    | none => false
    | some (allowed, isfuse) => !isfuse && allowed && emptydirOk x t p

/-- cmd/cmdutils.c:357-410 `cmd_check_mntdir` with `mount` false. -/
def mntdirForUmount (x : Site) (t : Nat) (p : Path) : Bool :=
  decide (p.length < mntpathMax) && isdirOk x t p &&
  match statfsOk x t p with
  | none => false
  | some ty => match fsinfo ty with
    | none => false
    | some (_, isfuse) => isfuse &&
      match (x.see t).stat p with
      | .error _ => false
      | .ok st => st.ino == 1

/-- lib/mntsvc.c:1570-1596 `silofs_mntrpc_mount` as cmd/cmdutils.c:252-266 `cmd_check_mntsrv_perm` asks:
only whether it would be done. -/
def askMount (x : Site) (t : Nat) (p : Path) : Nat :=
  if x.sock t ≠ 0 then x.sock t
  else if x.bye t ≠ 0 then x.bye t
  else (Mnt.execMount x.s x.e x.svc t ⟨some p, 0, x.uid, x.gid, 0x41C0, 1048576, false, true⟩).status

/-- lib/mntsvc.c:1659-1673 `silofs_mntrpc_handshake`, cmd/cmdutils.c:237-250 `cmd_check_mntsrv_conn` -/
def handshakeOk (x : Site) (t : Nat) : Bool := x.sock t == 0 && x.bye t == 0

/-- cmd/mount.c:359-365 `cmd_mount_prepare_mntpoint`: the path by its right name, if all is well; one
moment for the command, and from the next on for the service. -/
def prepareMount (x : Site) (t : Nat) (arg : Path) : Option Path :=
  match (x.see t).canon arg with
  | .error _ => none
  | .ok p =>
    if isdirOk x t p && mntdirForMount x t p && handshakeOk x t && askMount x (t + 1) p == 0 then some p
    else none

/-- What waitpid with WNOHANG gives: not yet, an error, a status. -/
inductive Wait
  | none'
  | err (e : Nat)
  | exited (code : Nat)
  | killed (sig : Nat)
  deriving Repr, DecidableEq

/-- cmd/mount.c:439-455 `cmd_mount_wait_child_pid`: the code to leave with, if any.  The child which is
looked at is the one which daemon(3) has fork once more and leave at once. -/
def waitChild : Wait → Option Nat
  | .none' => none
  | .err e => some e
  | .exited c => if c ≠ 0 then some c else none
  | .killed _ => none

/-- The loop of cmd/mount.c:424-437 `cmd_mount_finish_parent`: `n` looks left, the next at moment
`tm i`; cmd/cmdutils.c:670-676 `cmd_stat_dir` has the command die of an error. -/
def pollLoop (see : Nat → World) (p : Path) (tm : Nat → Nat) : Nat → Nat → End
  | 0, i => .fail 1 (tm i)
  | n + 1, i =>
    match (see (tm i)).stat p with
    | .error _ => .fail 1 (tm i)
    | .ok st =>
      if Mnt.isDir st.mode = false then .fail 1 (tm i)
      else if st.ino = 1 then .ok (tm i)
      else pollLoop see p tm n (i + 1)

/-- cmd/mount.c:424-437 `cmd_mount_finish_parent` -/
def finishParent (see : Nat → World) (p : Path) (tm : Nat → Nat) : End := pollLoop see p tm 20 0

/-- cmd/mount.c:457-470 `cmd_mount_start_daemon` and 652-698 `cmd_execute_mount` as the caller sees it:
`pass` tells whether all up to the end of cmd/mount.c:574-602 `cmd_mount_exec_phase1` went well, `wt` what
became of the child by then, and `tm` when the looks are taken. -/
def mountCmd (x : Site) (t : Nat) (arg : Path) (pass : Bool) (wt : Wait) (tm : Nat → Nat) : End :=
  match prepareMount x t arg with
  | none => .fail 1 t
  | some p =>
    if pass = false then .fail 1 t
    else match waitChild wt with
      | some c => if c = 0 then .ok (tm 0) else .fail c (tm 0)
      | none => finishParent x.see p tm

/-- The loop of cmd/locks.c:110-130 `cmd_lockfile_wait_noent`: ten looks, two seconds apart; `held`: the
lock file is there.  The moment at which it was found free. -/
def waitLock (held : Nat → Bool) : Nat → Nat → Option Nat
  | 0, _ => none
  | n + 1, t => if held t then waitLock held n (t + 2) else some t

/-- How the daemon fares: when the lock file is there, how many seconds opening takes, whether anything of
it fails, how long until the mount is made, and whether that is refused. -/
structure Daemon where
  held : Nat → Bool
  openSecs : Nat
  openFails : Bool
  mountSecs : Nat
  mountFails : Bool

/-- cmd/mount.c:604-650 `cmd_mount_exec_phase2` from moment `t`: when the directory shows the file-system,
if ever. -/
def Daemon.mountedAt (d : Daemon) (t : Nat) : Option Nat :=
  match waitLock d.held 10 t with
  | none => none
  | some u =>
    if d.openFails || d.mountFails then none
    else some (u + d.openSecs + d.mountSecs)

/-! ### umount -/

/-- The options of cmd/umount.c:47-84. -/
structure Uopt where
  lazy : Bool
  force : Bool
  deriving Repr, DecidableEq

/-- cmd/umount.c:149-160 `cmd_umount_mnt_flags`; MNT_FORCE is 1, MNT_DETACH is 2. -/
def umountFlags (o : Uopt) : Nat := (if o.lazy then 2 else 0) ||| (if o.force then 1 else 0)

/-- cmd/cmdutils.c:412-420 `cmd_check_fusefs`; lib/mntsvc.c:1677-1680 `silofs_is_fuse_fstype` -/
def fusefsOk (x : Site) (t : Nat) (p : Path) : Bool :=
  match statfsOk x t p with
  | none => false
  | some ty => ty == 0x65735546

/-- What cmd/umount.c:123-140 `cmd_umount_prepare` finds out: the path to be sent (142-147
`cmd_umount_dirpath`) and the pid of the server. -/
structure Target where
  path : Path
  notconn : Bool
  pid : Nat
  deriving Repr, DecidableEq

/-- statfs says ENOTCONN: there is no server any more. -/
def noServer : Except Nat Nat → Bool
  | .error e => e == 107
  | .ok _ => false

/-- cmd/umount.c:123-140 `cmd_umount_prepare` with 105-121 `cmd_umount_probe_proc` -/
def prepareUmount (x : Site) (t : Nat) (o : Uopt) (arg : Path) : Option Target :=
  if handshakeOk x t = false then none
  else if noServer ((x.see t).fstype arg) = true ∧ o.force = true then some ⟨arg, true, 0⟩
  else match (x.see t).canon arg with
    | .error _ => none
    | .ok p =>
      if fusefsOk x t p && mntdirForUmount x t p then
        match x.pidOf t p with
        | .error _ => none
        | .ok pid => some ⟨p, false, pid⟩
      else none

/-- lib/mntsvc.c:1619-1636 `silofs_mntrpc_umount` (1598-1617 `do_rpc_umount`): what the service did, and what
the command is told. -/
def askUmount (x : Site) (t : Nat) (p : Path) (flags : Nat) : Out × Nat :=
  if x.sock t ≠ 0 then (⟨none, x.sock t, none⟩, x.sock t)
  else
    (Mnt.execUmount x.s x.e x.svc t ⟨some p, flags, x.uid, x.gid, 0, 0, false, false⟩,
     if x.bye t ≠ 0 then x.bye t
     else (Mnt.execUmount x.s x.e x.svc t ⟨some p, flags, x.uid, x.gid, 0, 0, false, false⟩).status)

/-- The loop of cmd/umount.c:180-207 `cmd_umount_probe_post`, 189-206: `n` looks left; the moment after.
Sleeping never fails. -/
def probePost (x : Site) (p : Path) : Nat → Nat → Nat
  | 0, t => t
  | n + 1, t =>
    match (x.see t).fstype p with
    | .error _ => t
    | .ok ty => if ty ≠ 0 ∧ ty ≠ 0x65735546 then t else probePost x p n (t + 2)

/-- The loop of cmd/umount.c:209-230 `cmd_umount_wait_nopid`, 220-229. -/
def waitNopid (x : Site) (pid : Nat) : Nat → Nat → Nat
  | 0, t => t
  | n + 1, t => if x.alive t pid = false then t else waitNopid x pid n (t + 1)

/-- cmd/umount.c:209-230 `cmd_umount_wait_nopid` -/
def waitServer (x : Site) (o : Uopt) (g : Target) (t : Nat) : Nat :=
  if g.notconn = true ∨ g.pid = 0 then t
  else waitNopid x g.pid (if o.lazy then 2 else 120) t

/-- cmd/umount.c:234-263 `cmd_execute_umount`, 162-178 `cmd_umount_send_recv`: what the service did, and
the end of the command. -/
def umountCmd (x : Site) (t : Nat) (o : Uopt) (arg : Path) : Option Out × End :=
  match prepareUmount x t o arg with
  | none => (none, .fail 1 t)
  | some g =>
    if (askUmount x (t + 1) g.path (umountFlags o)).2 ≠ 0 then
      (some (askUmount x (t + 1) g.path (umountFlags o)).1, .fail 1 (t + 2))
    else
      (some (askUmount x (t + 1) g.path (umountFlags o)).1,
       .ok (waitServer x o g (probePost x g.path 5 (t + 3))))

end Silofs.Mc
