import Verif.Model.Access
/-
Changes of mode, owner and times of an inode: lib/inode.c:677-1003 and 1205-1330, lib/file.c:1358-1406 and its
callers, lib/fuseq.c:1866-1945 and 5013-5056.

Simplifications: ids, times and modes are natural numbers; a null id (-1) is `none`; a time is `Tm`.  Staging of
inodes and the mapping of ids (Idsmap.lean) come before the functions here.
-/
namespace Silofs.Attr
open Silofs.Ns (Cred hasBit R_OK W_OK X_OK)

/-- `S_IFMT`, `S_ISUID`, `S_ISGID`, `S_IX…` of stat.h -/
def sIFMT : Nat := 0o170000
def sISUID : Nat := 0o4000
def sISGID : Nat := 0o2000
def sIXUSR : Nat := 0o100
def sIXGRP : Nat := 0o10
def sIXOTH : Nat := 0o1

/-- Attributes of an inode; `atime` is the one shown (`i_atime_lazy`), `satime` the one in the inode. -/
structure I where
  mode : Nat
  uid : Nat
  gid : Nat
  size : Nat
  atime : Nat
  satime : Nat
  mtime : Nat
  ctime : Nat
  deriving DecidableEq, Repr

/-- A time in a request: `UTIME_NOW`, `UTIME_OMIT` or a value. -/
inductive Tm where
  | now | omit | at (t : Nat)
  deriving DecidableEq, Repr

/-- inode.c:1219-1230 `timespec_of` -/
def Tm.of (now : Nat) : Tm → Option Nat
  | .now => some now
  | .omit => none
  | .at t => some t

structure Times where
  atime : Tm
  mtime : Tm
  ctime : Tm

/-- `struct silofs_iattr` with its flags (types.h:56-77): a present value is a set flag. -/
structure Upd where
  size : Option Nat := none
  mode : Option Nat := none
  uid : Option Nat := none
  gid : Option Nat := none
  lazyA : Bool := false
  fA : Bool := false
  fM : Bool := false
  fC : Bool := false
  times : Times := ⟨.now, .now, .now⟩
  killSuid : Bool := false
  killSgid : Bool := false

/-- `mode & ~bits` -/
def clr (mode bits : Nat) : Nat := mode ^^^ (mode &&& bits)

/-- inode.c:726-742 `kill_suid_sgid` -/
def kill (suid sgid : Bool) (mode : Nat) : Nat :=
  let m1 := if suid && hasBit mode sISUID then clr mode sISUID else mode
  if sgid && (mode &&& (sISGID ||| sIXGRP)) == (sISGID ||| sIXGRP) then clr m1 sISGID else m1

/-- Something besides access time is to be changed. -/
def Upd.some (u : Upd) : Bool :=
  u.size.isSome || u.mode.isSome || u.uid.isSome || u.gid.isSome || u.fM || u.fC || u.killSuid || u.killSgid

/-- inode.c:1240-1311 `ii_update_inode_attr` -/
def update (now : Nat) (u : Upd) (a : I) : I :=
  let atime := if u.lazyA || u.fA then (u.times.atime.of now).getD a.atime else a.atime
  if u.some then
    { mode := kill u.killSuid u.killSgid (u.mode.getD a.mode)
      uid := u.uid.getD a.uid
      gid := u.gid.getD a.gid
      size := u.size.getD a.size
      atime := atime
      satime := if u.fM || u.fC then atime else a.satime
      mtime := if u.fM then (u.times.mtime.of now).getD a.mtime else a.mtime
      ctime := if u.fC then (u.times.ctime.of now).getD a.ctime else a.ctime }
  else { a with atime := atime }

/-! ### chmod -/

/-- inode.c:751-765 `check_chmod` -/
def checkChmod (cr : Cred) (a : I) (mode : Nat) : Bool :=
  if mode &&& sIFMT = 0 ∨ a.mode &&& sIFMT = mode &&& sIFMT then
    cr.uid == a.uid || cr.host == 0
  else false

/-- inode.c:744-749 `new_mode_of` -/
def newMode (a : I) (mode : Nat) : Nat := (a.mode &&& sIFMT) ||| clr mode sIFMT

/-- inode.c:802-820 `do_chmod` with 786-800; `px` is the check of the parent directory (703-724). -/
def chmod (cr : Cred) (now : Nat) (px : Bool) (mode : Nat) (tms : Times) (a : I) : Option I :=
  if checkChmod cr a mode && px then
    some (update now { mode := some (newMode a mode), fC := true, times := tms
                       killSgid := a.gid != cr.gid && cr.uid != 0 } a)
  else none

/-! ### chown -/

/-- inode.c:833-876 `check_chown` -/
def checkChown (cr : Cred) (a : I) (uid gid : Option Nat) : Bool :=
  (match uid with
    | none => true
    | some u => u == a.uid || cr.host == 0) &&
  (match gid with
    | none => true
    | some g => g == a.gid || cr.uid == a.uid || cr.host == 0)

/-- inode.c:893-920 `do_chown` with 878-891 -/
def chown (cr : Cred) (now : Nat) (uid gid : Option Nat) (tms : Times) (a : I) : Option I :=
  if uid.isNone && gid.isNone then some a
  else if checkChown cr a uid gid then
    some (update now { uid := uid, gid := gid, fC := true, times := tms
                       killSuid := hasBit a.mode (sIXUSR ||| sIXGRP ||| sIXOTH)
                       killSgid := hasBit a.mode (sIXUSR ||| sIXGRP ||| sIXOTH) } a)
  else none

/-! ### Times -/

/-- inode.c:944-958 `check_utimens`; `w` is the check of write access. -/
def checkUtimens (cr : Cred) (w : Bool) (a : I) : Bool := cr.uid == a.uid || w

/-- inode.c:960-990 `do_utimens` -/
def utimens (cr : Cred) (now : Nat) (w : Bool) (tms : Times) (a : I) : Option I :=
  if checkUtimens cr w a then
    let a1 := match tms.atime with
      | .now => update now { fA := true } a
      | .omit => a
      | .at _ => update now { fA := true, times := tms } a
    let a2 := match tms.mtime with
      | .now => update now { fM := true } a1
      | .omit => a1
      | .at _ => update now { fM := true, times := tms } a1
    some (match tms.ctime with
      | .omit => a2
      | _ => update now { fC := true, times := tms } a2)
  else none

/-! ### I/O -/

/-- What a request on the content did (file.c:1358-1406 and callers). -/
inductive Io where
  /-- file.c:2083-2102: a read -/
  | read
  /-- file.c:2836-2861: a write that got from `beg` to `off`, with or without an error -/
  | write (beg off : Nat) (err : Bool)
  /-- file.c:4640-4672: `copy_file_range` into the file, up to `off` of `len > 0` bytes -/
  | copy (off : Nat)
  /-- file.c:3815-3829: fallocate up to `end` -/
  | falloc (fin : Nat) (keep : Bool)
  /-- file.c:3427-3449: a truncate that succeeded -/
  | trunc (size : Nat)

/-- file.c:1358-1406 `filc_update_post_io` -/
def postIo (now : Nat) (io : Io) (a : I) : I :=
  match io with
  | .read => update now { fA := true, lazyA := true } a
  | .write beg off err =>
    update now { size := some (max off a.size), fM := decide (beg < off), fC := decide (beg < off)
                 killSuid := decide (beg < off) && !err, killSgid := decide (beg < off) && !err } a
  | .copy off => update now { size := some (max off a.size), fM := true, fC := true } a
  | .falloc fin keep =>
    update now { size := if keep then none else some (max fin a.size), fM := true, fC := true } a
  | .trunc size =>
    update now { size := some size, fM := a.size != size, fC := a.size != size
                 killSuid := a.size != size, killSgid := a.size != size } a

/-- Write-back and eviction of the inode: the access time is read again from the inode
(lnodes.c, `silofs_ii_refresh_atime`). -/
def evict (a : I) : I := { a with atime := a.satime }

/-! ### setattr -/

/-- A setattr request (fuseq.c:1885-1945): the parts that are present.  `nowA`, `nowM`: the time is to be the
current one (the kernel sends its value too). -/
structure Set where
  mode : Option Nat := none
  uid : Option Nat := none
  gid : Option Nat := none
  size : Option Nat := none
  atime : Option Nat := none
  mtime : Option Nat := none
  ctime : Option Nat := none
  nowA : Bool := false
  nowM : Bool := false

/-- fuseq.c:1885-1907 `utimens_of` -/
def Set.times (r : Set) : Times where
  atime := match r.atime with
    | some t => .at t
    | none => .omit
  mtime := match r.mtime with
    | some t => .at t
    | none => .omit
  ctime := match r.ctime with
    | some t => .at t
    | none =>
      if r.nowA || r.nowM || r.atime.isSome || r.mtime.isSome || r.mode.isSome || r.uid.isSome || r.gid.isSome ||
        r.size.isSome then .now else .omit

/-- fuseq.c:5013-5056 `op_setattr`: the steps in order; the first that fails ends the request.  The result is the
inode and whether the request succeeded.  `px` and `w` are the checks of the parent directory and of
write access, `tr` whether the truncate succeeds. -/
def setattr (cr : Cred) (now : Nat) (px w tr : Bool) (r : Set) (a : I) : I × Bool :=
  match (if r.nowA || r.nowM then utimens cr now w r.times a else some a) with
  | none => (a, false)
  | some a1 =>
    match (match r.mode with
      | some m => chmod cr now px m r.times a1
      | none => some a1) with
    | none => (a1, false)
    | some a2 =>
      match (if r.uid.isSome || r.gid.isSome then chown cr now r.uid r.gid r.times a2 else some a2) with
      | none => (a2, false)
      | some a3 =>
        match (match r.size with
          | some z => if tr then some (postIo now (.trunc z) a3) else none
          | none => some a3) with
        | none => (a3, false)
        | some a4 =>
          if (r.atime.isSome || r.mtime.isSome || r.ctime.isSome) &&
              !(r.mode.isSome || r.uid.isSome || r.gid.isSome || r.size.isSome) then
            match utimens cr now w r.times a4 with
            | none => (a4, false)
            | some a5 => (a5, true)
          else (a4, true)

end Silofs.Attr
