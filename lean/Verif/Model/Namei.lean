import Verif.Model.Access
/-
The name-space operations of lib/namei.c as a state machine.

Simplifications, all of the model:
* All directories together are one flat list of entries `(dir, name, child)`.  That
  one directory behaves as a finite map from names to inodes is proved separately
  (Verif.Props.Dir*, C08).
* Every operation runs under the file-system lock (`op_start`/`op_finish`,
  opers.c:40-50,108-120) and so is atomic with respect to other operations.
* What may fail for reasons outside the name-space (I/O when staging, no space,
  allocation, flush, in-flight write-back) is decided by an oracle `Orc` that is an
  argument of the operation; theorems range over all oracles.
* Time stamps, `nlookup` counters, sizes, xattrs and file contents are left out;
  `data` records whether the contents of a regular file are still there.
* `nlink` is a natural number; it is shown never to be decremented at zero.
-/
namespace Silofs.Ns

abbrev Name := List Nat

/-- include/silofs/defs.h: SILOFS_NAME_MAX, SILOFS_LINK_MAX, SILOFS_DIR_ENTRIES_MAX
(480 * 2^24), SILOFS_INO_ROOT, SILOFS_SYMLNK_MAX. -/
def NAME_MAX : Nat := 255
def LINK_MAX : Nat := 32767
def DIR_ENTRIES_MAX : Nat := 480 * 2 ^ 24
def ROOT : Nat := 1
def SYMLNK_MAX : Nat := 4096

/-- An inode: persistent part (`struct silofs_inode`) and the in-memory fields
`i_nopen`, LNF_PINNED, LNF_LOOSE of `struct silofs_inode_info`. -/
structure Ino where
  attr : Attr
  nlink : Nat
  parent : Nat
  nopen : Nat := 0
  pinned : Bool := false
  loose : Bool := false
  data : Bool := true
  deriving Repr, DecidableEq

structure Dent where
  dir : Nat
  name : Name
  child : Nat
  deriving Repr, DecidableEq

structure Fs where
  ino : Nat → Option Ino
  ents : List Dent
  writable : Bool
  iopen : Nat
  iopenMax : Nat
  /-- `task->t_looseq`; empty between operations -/
  looseq : List Nat := []

/-- Outcome of removing a directory entry (`silofs_remove_dentry`, dir.c:2683-2725):
done; failed with nothing changed; failed after the entry was removed (the emptied
tree could not be dropped, dir.c:2642-2653; cf. C08_remove_error_violated). -/
inductive Rem where
  | ok | fail | failAfter
  deriving Repr, DecidableEq

/-- All decisions taken outside of the name-space during one operation. -/
structure Orc where
  look1 : Bool := false
  stage1 : Bool := false
  look2 : Bool := false
  stage2 : Bool := false
  /-- number of the inode allocated by a spawn; `none`: allocation fails -/
  spawn : Option Nat := none
  bind : Bool := false
  /-- `silofs_remove_inode` fails when undoing a spawn -/
  undo : Bool := false
  add1 : Bool := false
  add2 : Bool := false
  rem1 : Rem := .ok
  rem2 : Rem := .ok
  /-- the inode has in-flight references when pruned -/
  busy : Bool := false
  drop : Bool := false
  /-- ... when the loose queue is processed at the end of the operation -/
  busy2 : Bool := false
  drop2 : Bool := false
  trunc : Bool := false
  flush : Bool := false
  deriving Repr, DecidableEq

/-- Result of an operation. `die`: `silofs_panic` of task.c:507-512. -/
inductive Out where
  | ok
  | err (e : Err)
  | die
  deriving Repr, DecidableEq

def Ino.isDir (x : Ino) : Bool := x.attr.kind == .dir

def Fs.setIno (s : Fs) (i : Nat) (x : Option Ino) : Fs :=
  { s with ino := fun j => if j = i then x else s.ino j }

def Fs.modIno (s : Fs) (i : Nat) (f : Ino → Ino) : Fs :=
  s.setIno i ((s.ino i).map f)

/-- Lookup of a name in a directory (`silofs_lookup_dentry`). -/
def Fs.look (s : Fs) (d : Nat) (n : Name) : Option Nat :=
  (s.ents.find? (fun e => e.dir == d && e.name == n)).map Dent.child

/-- `dir_ndents`. -/
def Fs.ndents (s : Fs) (d : Nat) : Nat := s.ents.countP (fun e => e.dir == d)

/-- namei.c:446-465 `lookup_by_name` followed by 467-485 `stage_by_name`. -/
def Fs.stageByName (s : Fs) (lk st : Bool) (d : Nat) (n : Name) : Except Err (Nat × Ino) :=
  if lk then .error .eio else
  match s.look d n with
  | none => .error .enoent
  | some c =>
    if st then .error .eio else
    match s.ino c with
    | none => .error .eio
    | some x => .ok (c, x)

/-- dir.c:1219-1228 `silofs_dir_isempty`. -/
def Fs.isEmpty (s : Fs) (d : Nat) (x : Ino) : Bool :=
  !(decide (x.nlink > 2)) && !(decide (s.ndents d > 0))

/-- dir.c:1904-1929 `dirc_update_nlink` with `dif = 1`, and the new entry. The child
is updated first, then the directory (which may be the same inode). -/
def Fs.addDent (s : Fs) (d : Nat) (n : Name) (c : Nat) (isdir : Bool) : Fs :=
  let s1 := { s with ents := ⟨d, n, c⟩ :: s.ents }
  let s2 := s1.modIno c (fun x => { x with nlink := x.nlink + 1, parent := d })
  if isdir then s2.modIno d (fun x => { x with nlink := x.nlink + 1 }) else s2

/-- dir.c:2642-2653 `dirc_do_erase_dentry` with `dirc_update_nlink(d_ctx, -1)`. -/
def Fs.delDent (s : Fs) (d : Nat) (n : Name) (c : Nat) (isdir : Bool) : Fs :=
  let s1 := { s with ents := s.ents.filter (fun e => !(e.dir == d && e.name == n)) }
  let s2 := s1.modIno c (fun x =>
    { x with nlink := x.nlink - 1, parent := if x.parent = d then 0 else x.parent })
  if isdir then s2.modIno d (fun x => { x with nlink := x.nlink - 1 }) else s2

/-- `silofs_add_dentry`, dir.c:1992-2035: either done or failed without change. -/
def Fs.add (s : Fs) (fail : Bool) (d : Nat) (n : Name) (c : Nat) (isdir : Bool) :
    Option Err × Fs :=
  if fail then (some .enospc, s) else (none, s.addDent d n c isdir)

/-- `silofs_remove_dentry`, dir.c:2677-2725. -/
def Fs.rem (s : Fs) (r : Rem) (d : Nat) (n : Name) (c : Nat) (isdir : Bool) :
    Option Err × Fs :=
  match r with
  | .fail => (some .eio, s)
  | .failAfter => (some .eio, s.delDent d n c isdir)
  | .ok => (none, s.delDent d n c isdir)

/-- namei.c:942-954 `ii_isnlink_orphan`. -/
def Ino.nlinkOrphan (x : Ino) : Bool :=
  if x.isDir && decide (x.nlink > 1) then false
  else if !x.isDir && decide (x.nlink ≠ 0) then false
  else true

/-- namei.c:972-975 `ii_is_orphan`. -/
def Ino.isOrphan (x : Ino) : Bool := decide (x.nopen = 0) && x.nlinkOrphan

/-- inode.c:552-561 `silofs_ii_isevictable`: not open, not pinned, no references or
dirty nodes (`busy`). -/
def Ino.isEvictable (x : Ino) (busy : Bool) : Bool := decide (x.nopen = 0) && !x.pinned && !busy

/-- namei.c:961-970 `ii_isdropable`. -/
def Ino.isDropable (x : Ino) (busy : Bool) : Bool := x.isEvictable busy && x.nlinkOrphan

/-- The inode and, for a directory, the entries in its tree are gone. -/
def Fs.erase (s : Fs) (i : Nat) : Fs :=
  { s.setIno i none with ents := s.ents.filter (fun e => !(e.dir == i)) }

/-- namei.c:909-927 `drop_unlinked`. On failure part of it may have been dropped. -/
def Fs.dropUnlinked (s : Fs) (fail : Bool) (i : Nat) : Option Err × Fs :=
  if fail then (some .eio, s.modIno i (fun x => { x with data := false }))
  else (none, s.erase i)

/-- namei.c:990-996 `enqueue_if_loose`. -/
def Fs.enqueueIfLoose (s : Fs) (i : Nat) (x : Ino) : Fs :=
  if x.loose && !x.pinned then
    { s with looseq := if s.looseq.contains i then s.looseq else i :: s.looseq } else s

/-- namei.c:998-1019 `try_prune_inode`. -/
def Fs.prune (o : Orc) (s : Fs) (i : Nat) : Option Err × Fs :=
  match s.ino i with
  | none => (none, s)
  | some x =>
    let x1 : Ino := if x.isOrphan then { x with loose := true } else x
    let s1 := s.setIno i (some x1)
    if x1.isDropable o.busy then s1.dropUnlinked o.drop i
    else if x1.attr.kind = .reg ∧ x1.loose = true then
      if o.drop then (some .eio, s1.setIno i (some { x1 with data := false }))
      else (none, (s1.setIno i (some { x1 with data := false })).enqueueIfLoose i x1)
    else (none, s1.enqueueIfLoose i x1)

/-- task.c:500-517 `task_forget_looseq` with namei.c:2621-2630: `none` is the panic. -/
def Fs.purgeList (o : Orc) : List Nat → Fs → Option Fs
  | [], s => some s
  | i :: q, s =>
    match s.ino i with
    | none => Fs.purgeList o q s
    | some x =>
      if x.isDropable o.busy2 && !o.drop2 then Fs.purgeList o q (s.erase i) else none

/-- opers.c:86-103 `op_unlooseq`, `op_finish`. -/
def Fs.finish (o : Orc) (r : Option Err × Fs) : Out × Fs :=
  match Fs.purgeList o r.2.looseq { r.2 with looseq := [] } with
  | none => (.die, { r.2 with looseq := [] })
  | some s => ((match r.1 with | none => Out.ok | some e => Out.err e), s)

/-- namei.c:119-132 `check_open_limit`. -/
def Fs.checkOpenLimit (s : Fs) (x : Ino) : Option Err :=
  if s.iopen ≥ s.iopenMax then some .emfile
  else if x.nopen ≥ s.iopenMax / 2 then some .emfile
  else none

/-- namei.c:134-147 `update_nopen`. -/
def Fs.incOpen (s : Fs) (i : Nat) : Fs :=
  match s.ino i with
  | none => s
  | some x => { s.setIno i (some { x with nopen := x.nopen + 1 }) with
                 iopen := if x.nopen = 0 then s.iopen + 1 else s.iopen }

def Fs.decOpen (s : Fs) (i : Nat) : Fs :=
  match s.ino i with
  | none => s
  | some x => { s.setIno i (some { x with nopen := x.nopen - 1 }) with
                 iopen := if x.nopen = 1 then s.iopen - 1 else s.iopen }

/-- First failing check. -/
def firstErr : List (Option Err) → Option Err
  | [] => none
  | none :: l => firstErr l
  | some e :: _ => some e

/-- Checked at the head of every operation with a name: `silofs_make_namestr_by`. -/
def checkName (n : Name) : Option Err :=
  if n.length = 0 then some .einval
  else if n.length > NAME_MAX then some .enametoolong
  else none

/-- namei.c:374-392 `check_dir_waccess`. -/
def Fs.checkDirWaccess (s : Fs) (cr : Cred) (x : Ino) : Option Err :=
  firstErr [if s.writable then none else some .erofs,
    if x.isDir then none else some .enotdir,
    if doAccess cr x.attr W_OK then none else some .eacces]

/-- namei.c:528-543 `check_nodent`. -/
def Fs.checkNodent (s : Fs) (lk : Bool) (d : Nat) (n : Name) : Option Err :=
  if lk then some .eio else
  match s.look d n with
  | some _ => some .eexist
  | none => none

/-- namei.c:543-560 `check_add_dentry`. -/
def Fs.checkAddDentry (s : Fs) (d : Nat) (x : Ino) (n : Name) : Option Err :=
  firstErr [if x.isDir then none else some .enotdir, checkName n,
    if s.ndents d < DIR_ENTRIES_MAX then none else some .emlink,
    if x.nlink < 2 then some .enoent else none]

/-- namei.c:564-581 `check_dir_can_add`. -/
def Fs.checkDirCanAdd (s : Fs) (lk : Bool) (cr : Cred) (d : Nat) (x : Ino) (n : Name) :
    Option Err :=
  firstErr [s.checkDirWaccess cr x, s.checkNodent lk d n, s.checkAddDentry d x n]

/-- namei.c:1144-1149 `check_nomlink`. -/
def checkNomlink (x : Ino) : Option Err := if x.nlink < LINK_MAX then none else some .emlink

/-- inode.c:613-655 `inode_setup_common`, `ii_setup_inode`: link count 0, of a
directory 1; a directory inherits set-group-ID from its parent. -/
def newIno (cr : Cred) (kind : Kind) (mode : Nat) (d : Nat) (parent : Ino) : Ino :=
  let perm := mode &&& (0o7777 ^^^ (cr.umask &&& 0o7777))
  if kind = .dir then
    { attr := { kind := kind, perm := perm ||| (parent.attr.perm &&& 0o2000), uid := cr.uid, gid := cr.gid },
      nlink := 1, parent := d }
  else
    { attr := { kind := kind, perm := perm, uid := cr.uid, gid := cr.gid },
      nlink := 0, parent := d }

/-- `silofs_spawn_inode`: the oracle's inode number must be unused (C19). -/
def Fs.spawnIno (s : Fs) (o : Orc) (x : Ino) : Option (Nat × Fs) :=
  match o.spawn with
  | none => none
  | some i =>
    match s.ino i with
    | some _ => none
    | none => if i = 0 then none else some (i, s.setIno i (some x))

/-- `silofs_remove_inode` on an error path, its own error ignored. -/
def Fs.undoSpawn (s : Fs) (o : Orc) (i : Nat) : Fs :=
  if o.undo then s else s.setIno i none

/-- Spawn, (for a symlink) bind the target, add the entry; common part of
create (628-650), mknod (713-745), mkdir (1224-1248), symlink (1357-1383). -/
def Fs.make (s : Fs) (o : Orc) (cr : Cred) (d : Nat) (dx : Ino) (n : Name) (kind : Kind)
    (mode : Nat) : Except (Err × Fs) (Nat × Fs) :=
  match s.spawnIno o (newIno cr kind mode d dx) with
  | none => .error (.enospc, s)
  | some (i, s1) =>
    if kind = .lnk ∧ o.bind = true then .error (.enospc, s1.undoSpawn o i) else
    match s1.add o.add1 d n i (kind == .dir) with
    | (some e, s2) => .error (e, s2.undoSpawn o i)
    | (none, s2) => .ok (i, s2)

/-- namei.c:511-526 `check_create_mode`. -/
def checkCreateMode : Kind → Option Err
  | .dir => some .eisdir
  | .lnk => some .einval
  | .reg => none
  | .fifo => none
  | .sock => none
  | .chr => some .eopnotsupp
  | .blk => some .eopnotsupp

/-- namei.c:628-650 `do_create`. -/
def Fs.create (s : Fs) (o : Orc) (cr : Cred) (d : Nat) (n : Name) (kind : Kind) (mode : Nat) :
    Option Err × Fs :=
  match s.ino d with
  | none => (some .enoent, s)
  | some dx =>
    match firstErr [checkName n, s.checkDirCanAdd o.look1 cr d dx n, checkCreateMode kind,
        s.checkOpenLimit dx] with
    | some e => (some e, s)
    | none =>
      match s.make o cr d dx n kind mode with
      | .error (e, s1) => (some e, s1)
      | .ok (i, s1) => (none, s1.incOpen i)

/-- namei.c:716-732 `do_mknod_reg`. -/
def Fs.mknodReg (s : Fs) (o : Orc) (cr : Cred) (d : Nat) (n : Name) (mode : Nat) :
    Option Err × Fs :=
  match s.create o cr d n .reg mode with
  | (some e, s1) => (some e, s1)
  | (none, s1) =>
    match o.spawn with
    | none => (none, s1)
    | some i => (none, s1.decOpen i)

/-- namei.c:667-698 `check_mknod`, device-number part simplified: `devOk` tells that
the number fits the type and the mount allows devices. -/
def checkMknodKind (kind : Kind) (devOk : Bool) : Option Err :=
  match kind with
  | .dir => some .eisdir
  | .lnk => some .einval
  | .reg => some .eopnotsupp
  | _ => if devOk then none else some .einval

/-- namei.c:734-762 `do_mknod_special`. -/
def Fs.mknodSpecial (s : Fs) (o : Orc) (cr : Cred) (d : Nat) (n : Name) (kind : Kind)
    (mode : Nat) (devOk : Bool) : Option Err × Fs :=
  match s.ino d with
  | none => (some .enoent, s)
  | some dx =>
    match firstErr [checkName n, s.checkDirCanAdd o.look1 cr d dx n, checkMknodKind kind devOk] with
    | some e => (some e, s)
    | none =>
      match s.make o cr d dx n kind mode with
      | .error (e, s1) => (some e, s1)
      | .ok (i, s1) => (none, s1.modIno i (fun x => { x with pinned := true }))

/-- namei.c:1209-1248 `check_mkdir`, `do_mkdir`. -/
def Fs.mkdir (s : Fs) (o : Orc) (cr : Cred) (d : Nat) (n : Name) (mode : Nat) :
    Option Err × Fs :=
  match s.ino d with
  | none => (some .enoent, s)
  | some dx =>
    match firstErr [checkName n, s.checkDirCanAdd o.look1 cr d dx n, checkNomlink dx] with
    | some e => (some e, s)
    | none =>
      match s.make o cr d dx n .dir mode with
      | .error (e, s1) => (some e, s1)
      | .ok (_, s1) => (none, s1)

/-- namei.c:1332-1383 `check_symval`, `check_symlink`, `do_symlink`. -/
def Fs.symlink (s : Fs) (o : Orc) (cr : Cred) (d : Nat) (n : Name) (vlen : Nat) :
    Option Err × Fs :=
  match s.ino d with
  | none => (some .enoent, s)
  | some dx =>
    match firstErr [checkName n, s.checkDirCanAdd o.look1 cr d dx n,
        if vlen = 0 then some .einval else none,
        if vlen > SYMLNK_MAX then some .enametoolong else none] with
    | some e => (some e, s)
    | none =>
      match s.make o cr d dx n .lnk 0o777 with
      | .error (e, s1) => (some e, s1)
      | .ok (_, s1) => (none, s1)

/-- namei.c:1151-1193 `check_link`, `do_link`. Note that `check_add_dentry` is not
called (neither the directory's size nor its being removed is checked). -/
def Fs.link (s : Fs) (o : Orc) (cr : Cred) (d : Nat) (n : Name) (i : Nat) :
    Option Err × Fs :=
  match s.ino d, s.ino i with
  | some dx, some x =>
    match firstErr [checkName n, s.checkDirWaccess cr dx, if x.isDir then some .eisdir else none,
        s.checkNodent o.look1 d n, checkNomlink x] with
    | some e => (some e, s)
    | none => s.add o.add1 d n i x.isDir
  | _, _ => (some .enoent, s)

/-- namei.c:1052-1068 `remove_de_and_prune`. -/
def Fs.remPrune (s : Fs) (o : Orc) (r : Rem) (d : Nat) (n : Name) (c : Nat) (isdir : Bool) :
    Option Err × Fs :=
  match s.rem r d n c isdir with
  | (some e, s1) => (some e, s1)
  | (none, s1) => s1.prune o c

/-- namei.c:1085-1111 `check_prepare_unlink`, `do_unlink`. -/
def Fs.unlink (s : Fs) (o : Orc) (cr : Cred) (d : Nat) (n : Name) : Option Err × Fs :=
  match s.ino d with
  | none => (some .enoent, s)
  | some dx =>
    match firstErr [checkName n, s.checkDirWaccess cr dx] with
    | some e => (some e, s)
    | none =>
      match s.stageByName o.look1 o.stage1 d n with
      | .error e => (some e, s)
      | .ok (c, x) =>
        match firstErr [if checkSticky cr dx.attr (some x.attr) then none else some .eperm,
            if x.isDir then some .eisdir else none] with
        | some e => (some e, s)
        | none => s.remPrune o o.rem1 d n c x.isDir

/-- namei.c:1266-1291 `check_rmdir_child`. -/
def Fs.checkRmdirChild (s : Fs) (cr : Cred) (px : Ino) (c : Nat) (x : Ino) : Option Err :=
  firstErr [if s.writable then none else some .erofs,
    if x.isDir then none else some .enotdir,
    if s.isEmpty c x then none else some .enotempty,
    if x.isDir && c == ROOT then some .ebusy else none,
    if checkSticky cr px.attr (some x.attr) then none else some .eperm]

/-- namei.c:1289-1329 `check_prepare_rmdir`, `do_rmdir`. -/
def Fs.rmdir (s : Fs) (o : Orc) (cr : Cred) (d : Nat) (n : Name) : Option Err × Fs :=
  match s.ino d with
  | none => (some .enoent, s)
  | some dx =>
    match firstErr [checkName n, s.checkDirWaccess cr dx] with
    | some e => (some e, s)
    | none =>
      match s.stageByName o.look1 o.stage1 d n with
      | .error e => (some e, s)
      | .ok (c, x) =>
        match s.checkRmdirChild cr dx c x with
        | some e => (some e, s)
        | none => s.remPrune o o.rem1 d n c x.isDir

/-- namei.c:820-844 `check_open`, `do_open`. -/
def Fs.openReg (s : Fs) (o : Orc) (cr : Cred) (i : Nat) (f : OFlags) : Option Err × Fs :=
  match s.ino i with
  | none => (some .enoent, s)
  | some x =>
    match firstErr [if x.isDir then some .eisdir else none,
        if x.attr.kind = .reg ∨ x.attr.kind = .fifo then none else some .einval,
        checkOpenFlags x.attr f,
        if doAccess cr x.attr (oflagsToRwx f) then none else some .eacces,
        s.checkOpenLimit x] with
    | some e => (some e, s)
    | none => if f.trunc && o.trunc then (some .eio, s) else (none, s.incOpen i)

/-- namei.c:1443-1465 `check_opendir`, `do_opendir`. -/
def Fs.openDir (s : Fs) (cr : Cred) (i : Nat) (f : OFlags) : Option Err × Fs :=
  match s.ino i with
  | none => (some .enoent, s)
  | some x =>
    match firstErr [if x.isDir then none else some .enotdir,
        if doAccess cr x.attr R_OK then none else some .eacces,
        s.checkOpenLimit x,
        if x.isDir && f.direct then some .eopnotsupp else none] with
    | some e => (some e, s)
    | none => (none, s.incOpen i)

/-- namei.c:1549-1565 `do_releasedir` (`dir = true`) and 1571-1601 `do_release`. -/
def Fs.release (s : Fs) (o : Orc) (i : Nat) (dir : Bool) (f : OFlags) : Option Err × Fs :=
  match s.ino i with
  | none => (some .enoent, s)
  | some x =>
    match firstErr [if x.isDir == dir then none else if dir then some .enotdir else some .eisdir,
        if x.nopen = 0 then some .ebadf else none,
        if dir && f.direct then some .eopnotsupp else none,
        if o.flush then some .eio else none] with
    | some e => (some e, s)
    | none => (s.decOpen i).prune o i

/-- namei.c:2590-2605 `do_forget`. Dropping a cached inode changes nothing here. -/
def Fs.forget (s : Fs) (o : Orc) (i : Nat) : Option Err × Fs :=
  match s.ino i with
  | none => (some .enoent, s)
  | some x =>
    if x.pinned then (s.setIno i (some { x with pinned := false })).prune o i else (none, s)

/-- Flags of rename(2). -/
structure RFlags where
  noreplace : Bool := false
  exchange : Bool := false
  whiteout : Bool := false
  other : Bool := false
  deriving Repr, DecidableEq

/-- namei.c:1972-1991 `check_stage_rename_at`. -/
def Fs.stageRename (s : Fs) (lk st : Bool) (cr : Cred) (d : Nat) (n : Name) (newDe : Bool) :
    Except Err (Option (Nat × Ino)) :=
  match s.ino d with
  | none => .error .enoent
  | some dx =>
    match firstErr [checkName n, s.checkDirWaccess cr dx] with
    | some e => .error e
    | none =>
      match s.stageByName lk st d n with
      | .error e => if e = .enoent ∧ newDe = true then .ok none else .error e
      | .ok (c, x) =>
        if checkSticky cr dx.attr (some x.attr) then .ok (some (c, x)) else .error .eperm

/-- namei.c:1916-1939 `check_rename_exchange`. The directory whose link count is
checked is the one that loses a sub-directory. -/
def Fs.checkRenameExchange (s : Fs) (dx dx2 : Ino) (c : Nat) (x : Ino) (c2 : Nat) (x2 : Ino) :
    Option Err :=
  firstErr [if s.writable then none else some .erofs,
    if c ≠ c2 ∧ x.isDir ≠ x2.isDir then
      (if x2.isDir then checkNomlink dx2 else checkNomlink dx)
    else none]

/-- namei.c:1941-1982 `check_rename`. -/
def Fs.checkRename (s : Fs) (cr : Cred) (dx dx2 : Ino) (c : Nat) (x : Ino)
    (old : Option (Nat × Ino)) (f : RFlags) : Option Err :=
  if f.whiteout ∨ f.other then some .einval
  else if f.noreplace ∧ old.isSome then some .eexist
  else if f.exchange ∧ old.isNone then some .enoent
  else
    match old with
    | none => none
    | some (c2, x2) =>
      if f.exchange then s.checkRenameExchange dx dx2 c x c2 x2
      else if x2.isDir ∧ c2 ≠ c then s.checkRmdirChild cr dx c2 x2
      else none

/-- namei.c:1777-1796 `do_rename_move`. -/
def Fs.renameMove (s : Fs) (o : Orc) (d : Nat) (n : Name) (d2 : Nat) (n2 : Name) (dx2 : Ino)
    (c : Nat) (isdir : Bool) : Option Err × Fs :=
  match s.checkAddDentry d2 dx2 n2 with
  | some e => (some e, s)
  | none =>
    match s.rem o.rem1 d n c isdir with
    | (some e, s1) => (some e, s1)
    | (none, s1) => s1.add o.add1 d2 n2 c isdir

/-- namei.c:1818-1839 `do_rename_replace`. -/
def Fs.renameReplace (s : Fs) (o : Orc) (d : Nat) (n : Name) (d2 : Nat) (n2 : Name)
    (c : Nat) (isdir : Bool) (c2 : Nat) (isdir2 : Bool) : Option Err × Fs :=
  match s.remPrune o o.rem2 d2 n2 c2 isdir2 with
  | (some e, s1) => (some e, s1)
  | (none, s1) =>
    match s1.rem o.rem1 d n c isdir with
    | (some e, s2) => (some e, s2)
    | (none, s2) => s2.add o.add1 d2 n2 c isdir

/-- namei.c:1853-1878 `do_rename_exchange`. -/
def Fs.renameExchange (s : Fs) (o : Orc) (d : Nat) (n : Name) (d2 : Nat) (n2 : Name)
    (c : Nat) (isdir : Bool) (c2 : Nat) (isdir2 : Bool) : Option Err × Fs :=
  match s.rem o.rem1 d n c isdir with
  | (some e, s1) => (some e, s1)
  | (none, s1) =>
    match s1.rem o.rem2 d2 n2 c2 isdir2 with
    | (some e, s2) => (some e, s2)
    | (none, s2) =>
      match s2.add o.add1 d2 n2 c isdir with
      | (some e, s3) => (some e, s3)
      | (none, s3) => s3.add o.add2 d n c2 isdir2

/-- namei.c:1896-1914 `rename_specific`. -/
def Fs.renameSpecific (s : Fs) (o : Orc) (d : Nat) (n : Name) (d2 : Nat) (n2 : Name)
    (dx2 : Ino) (c : Nat) (x : Ino) (old : Option (Nat × Ino)) (f : RFlags) : Option Err × Fs :=
  match old with
  | none => s.renameMove o d n d2 n2 dx2 c x.isDir
  | some (c2, x2) =>
    if c = c2 then s.remPrune o o.rem1 d n c x.isDir
    else if f.exchange then s.renameExchange o d n d2 n2 c x.isDir c2 x2.isDir
    else s.renameReplace o d n d2 n2 c x.isDir c2 x2.isDir

/-- namei.c:2007-2040 `do_rename`. -/
def Fs.rename (s : Fs) (o : Orc) (cr : Cred) (d : Nat) (n : Name) (d2 : Nat) (n2 : Name)
    (f : RFlags) : Option Err × Fs :=
  match s.ino d, s.ino d2 with
  | some dx, some dx2 =>
    match s.stageRename o.look1 o.stage1 cr d n false with
    | .error e => (some e, s)
    | .ok none => (some .enoent, s)
    | .ok (some (c, x)) =>
      match s.stageRename o.look2 o.stage2 cr d2 n2 true with
      | .error e => (some e, s)
      | .ok old =>
        match s.checkRename cr dx dx2 c x old f with
        | some e => (some e, s)
        | none => s.renameSpecific o d n d2 n2 dx2 c x old f
  | _, _ => (some .enoent, s)

/-- The operations of the API. -/
inductive Op where
  | create (cr : Cred) (d : Nat) (n : Name) (kind : Kind) (mode : Nat)
  | mknodReg (cr : Cred) (d : Nat) (n : Name) (mode : Nat)
  | mknodSpecial (cr : Cred) (d : Nat) (n : Name) (kind : Kind) (mode : Nat) (devOk : Bool)
  | mkdir (cr : Cred) (d : Nat) (n : Name) (mode : Nat)
  | symlink (cr : Cred) (d : Nat) (n : Name) (vlen : Nat)
  | link (cr : Cred) (d : Nat) (n : Name) (i : Nat)
  | unlink (cr : Cred) (d : Nat) (n : Name)
  | rmdir (cr : Cred) (d : Nat) (n : Name)
  | rename (cr : Cred) (d : Nat) (n : Name) (d2 : Nat) (n2 : Name) (f : RFlags)
  | openReg (cr : Cred) (i : Nat) (f : OFlags)
  | openDir (cr : Cred) (i : Nat) (f : OFlags)
  | release (i : Nat) (dir : Bool) (f : OFlags)
  | forget (i : Nat)
  deriving Repr, DecidableEq

def Op.body (s : Fs) (o : Orc) : Op → Option Err × Fs
  | .create cr d n k m => s.create o cr d n k m
  | .mknodReg cr d n m => s.mknodReg o cr d n m
  | .mknodSpecial cr d n k m dv => s.mknodSpecial o cr d n k m dv
  | .mkdir cr d n m => s.mkdir o cr d n m
  | .symlink cr d n v => s.symlink o cr d n v
  | .link cr d n i => s.link o cr d n i
  | .unlink cr d n => s.unlink o cr d n
  | .rmdir cr d n => s.rmdir o cr d n
  | .rename cr d n d2 n2 f => s.rename o cr d n d2 n2 f
  | .openReg cr i f => s.openReg o cr i f
  | .openDir cr i f => s.openDir cr i f
  | .release i dir f => s.release o i dir f
  | .forget i => s.forget o i

/-- One API call, up to its return to the caller. -/
def Fs.step (s : Fs) (o : Orc) (op : Op) : Out × Fs := Fs.finish o (op.body s o)

/-- A freshly formatted file-system: only the root directory (inode.c:478-486
`silofs_ii_fixup_as_rootdir`). -/
def Fs.init (rootAttr : Attr) (iopenMax : Nat) : Fs :=
  { ino := fun i => if i = ROOT then
      some { attr := { rootAttr with kind := .dir }, nlink := 2, parent := ROOT } else none
    ents := []
    writable := true
    iopen := 0
    iopenMax := iopenMax }

end Silofs.Ns
