import Verif.Model.Bytes
/-
Model of the boundary between the kernel and the file-system: receiving of FUSE
requests, checks, decoding into calls of the file-system, and the bytes of the answers
(lib/fuseq.c; layouts of include/linux/fuse_kernel.h, x86-64, little-endian).

The file-system behind is not part of this model: a request ends up in a `Call`, the result
of which is an argument of the answering functions.  Threads, waiting, logging and the
file-handle field (only logged, lib/fuseq.c:625-636) are left out.  Interrupts never reach an
operation (lib/fuseq.c:3120-3169: no hook), so `task_interrupted` is always false.
-/
namespace Silofs.Fuse

abbrev Buf := List Nat

/-- A little-endian field of `w` bytes at byte `off`. -/
def rd (w off : Nat) (b : Buf) : Nat := leVal ((b.drop off).take w)

/-- A NUL-terminated string at byte `off`. -/
def cstr (off : Nat) (b : Buf) : List Nat := (b.drop off).takeWhile (· != 0)

/-- lib/fuseq.c:464-467 `after_name`. -/
def afterName (off : Nat) (b : Buf) : Nat := off + (cstr off b).length + 1

/-- One bit of a flags field. -/
def bit (x k : Nat) : Bool := x.testBit k

/-! ### What the file-system is asked for -/

/-- A time of a setattr: lib/fuseq.c:1885-1907 `utimens_of`. -/
inductive Tm where
  | omit
  | now
  | at (sec : Int) (nsec : Nat)
  deriving Repr, DecidableEq

/-- `in.setattr` of `struct silofs_oper_args`. -/
structure SetArgs where
  mode : Option Nat
  /-- `set_uid_gid` and the two ids; the one not to be set is `(uid_t)(-1)` -/
  ids : Option (Nat × Nat)
  size : Option Int
  amNow : Bool
  amc : Bool
  nontime : Bool
  atime : Tm
  mtime : Tm
  ctime : Tm
  deriving Repr, DecidableEq

/-- The calls of include/silofs/fs/opers.h, with the arguments that come from a request. -/
inductive Call where
  | lookup (parent : Nat) (name : List Nat)
  | forget (ino n : Nat)
  | batchForget (l : List (Nat × Nat))
  | getattr (ino : Nat)
  | statx (ino mask : Nat)
  | setattr (ino : Nat) (a : SetArgs)
  | readlink (ino : Nat)
  | symlink (parent : Nat) (name target : List Nat)
  | mknod (parent : Nat) (name : List Nat) (mode rdev umask : Nat)
  | mkdir (parent : Nat) (name : List Nat) (mode umask : Nat)
  | unlink (parent : Nat) (name : List Nat)
  | rmdir (parent : Nat) (name : List Nat)
  | rename (parent : Nat) (name : List Nat) (newparent : Nat) (newname : List Nat) (flags : Nat)
  | link (ino parent : Nat) (name : List Nat)
  | open (ino flags : Nat)
  | read (ino : Nat) (off : Int) (len flags : Nat)
  | write (ino : Nat) (off : Int) (data : List Nat) (flags : Nat) (cached : Bool)
  | statfs (ino : Nat)
  | release (ino flags : Nat) (flush : Bool)
  | fsync (ino : Nat) (datasync : Bool)
  | setxattr (ino : Nat) (name value : List Nat) (flags : Nat) (killSgid : Bool)
  | getxattr (ino : Nat) (name : List Nat) (size : Nat)
  | listxattr (ino size : Nat)
  | removexattr (ino : Nat) (name : List Nat)
  | flush (ino : Nat)
  | opendir (ino flags : Nat)
  | readdir (ino : Nat) (off : Int) (size : Nat) (plus : Bool)
  | releasedir (ino flags : Nat)
  | fsyncdir (ino : Nat) (datasync : Bool)
  | access (ino mask : Nat)
  | create (parent : Nat) (name : List Nat) (flags mode umask : Nat)
  | fallocate (ino mode : Nat) (off len : Int)
  | lseek (ino : Nat) (off : Int) (whence : Nat)
  | copyRange (inoIn : Nat) (offIn : Int) (inoOut : Nat) (offOut : Int) (len flags : Nat)
  | syncfs (ino : Nat)
  | init (major minor flags : Nat)
  | destroy
  | ioctl (ino flags cmd inSize outSize : Nat) (buf : List Nat)
  deriving Repr, DecidableEq

/-! ### The daemon's state -/

/-- The fields of `struct silofs_fuseq` that the handling of one request looks at. -/
structure Fq where
  gotInit : Bool
  denyOthers : Bool
  owner : Nat
  /-- `kern_proto_minor` -/
  minor : Nat
  /-- `buffsize`, `max_write`, `max_read` of the connection -/
  buffsize : Nat
  maxWrite : Nat
  maxRead : Nat
  /-- lib/fuseq.c:1783-1786 `fuseq_allowed_splice`, the same when a request is received and when it is carried out -/
  splice : Bool
  deriving Repr, DecidableEq

/-! ### Receiving -/

/-- A request in memory: the thread's buffer (in which the rest of earlier requests remains
behind the message) and what is still in the pipe. -/
structure In where
  buf : Buf
  pipe : Buf
  deriving Repr, DecidableEq

def hLen (b : Buf) : Nat := rd 4 0 b
def hOpcode (b : Buf) : Nat := rd 4 4 b
def hUnique (b : Buf) : Nat := rd 8 8 b
def hNode (b : Buf) : Nat := rd 8 16 b
def hUid (b : Buf) : Nat := rd 4 24 b
def hGid (b : Buf) : Nat := rd 4 28 b
def hPid (b : Buf) : Nat := rd 4 32 b

/-- Writing a message over the buffer's beginning. -/
def over (msg old : Buf) : Buf := msg ++ old.drop msg.length

/-- lib/fuseq.c:3480-3507 `fqd_check_inhdr`. -/
def checkInhdr (fq : Fq) (b : Buf) (nrd : Nat) (full : Bool) : Except Nat Unit :=
  if nrd < 40 then .error 1071
  else if hLen b > fq.buffsize then .error 1071
  else if full && hLen b != nrd then .error 1005
  else .ok ()

/-- lib/fuseq.c:3273-3285 `is_large_io`; the end of the range is an `loff_t` (include/silofs/infra/utility.h, `silofs_off_end`). -/
def isLargeIo (off : Int) (size : Nat) : Bool :=
  if size ≤ 4096 then false
  else if toI64 (toU64 (off + size)) ≤ 65536 then false
  else true

/-- lib/fuseq.c:3287-3300 `fqd_has_large_write_in`. -/
def hasLargeWrite (b : Buf) : Bool :=
  if hOpcode b = 16 then isLargeIo (toI64 (rd 8 48 b)) (rd 4 56 b) else false

/-- lib/fuseq.c:3302-3315 `fqd_has_large_read_in`. -/
def hasLargeRead (b : Buf) : Bool :=
  if hOpcode b = 15 then isLargeIo (toI64 (rd 8 48 b)) (rd 4 56 b) else false

/-- lib/fuseq.c:3552-3571 `fqd_recv_copy_in`: one read(2) gives one message `msg`. -/
def recvCopy (fq : Fq) (old msg : Buf) : Except Nat In :=
  if msg.length < 40 then .error 1005
  else match checkInhdr fq (over msg old) msg.length true with
    | .error e => .error e
    | .ok _ => .ok ⟨over msg old, []⟩

/-- lib/fuseq.c:3641-3673 `fqd_copy_pipe_in` after lib/fuseq.c:3627-3632 `fqd_recv_splice_in`; 80 is `sizeof(in->u.write)`,
the remainder a `size_t`. -/
def recvSplice (fq : Fq) (old msg : Buf) : Except Nat In :=
  match checkInhdr fq (over (msg.take 80) old) (min 80 msg.length)
      (toU64 (hLen (over (msg.take 80) old) - (min 80 msg.length : Nat)) == 0) with
  | .error e => .error e
  | .ok _ =>
    if toU64 (hLen (over (msg.take 80) old) - (min 80 msg.length : Nat)) == 0 ||
        hasLargeWrite (over (msg.take 80) old) then
      .ok ⟨over (msg.take 80) old, msg.drop 80⟩
    else
      match checkInhdr fq (over (msg.take (80 + toU64 (hLen (over (msg.take 80) old) - (min 80 msg.length : Nat)))) old)
          (min (80 + toU64 (hLen (over (msg.take 80) old) - (min 80 msg.length : Nat))) msg.length) true with
      | .error e => .error e
      | .ok _ =>
        .ok ⟨over (msg.take (80 + toU64 (hLen (over (msg.take 80) old) - (min 80 msg.length : Nat)))) old,
          msg.drop (80 + toU64 (hLen (over (msg.take 80) old) - (min 80 msg.length : Nat)))⟩

/-- lib/fuseq.c:3687-3703 `fqd_do_recv_in`: which way a message comes in. -/
def recv (fq : Fq) (old msg : Buf) : Except Nat In :=
  if fq.splice then recvSplice fq old msg else recvCopy fq old msg

/-! ### Decoding -/

/-- lib/fuseq.c:1877-1883 `uid_gid_of`. -/
def idsOf (toSet uid gid : Nat) : Option (Nat × Nat) :=
  if bit toSet 1 || bit toSet 2 then
    some (if bit toSet 1 then uid else 4294967295, if bit toSet 2 then gid else 4294967295)
  else none

/-- lib/fuseq.c:1885-1907 `utimens_of`, access and modification time. -/
def tmOf (toSet k : Nat) (sec nsec : Nat) : Tm :=
  if bit toSet k then .at (toI64 sec) nsec else .omit

/-- lib/fuseq.c:1885-1907 `utimens_of`, change time. -/
def ctmOf (toSet : Nat) (sec nsec : Nat) : Tm :=
  if bit toSet 10 then .at (toI64 sec) nsec
  else if bit toSet 7 || bit toSet 8 || bit toSet 4 || bit toSet 5 || bit toSet 0 || bit toSet 1 || bit toSet 2 ||
      bit toSet 3 then .now
  else .omit

/-- lib/fuseq.c:1909-1945 `do_setattr`, with lib/fuseq.c:529-540 `fuse_setattr_to_stat`; `0x7FF` is `FATTR_MASK`. -/
def setArgsOf (b : Buf) : SetArgs :=
  { mode := if bit (rd 4 40 b &&& 0x7FF) 0 then some (rd 4 108 b) else none
    ids := idsOf (rd 4 40 b &&& 0x7FF) (rd 4 116 b) (rd 4 120 b)
    size := if bit (rd 4 40 b &&& 0x7FF) 3 then some (toI64 (rd 8 56 b)) else none
    amNow := bit (rd 4 40 b &&& 0x7FF) 7 || bit (rd 4 40 b &&& 0x7FF) 8
    amc := bit (rd 4 40 b &&& 0x7FF) 4 || bit (rd 4 40 b &&& 0x7FF) 5 || bit (rd 4 40 b &&& 0x7FF) 10
    nontime := bit (rd 4 40 b &&& 0x7FF) 0 || bit (rd 4 40 b &&& 0x7FF) 1 || bit (rd 4 40 b &&& 0x7FF) 2 ||
      bit (rd 4 40 b &&& 0x7FF) 3
    atime := tmOf (rd 4 40 b &&& 0x7FF) 4 (rd 8 72 b) (rd 4 96 b)
    mtime := tmOf (rd 4 40 b &&& 0x7FF) 5 (rd 8 80 b) (rd 4 100 b)
    ctime := ctmOf (rd 4 40 b &&& 0x7FF) (rd 8 88 b) (rd 4 104 b) }

/-- lib/fuseq.c:5080-5092 `op_batch_forget`: the entries behind the fixed part. -/
def forgetsOf : Nat → Buf → List (Nat × Nat)
  | 0, _ => []
  | n + 1, b => (rd 8 0 b, rd 8 8 b) :: forgetsOf n (b.drop 16)

/-- lib/fuseq.c:2713-2730 `do_write_buf`, lib/fuseq.c:2732-2759 `do_write_iter`, chosen as in lib/fuseq.c:2778-2789 `do_write`:
the data comes from the buffer behind the fixed part, or from the pipe. -/
def writeOf (fq : Fq) (i : In) : Call :=
  if fq.splice && hasLargeWrite i.buf then
    .write (hNode i.buf) (toI64 (rd 8 48 i.buf)) (i.pipe.take (min (rd 4 56 i.buf) fq.maxWrite)) (rd 4 72 i.buf)
      (bit (rd 4 60 i.buf) 0)
  else
    .write (hNode i.buf) (toI64 (rd 8 48 i.buf)) ((i.buf.drop 80).take (rd 4 56 i.buf)) (rd 4 72 i.buf)
      (bit (rd 4 60 i.buf) 0)

/-- lib/fuseq.c:2155-2191 `do_setxattr1`, `do_setxattr2`, `do_setxattr`. -/
def setxattrOf (fq : Fq) (b : Buf) : Call :=
  if fq.minor ≤ 33 then
    .setxattr (hNode b) (cstr 48 b) ((b.drop (afterName 48 b)).take (rd 4 40 b)) (rd 4 44 b) false
  else
    .setxattr (hNode b) (cstr 56 b) ((b.drop (afterName 56 b)).take (rd 4 40 b)) (rd 4 44 b) (bit (rd 4 44 b) 0)

/-- lib/fuseq.c:3120-3169 `fuseq_cmd_tbl` with the `do_...` functions (lib/fuseq.c:1909-2437, 2465-2536) and the `op_...`
functions behind them (lib/fuseq.c:5007-5429): the call for the request in the buffer; `none` is an
operation without hook. -/
def decode (fq : Fq) (i : In) : Option Call :=
  match hOpcode i.buf with
  | 1 => some (.lookup (hNode i.buf) (cstr 40 i.buf))
  | 2 => some (.forget (hNode i.buf) (rd 8 40 i.buf))
  | 3 => some (.getattr (hNode i.buf))
  | 4 => some (.setattr (hNode i.buf) (setArgsOf i.buf))
  | 5 => some (.readlink (hNode i.buf))
  | 6 => some (.symlink (hNode i.buf) (cstr 40 i.buf) (cstr (afterName 40 i.buf) i.buf))
  | 8 => some (.mknod (hNode i.buf) (cstr 56 i.buf) (rd 4 40 i.buf) (rd 4 44 i.buf) (rd 4 48 i.buf))
  | 9 => some (.mkdir (hNode i.buf) (cstr 48 i.buf) (rd 4 40 i.buf ||| 0x4000) (rd 4 44 i.buf))
  | 10 => some (.unlink (hNode i.buf) (cstr 40 i.buf))
  | 11 => some (.rmdir (hNode i.buf) (cstr 40 i.buf))
  | 12 => some (.rename (hNode i.buf) (cstr 48 i.buf) (rd 8 40 i.buf) (cstr (afterName 48 i.buf) i.buf) 0)
  | 13 => some (.link (rd 8 40 i.buf) (hNode i.buf) (cstr 48 i.buf))
  | 14 => some (.open (hNode i.buf) (rd 4 40 i.buf))
  | 15 => some (.read (hNode i.buf) (toI64 (rd 8 48 i.buf)) (min (rd 4 56 i.buf) fq.maxRead) (rd 4 72 i.buf))
  | 16 => some (writeOf fq i)
  | 17 => some (.statfs (hNode i.buf))
  | 18 => some (.release (hNode i.buf) (rd 4 48 i.buf) (bit (rd 4 48 i.buf) 0))
  | 20 => some (.fsync (hNode i.buf) (bit (rd 4 48 i.buf) 0))
  | 21 => some (setxattrOf fq i.buf)
  | 22 => some (.getxattr (hNode i.buf) (cstr 48 i.buf) (min (rd 4 40 i.buf) 2048))
  | 23 => some (.listxattr (hNode i.buf) (rd 4 40 i.buf))
  | 24 => some (.removexattr (hNode i.buf) (cstr 40 i.buf))
  | 25 => some (.flush (hNode i.buf))
  | 26 => some (.init (rd 4 40 i.buf) (rd 4 44 i.buf) (rd 4 52 i.buf))
  | 27 => some (.opendir (hNode i.buf) (rd 4 40 i.buf))
  | 28 => some (.readdir (hNode i.buf) (toI64 (rd 8 48 i.buf)) (rd 4 56 i.buf) false)
  | 29 => some (.releasedir (hNode i.buf) (rd 4 48 i.buf))
  | 30 => some (.fsyncdir (hNode i.buf) (bit (rd 4 48 i.buf) 0))
  | 34 => some (.access (hNode i.buf) (rd 4 40 i.buf))
  | 35 => some (.create (hNode i.buf) (cstr 56 i.buf) (rd 4 40 i.buf) (rd 4 44 i.buf) (rd 4 48 i.buf))
  | 38 => some .destroy
  | 39 => some (.ioctl (hNode i.buf) (rd 4 48 i.buf) (rd 4 52 i.buf) (rd 4 64 i.buf) (rd 4 68 i.buf)
            ((i.buf.drop 72).take (rd 4 64 i.buf)))
  | 42 => some (.batchForget (forgetsOf (rd 4 40 i.buf) (i.buf.drop 48)))
  | 43 => some (.fallocate (hNode i.buf) (rd 4 64 i.buf) (toI64 (rd 8 48 i.buf)) (toI64 (rd 8 56 i.buf)))
  | 44 => some (.readdir (hNode i.buf) (toI64 (rd 8 48 i.buf)) (rd 4 56 i.buf) true)
  | 45 => some (.rename (hNode i.buf) (cstr 56 i.buf) (rd 8 40 i.buf) (cstr (afterName 56 i.buf) i.buf) (rd 4 48 i.buf))
  | 46 => some (.lseek (hNode i.buf) (toI64 (rd 8 48 i.buf)) (rd 4 56 i.buf))
  | 47 => some (.copyRange (hNode i.buf) (toI64 (rd 8 48 i.buf)) (rd 8 56 i.buf) (toI64 (rd 8 72 i.buf))
            (min (rd 8 80 i.buf) 2147483648) (rd 8 88 i.buf % 4294967296))
  | 50 => some (.syncfs (hNode i.buf))
  | 52 => some (.statx (hNode i.buf) (rd 4 60 i.buf))
  | _ => none

/-! ### Checks -/

/-- lib/fuseq.c:3225-3242 `fqd_check_opcode`. -/
def checkOpcode (fq : Fq) (i : In) : Option Nat :=
  if (decode fq i).isNone then some 1038
  else if !fq.gotInit && hOpcode i.buf != 26 then some 1005
  else if fq.gotInit && hOpcode i.buf == 26 then some 1005
  else none

/-- lib/fuseq.c:3244-3271 `fqd_check_perm`. -/
def checkPerm (fq : Fq) (uid opcode : Nat) : Option Nat :=
  if !fq.denyOthers then none
  else if uid = 0 ∨ uid = fq.owner then none
  else if [26, 15, 16, 20, 18, 28, 30, 29, 41, 44].contains opcode then none
  else some 13

/-- lib/fuseq.c:3330-3346 `fqd_check_task`. -/
def checkTask (fq : Fq) (i : In) : Option Nat :=
  match checkOpcode fq i with
  | some e => some e
  | none => checkPerm fq (hUid i.buf) (hOpcode i.buf)

/-! ### Answers -/

/-- lib/opers.c:1680-1693 `silofs_remap_status_code`: internal codes come out as EUCLEAN, the others of
include/silofs/errors.h as the errno they are made of. -/
def remap (e : Nat) : Nat := if e ≥ 10000 then 117 else if e ≥ 1000 then e - 1000 else e

/-- lib/fuseq.c:654-665 `sanitize_err`, as a positive number. -/
def sanitize (e : Nat) : Nat := if e ≥ 1000 then remap e else e

/-- lib/fuseq.c:672-678 `fill_out_header`: length, the negated error, the request's number. -/
def outHdr (len err unique : Nat) : Buf := leBytes 4 len ++ leBytes 4 (4294967296 - err) ++ leBytes 8 unique

/-- lib/fuseq.c:728-745 `fqd_reply_arg`, lib/fuseq.c:747-763 `fqd_reply_arg2`, lib/fuseq.c:765-782 `fqd_reply_buf`. -/
def replyOk (unique : Nat) (p : Buf) : Buf := outHdr (16 + p.length) 0 unique ++ p

/-- lib/fuseq.c:784-792 `fqd_reply_err`; also lib/fuseq.c:800-804 `fqd_reply_status` of a success. -/
def replyErr (unique e : Nat) : Buf := outHdr 16 (sanitize e) unique

/-- The attributes of a file (`struct stat`, with the generation of `struct silofs_stat`). -/
structure St where
  ino : Nat
  size : Nat
  blocks : Nat
  asec : Int
  msec : Int
  csec : Int
  ansec : Nat
  mnsec : Nat
  cnsec : Nat
  mode : Nat
  nlink : Nat
  uid : Nat
  gid : Nat
  rdev : Nat
  blksize : Nat
  gen : Nat
  deriving Repr, DecidableEq

/-- lib/fuseq.c:490-505 `stat_to_fuse_attr`, as laid out by `struct fuse_attr`. -/
def attrBytes (s : St) : Buf :=
  leBytes 8 s.ino ++ leBytes 8 s.size ++ leBytes 8 s.blocks ++ leBytes 8 (toU64 s.asec) ++
  leBytes 8 (toU64 s.msec) ++ leBytes 8 (toU64 s.csec) ++ leBytes 4 s.ansec ++ leBytes 4 s.mnsec ++
  leBytes 4 s.cnsec ++ leBytes 4 s.mode ++ leBytes 4 s.nlink ++ leBytes 4 s.uid ++ leBytes 4 s.gid ++
  leBytes 4 s.rdev ++ leBytes 4 s.blksize ++ leBytes 4 0

/-- lib/fuseq.c:556-565 `fill_fuse_entry_out`. -/
def entryBytes (s : St) : Buf :=
  leBytes 8 s.ino ++ leBytes 8 s.gen ++ leBytes 8 4294967295 ++ leBytes 8 4294967295 ++ leBytes 4 0 ++ leBytes 4 0 ++
  attrBytes s

/-- lib/fuseq.c:567-572 `fill_fuse_noentry_out`. -/
def noentryBytes : Buf := leBytes 8 0 ++ leBytes 8 0 ++ leBytes 8 4294967295 ++ leBytes 8 0 ++ List.replicate 96 0

/-- lib/fuseq.c:574-580 `fill_fuse_attr_out`. -/
def attrOutBytes (s : St) : Buf := leBytes 8 4294967295 ++ leBytes 4 0 ++ leBytes 4 0 ++ attrBytes s

/-- lib/fuseq.c:590-602 `fill_fuse_open_out`. -/
def openBytes (noflush isdir : Bool) : Buf :=
  leBytes 8 0 ++ leBytes 4 (if isdir then 8 else if noflush then 2 ||| 32 else 2) ++ leBytes 4 0

/-- statvfs as filled in by the file-system. -/
structure Sfs where
  blocks : Nat
  bfree : Nat
  bavail : Nat
  files : Nat
  ffree : Nat
  bsize : Nat
  namemax : Nat
  frsize : Nat
  deriving Repr, DecidableEq

/-- lib/fuseq.c:542-554 `statfs_to_fuse_kstatfs`. -/
def statfsBytes (s : Sfs) : Buf :=
  leBytes 8 s.blocks ++ leBytes 8 s.bfree ++ leBytes 8 s.bavail ++ leBytes 8 s.files ++ leBytes 8 s.ffree ++
  leBytes 4 s.bsize ++ leBytes 4 s.namemax ++ leBytes 4 s.frsize ++ leBytes 4 0 ++ List.replicate 24 0

/-- What a call that succeeded gives. -/
inductive Val where
  | done
  | stat (s : St)
  | bytes (l : List Nat)
  | count (n : Nat)
  | offset (o : Int)
  | sfs (s : Sfs)
  deriving Repr, DecidableEq

/-- lib/fuseq.c:1104-1120 `fqd_reply_xattr`: without a buffer only the length. -/
def xattrBytes (size : Nat) (v : List Nat) : Buf :=
  if size = 0 then leBytes 4 v.length ++ leBytes 4 0 else v

/-- The part of an answer behind the header, by the call and its result: lib/fuseq.c:810-965 `fqd_reply_..._ok`,
as used at the end of each `do_...`. -/
def payload (c : Call) (v : Val) : Buf :=
  match c, v with
  | .lookup .., .stat s | .symlink .., .stat s | .mknod .., .stat s | .mkdir .., .stat s | .link .., .stat s => entryBytes s
  | .create .., .stat s => entryBytes s ++ openBytes false false
  | .getattr .., .stat s | .setattr .., .stat s => attrOutBytes s
  | .open _ fl, .done => openBytes (fl &&& 3 == 0) false
  | .opendir .., .done => openBytes false true
  | .readlink .., .bytes l | .read .., .bytes l | .readdir .., .bytes l => l
  | .write .., .count n | .copyRange .., .count n => leBytes 4 n ++ leBytes 4 0
  | .statfs .., .sfs s => statfsBytes s
  | .lseek .., .offset o => leBytes 8 (toU64 o)
  | .getxattr _ _ size, .bytes l => xattrBytes size l
  | .listxattr _ size, .bytes l => xattrBytes size l
  | .ioctl .., .bytes l => leBytes 4 0 ++ leBytes 4 0 ++ leBytes 4 0 ++ leBytes 4 0 ++ l
  | _, _ => []

/-- Requests that are never answered. -/
def silent : Call → Bool
  | .forget .. | .batchForget .. => true
  | _ => false

/-- The answer to a call: lib/fuseq.c:974-1248 `fqd_reply_...`, and lib/fuseq.c:1022-1039 `fqd_reply_lookup`, where a missing
name is an answer without an error. -/
def answer (unique : Nat) (c : Call) (r : Except Nat Val) : Option Buf :=
  if silent c then none
  else match r with
    | .ok v => some (replyOk unique (payload c v))
    | .error e =>
      match c with
      | .lookup .. => if sanitize e = 2 then some (replyOk unique noentryBytes) else some (replyErr unique e)
      | _ => some (replyErr unique e)

/-- lib/fuseq.c:1629-1652 `fqd_check_init`. -/
def initOk (major minor : Nat) : Bool := major == 7 && 34 ≤ minor

/-- What comes out of one request: the call made, with the credentials it is made with, and the answer. -/
structure Out where
  call : Option (Nat × Nat × Call)
  reply : Option Buf
  deriving Repr, DecidableEq

/-- lib/fuseq.c:3441-3457 `fqd_exec_request` of a request in the buffer; `fs` is the file-system: the result of a call
on behalf of a user and group.  INIT and DESTROY are handled by the daemon itself (lib/fuseq.c:1718-1758
`do_init`, `do_destroy`); of INIT's answer only the error is modelled. -/
def exec (fq : Fq) (fs : Nat → Nat → Call → Except Nat Val) (i : In) : Fq × Out :=
  match checkTask fq i with
  | some e => (fq, ⟨none, some (replyErr (hUnique i.buf) e)⟩)
  | none =>
    match decode fq i with
    | none => (fq, ⟨none, some (replyErr (hUnique i.buf) 1038)⟩)
    | some (.init major minor _) =>
      if initOk major minor then
        ({ fq with gotInit := true, minor := minor }, ⟨none, some (replyOk (hUnique i.buf) [])⟩)
      else (fq, ⟨none, some (replyErr (hUnique i.buf) 71)⟩)
    | some .destroy => (fq, ⟨none, some (replyErr (hUnique i.buf) 0)⟩)
    | some c => (fq, ⟨some (hUid i.buf, hGid i.buf, c), answer (hUnique i.buf) c (fs (hUid i.buf) (hGid i.buf) c)⟩)

/-- A message from the kernel: received and carried out, or dropped. -/
def serve (fq : Fq) (fs : Nat → Nat → Call → Except Nat Val) (old msg : Buf) : Fq × Out :=
  match recv fq old msg with
  | .error _ => (fq, ⟨none, none⟩)
  | .ok i => exec fq fs i

end Silofs.Fuse
