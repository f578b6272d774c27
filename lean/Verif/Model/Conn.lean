import Verif.Model.Namei

/-!
# The connection with the kernel: sizes and capabilities (C73)

Before the mount the daemon chooses the size of its buffers and pipes; in its answer to INIT it tells the kernel how
large requests may be and which of the offered capabilities it uses; afterwards it receives requests into those buffers
and pipes. Modelled here: lib/infra/pipe.c (sizes of pipes), the part of lib/fuseq.c which computes
`silofs_fuseq_conn_info`, the answer to INIT, and the checks every received READ and WRITE passes. What the kernel
sends, given the answer, is stated in Spec/Conn.lean.

Simplifications: 64-bit `long`/`size_t` are naturals; `fls32` of 0 is undefined in C and 0 here (it needs a pipe limit
of 1, and the kernel keeps the limit at one page or more, cf. `Sys.Ok` in the spec); the splice of a message into a pipe
is in Model/Pipe.lean.
-/

namespace Silofs.Cn

/-- Size of `struct silofs_fuseq_inb` and `struct silofs_fuseq_outb`, lib/fuseq.c:397-433. -/
def BUF : Nat := 2097152

/-- include/silofs/defs.h SILOFS_IO_SIZE_MAX: 2M - 64K; also the size of `silofs_fuseq_databuf`, lib/fuseq.c:410-412. -/
def IOMAX : Nat := 2031616

/-- include/linux/fuse_kernel.h FUSE_MIN_READ_BUFFER. -/
def MINREAD : Nat := 8192

/-- Sizes of `struct fuse_in_header` and `struct fuse_write_in` (and `struct fuse_read_in`). -/
def HDR : Nat := 40
def WRIN : Nat := 40

def EPERM : Nat := 1
def EIO : Nat := 1005
def EINVAL : Nat := 1022
def EPROTO : Nat := 1071
def EOPNOTSUPP : Nat := 1095

/-- What the system offers: page size, the limit of /proc/sys/fs/pipe-max-size if it can be read, and for each
dispatcher the outcome of creating its pipe: error, initial size, error of F_SETPIPE_SZ. -/
structure PipeSys where
  openErr : Option Nat := none
  size0 : Nat
  growErr : Option Nat := none
  deriving Repr, DecidableEq

structure Sys where
  page : Nat
  lim : Option Nat
  splice : Bool
  pipes : List PipeSys
  deriving Repr, DecidableEq

/-- lib/execlib.c:2010-2025 `check_system_page_size`. -/
def checkPage (page : Nat) : Option Nat :=
  if page > 65536 then some EOPNOTSUPP
  else if [12, 13, 14, 16].any (fun s => page == 2 ^ s) then none
  else some EOPNOTSUPP

/-- lib/infra/pipe.c:33-36 `fls32`. -/
def fls32 (x : Nat) : Nat := if x = 0 then 0 else Nat.log2 x + 1

/-- lib/infra/pipe.c:38-41 `roundup_pow_of_two`; `(uint32_t)(n - 1)`. -/
def roundup (n : Nat) : Nat := 2 ^ fls32 ((n + 4294967295) % 4294967296)

/-- lib/infra/pipe.c:56-91 `calc_pipe_size_of`: the upper limit. -/
def pipeMax (page : Nat) : Option Nat → Nat
  | some l => if BUF > roundup l then roundup l else BUF
  | none => 16 * page

/-- ... the lower limit ... -/
def pipeMin (page : Nat) (lim : Option Nat) : Nat :=
  match lim with
  | some l => if 2 * page > pipeMax page (some l) then pipeMax page (some l) else 2 * page
  | none => 2 * page

/-- ... and the size: lib/infra/pipe.c:56-91 `calc_pipe_size_of`, 93-96 `silofs_pipe_size_of`. -/
def pipeSize (page : Nat) (lim : Option Nat) (want : Nat) : Nat :=
  if want ≥ pipeMax page lim then pipeMax page lim
  else if want ≤ pipeMin page lim then pipeMin page lim
  else roundup want

/-- lib/fuseq.c:4601-4631 `fuseq_resolve_bufsize`, with 4590-4599 `fuseq_bufsize_max`. -/
def bufSize (page : Nat) (lim : Option Nat) (splice : Bool) : Except Nat Nat :=
  if (min (if splice then pipeSize page lim BUF else BUF) BUF) / page * page < MINREAD ∨
     (min (if splice then pipeSize page lim BUF else BUF) BUF) / page * page > BUF then .error EPROTO
  else .ok ((min (if splice then pipeSize page lim BUF else BUF) BUF) / page * page)

/-- lib/fuseq.c:4639-4663 `fuseq_calc_max_write`. -/
def maxWriteOf (page bufsize : Nat) : Except Nat Nat :=
  if bufsize < HDR + WRIN + page then .error EPROTO
  else if (bufsize - HDR - WRIN) / page * page < max (2 * page) MINREAD then .error EPROTO
  else .ok ((bufsize - HDR - WRIN) / page * page)

/-- `struct silofs_fuseq_conn_info`, include/silofs/fuseq.h:23-38: the sizes. -/
structure Conn where
  buffsize : Nat
  maxWrite : Nat
  maxRead : Nat
  maxReadahead : Nat
  maxPages : Nat
  deriving Repr, DecidableEq

/-- lib/fuseq.c:4665-4691 `fuseq_update_conn_info`. -/
def connInfo (page : Nat) (lim : Option Nat) (splice : Bool) : Except Nat Conn :=
  match bufSize page lim splice with
  | .error e => .error e
  | .ok b =>
    match maxWriteOf page b with
    | .error e => .error e
    | .ok w => .ok { buffsize := b, maxWrite := w, maxRead := w, maxReadahead := b - page,
                     maxPages := min ((w - 1) / page + 1) 65535 }

/-- lib/infra/pipe.c:151-166 `pipe_setsize`: new size and error. -/
def setSize (page : Nat) (lim : Option Nat) (size want : Nat) (growErr : Option Nat) : Nat × Option Nat :=
  if pipeSize page lim want = size then (size, none)
  else match growErr with
    | some e => (size, some e)
    | none => (pipeSize page lim want, none)

/-- lib/infra/pipe.c:173-192 `pipe_try_grow`, 492-500 `silofs_piper_try_grow`. -/
def tryGrow (page : Nat) (lim : Option Nat) (size want : Nat) (growErr : Option Nat) : Nat × Option Nat :=
  if want = size then (size, none)
  else if want < page ∨ want > 1024 * page then (size, some EINVAL)
  else if size < pipeSize page lim want then setSize page lim size (pipeSize page lim want) growErr
  else (size, none)

/-- lib/fuseq.c:4004-4023 `fqd_open_piper`, lib/infra/pipe.c:124-149 `silofs_pipe_open`, 470-484 `silofs_piper_open`:
the size recorded in the pipe (0 when it is not open) and the error. -/
def openPipe (page : Nat) (lim : Option Nat) (want : Nat) (p : PipeSys) : Nat × Option Nat :=
  match p.openErr with
  | some e => (0, some e)
  | none => if p.size0 < page then (0, some EINVAL) else tryGrow page lim p.size0 want p.growErr

/-- Result of opening the pipes of all dispatchers, with the recorded sizes. -/
inductive Opened where
  | all (sizes : List Nat)
  | cannot (sizes : List Nat)
  | fail (e : Nat)
  deriving Repr, DecidableEq

/-- lib/fuseq.c:4434-4469 `fuseq_update_dispatchers`, the loop. After EPERM the pipes opened so far are closed and the one
which could not grow is not; `silofs_pipe_close` (lib/infra/pipe.c:194-204) leaves the recorded size as it was, and the
remaining dispatchers have size 0. -/
def openPipes (page : Nat) (lim : Option Nat) (want : Nat) : List PipeSys → List Nat → Opened
  | [], done => .all done
  | p :: rest, done =>
    match (openPipe page lim want p).2 with
    | none => openPipes page lim want rest (done ++ [(openPipe page lim want p).1])
    | some e =>
      if e = EPERM then .cannot (done ++ (openPipe page lim want p).1 :: rest.map (fun _ => 0))
      else .fail e

/-- State of the queue after `silofs_fuseq_update`: sizes, splice mode, recorded sizes of the pipes of the dispatchers. -/
structure Up where
  conn : Conn
  splice : Bool
  sizes : List Nat
  deriving Repr, DecidableEq

/-- lib/fuseq.c:4761-4786 `silofs_fuseq_update`, 4434-4469 `fuseq_update_dispatchers`. -/
def update (s : Sys) : Except Nat Up :=
  match connInfo s.page s.lim s.splice with
  | .error e => .error e
  | .ok c =>
    if s.splice then
      match openPipes s.page s.lim c.buffsize s.pipes [] with
      | .all sizes => .ok { conn := c, splice := true, sizes := sizes }
      | .fail e => .error e
      | .cannot sizes =>
        match connInfo s.page s.lim false with
        | .error e => .error e
        | .ok c2 => .ok { conn := c2, splice := false, sizes := sizes }
    else .ok { conn := c, splice := false, sizes := s.pipes.map (fun _ => 0) }

/-- lib/mntsvc.c:874-913 `mntsvc_check_mount`: the check of the limit of reads the daemon asks for. -/
def mountTakes (page maxRead : Nat) : Bool := !decide (maxRead < 2 * page) && !decide (maxRead > 512 * page)

/-! ## INIT -/

/-- `struct fuse_init_in` as far as it is used. -/
structure InitIn where
  major : Nat
  minor : Nat
  flags : Nat
  deriving Repr, DecidableEq

/-- `struct fuse_init_out`. -/
structure InitOut where
  major : Nat
  minor : Nat
  maxReadahead : Nat
  flags : Nat
  maxBackground : Nat
  congestion : Nat
  maxWrite : Nat
  timeGran : Nat
  maxPages : Nat
  deriving Repr, DecidableEq

/-- Bits of the capabilities, include/linux/fuse_kernel.h. -/
def ASYNC_READ : Nat := 0
def ATOMIC_O_TRUNC : Nat := 3
def EXPORT_SUPPORT : Nat := 4
def BIG_WRITES : Nat := 5
def SPLICE_WRITE : Nat := 7
def SPLICE_READ : Nat := 9
def AUTO_INVAL_DATA : Nat := 12
def DO_READDIRPLUS : Nat := 13
def READDIRPLUS_AUTO : Nat := 14
def ASYNC_DIO : Nat := 15
def WRITEBACK_CACHE : Nat := 16
def PARALLEL_DIROPS : Nat := 18
def HANDLE_KILLPRIV : Nat := 19
def POSIX_ACL : Nat := 20
def MAX_PAGES : Nat := 22
def CACHE_SYMLINKS : Nat := 23
def SETXATTR_EXT : Nat := 29

/-- lib/fuseq.c:1618-1627 `update_cap_want_`. -/
def capWant (kern want b : Nat) : Nat := if kern &&& 2 ^ b ≠ 0 then want ||| 2 ^ b else want

/-- lib/fuseq.c:1666-1692 `do_init_capabilities`. -/
def initCaps (wback : Bool) (kern want : Nat) : Nat :=
  ([ASYNC_READ, ATOMIC_O_TRUNC, EXPORT_SUPPORT, SPLICE_WRITE, SPLICE_READ, PARALLEL_DIROPS, HANDLE_KILLPRIV, MAX_PAGES,
    CACHE_SYMLINKS, DO_READDIRPLUS, READDIRPLUS_AUTO, ASYNC_DIO, SETXATTR_EXT] ++
    (if wback then [AUTO_INVAL_DATA, WRITEBACK_CACHE] else [])).foldl (capWant kern) (want ||| 2 ^ BIG_WRITES)

/-- lib/fuseq.c:1629-1652 `fqd_check_init`. -/
def checkInit (i : InitIn) : Option Nat := if i.major ≠ 7 ∨ i.minor < 34 then some EPROTO else none

/-- lib/fuseq.c:928-947 `fqd_reply_init_ok`, with the constants of 4693-4710 `fuseq_init_conn_info`. -/
def replyInit (c : Conn) (want : Nat) : InitOut where
  major := 7
  minor := 40
  maxReadahead := c.maxReadahead
  flags := want
  maxBackground := 65535 % 65536
  congestion := 65535 / 2 % 65536
  maxWrite := c.maxWrite
  timeGran := 1
  maxPages := if want &&& 2 ^ MAX_PAGES ≠ 0 then c.maxPages % 65536 else 0

/-- lib/fuseq.c:1718-1748 `do_init`; `want` are the capabilities wanted so far (0 at the first INIT). -/
def doInit (u : Up) (wback : Bool) (want : Nat) (i : InitIn) : Except Nat InitOut :=
  match checkInit i with
  | some e => .error e
  | none => .ok (replyInit u.conn (initCaps wback i.flags want))

/-- lib/fuseq.c:1760-1765 `fuseq_has_cap`, 1773-1776 `fuseq_may_splice`, 1778-1781 `fuseq_cap_splice`, 1783-1786
`fuseq_allowed_splice`: whether a message is received through the pipe; `normal` and `nopers` are `fuseq_is_normal` and
`fq_nopers`. -/
def allowedSplice (u : Up) (want : Nat) (normal : Bool) (nopers : Nat) : Bool :=
  u.splice && normal && decide (nopers > 2) &&
  decide (want &&& (2 ^ SPLICE_READ ||| 2 ^ SPLICE_WRITE) = (2 ^ SPLICE_READ ||| 2 ^ SPLICE_WRITE))

/-! ## Requests -/

/-- lib/fuseq.c:3509-3526 `fqd_check_pipe_pre`: the size. -/
def checkPipePre (c : Conn) (size : Nat) : Option Nat := if c.buffsize < size then some EIO else none

/-- lib/fuseq.c:3480-3507 `fqd_check_inhdr`, 3467-3478 `fqd_max_inlen`. -/
def checkInhdr (c : Conn) (nrd len : Nat) (full : Bool) : Option Nat :=
  if nrd < HDR then some EPROTO
  else if len > c.buffsize then some EPROTO
  else if full && decide (len ≠ nrd) then some EIO
  else none

/-- lib/fuseq.c:2481-2501 `do_read_iter`, 2503-2520 `do_read_buf`: the length read. -/
def readLen (c : Conn) (size : Nat) : Nat := min size c.maxRead

/-- lib/fuseq.c:2713-2730 `do_write_buf`, 2732-2759 `do_write_iter`: the length written. -/
def writeLen (c : Conn) (iter : Bool) (size : Nat) : Nat := if iter then min size c.maxWrite else size

/-- lib/file.c:1289-1343 `filc_check_file_io`: the check of the length of reads and writes. -/
def checkIoLen (len : Nat) : Option Nat := if len > IOMAX then some EINVAL else none

/-! ## LOOKUP -/

/-- lib/namei.c:411-426 `check_lookup` (the check of the name is left out) and 484-499
`do_lookup`: inode number of a name. -/
def lookup (s : Ns.Fs) (cr : Ns.Cred) (d : Nat) (n : Ns.Name) : Except Ns.Err Nat :=
  match s.ino d with
  | none => .error .enoent
  | some x =>
    if !x.isDir then .error .enotdir
    else if !Ns.doAccess cr x.attr Ns.X_OK then .error .eacces
    else match s.stageByName false false d n with
      | .error e => .error e
      | .ok (c, _) => .ok c

end Silofs.Cn
