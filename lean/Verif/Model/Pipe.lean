import Verif.Model.Fuse
/-
The pipe of a dispatcher thread (lib/infra/pipe.c) and what large reads and writes do with it
(lib/fuseq.c): a message is spliced from the device into the pipe, its head is copied out, the data of a
large write is moved from the pipe into the file's memory, and the data of a large read is put into the
pipe and spliced to the device.

The kernel's side: a pipe is a list of filled slots (a slot holds at most one page), `cap` slots long.
A call of the kernel may fail with any error at any time (`flt`: one entry per call; errno 0 lets the call
through; the flag tells whether a failing transfer to the device has taken the bytes out of the pipe, as
fuse does before it looks at them).  The device takes a reply iff the length in its header is the number of
bytes sent.  Both ends of the pipe are non-blocking (lib/infra/pipe.c:129), except that vmsplice(2) without
SPLICE_F_NONBLOCK waits for a free slot: with nobody else to empty the pipe it waits forever (`hang`).
-/
namespace Silofs.Pp
open Silofs.Fuse (Buf)

/-- A piece of memory: first address and length (`struct iovec`). -/
structure Iov where
  base : Nat
  len : Nat
  deriving Repr, DecidableEq

/-- How a function comes back: with 0, with an error, or not at all. -/
inductive R where
  | ok
  | err (e : Nat)
  | hang
  deriving Repr, DecidableEq

/-- A dispatcher's pipe, the memory, and both directions of the device. -/
structure St where
  /-- filled slots -/
  segs : List Buf
  /-- number of slots -/
  cap : Nat
  /-- `size` and `pend` of `struct silofs_pipe` -/
  size : Nat
  pend : Nat
  mem : Nat → Nat
  /-- messages waiting in the device, each as the slots it fills -/
  inq : List (List Buf)
  /-- replies taken by the device -/
  outq : List Buf
  flt : List (Nat × Bool)
  /-- `fq_active` -/
  active : Bool

/-- The bytes in the pipe. -/
def St.bytes (s : St) : Buf := s.segs.flatten

/-- The bytes of a piece of memory. -/
def load (m : Nat → Nat) (v : Iov) : Buf := (List.range v.len).map fun i => m (v.base + i)

/-- Memory after bytes were put at `base`. -/
def store (m : Nat → Nat) (base : Nat) (l : Buf) : Nat → Nat :=
  fun a => if base ≤ a ∧ a < base + l.length then l.getD (a - base) 0 else m a

/-- Bytes cut at page ends; the first page has room for `r + 1` bytes. -/
def cut (r : Nat) (l : Buf) : List Buf :=
  if l.length ≤ r + 1 then (if l = [] then [] else [l])
  else l.take (r + 1) :: cut 4095 (l.drop (r + 1))
termination_by l.length
decreasing_by simp only [List.length_drop]; omega

/-- The slots a piece of memory fills: one per page it touches. -/
def slotsOf (m : Nat → Nat) (v : Iov) : List Buf := cut (4095 - v.base % 4096) (load m v)

/-- Slots after `n` bytes were taken out. -/
def dropB : Nat → List Buf → List Buf
  | _, [] => []
  | n, x :: xs => if n = 0 then x :: xs else if n < x.length then x.drop n :: xs else dropB (n - x.length) xs

/-- The error of the next call of the kernel. -/
def St.fault (s : St) : Nat × Bool := s.flt.headD (0, false)

/-- One call of the kernel was made. -/
def St.tick (s : St) : St := { s with flt := s.flt.tail }

/-! ### lib/infra/pipe.c -/

/-- lib/infra/pipe.c:99-114 `iov_count_ceil`: so many pieces as are needed for `max` bytes. -/
def countCeil (max : Nat) : Nat → List Iov → Nat
  | _, [] => 0
  | got, v :: l => if max ≤ got then 0 else countCeil max (got + v.len) l + 1

/-- lib/infra/pipe.c:213-216 `pipe_avail`. -/
def avail (s : St) : Nat := s.size - s.pend

/-- lib/infra/pipe.c:218-247 `silofs_pipe_splice_from_fd` of the device: a message that does not fit is lost
with an error. -/
def spliceFromFd (s : St) (len : Nat) : R × St :=
  if s.fault.1 ≠ 0 then (.err s.fault.1, s.tick)
  else match s.inq with
    | [] => (.err 19, s.tick)
    | m :: q =>
      if m.flatten.length > min (avail s) len ∨ s.segs.length + m.length > s.cap then
        (.err 5, { s.tick with inq := q })
      else (.ok, { s.tick with inq := q, segs := s.segs ++ m, pend := s.pend + m.flatten.length })

/-- The slots that vmsplice(2) can fill of those wanted. -/
def vmGot (s : St) (l : List Iov) : List Buf :=
  (((l.take (countCeil (avail s) 0 l)).map (slotsOf s.mem)).flatten).take (s.cap - s.segs.length)

/-- lib/infra/pipe.c:249-272 `silofs_pipe_vmsplice_from_iov`: what the kernel did not take goes unnoticed. -/
def vmspliceFromIov (s : St) (l : List Iov) : R × St :=
  if s.fault.1 ≠ 0 then (.err s.fault.1, s.tick)
  else if ((l.take (countCeil (avail s) 0 l)).map (slotsOf s.mem)).flatten = [] then (.ok, s.tick)
  else if s.cap ≤ s.segs.length then (.hang, s.tick)
  else (.ok, { s.tick with segs := s.segs ++ vmGot s l, pend := s.pend + (vmGot s l).flatten.length })

/-- Whether the device takes a reply: the kernel's fs/fuse/dev.c compares the header's length. -/
def devTakes (msg : Buf) : Bool := decide (16 ≤ msg.length) && decide (Fuse.rd 4 0 msg = msg.length)

/-- lib/infra/pipe.c:387-394 `silofs_pipe_flush_to_fd` by way of 274-309 `silofs_pipe_splice_to_fd`, to the device. -/
def flushToDev (s : St) : R × St :=
  if s.pend = 0 then (.ok, s)
  else if s.fault.1 ≠ 0 then
    (.err s.fault.1, { s.tick with segs := if s.fault.2 then dropB s.pend s.segs else s.segs })
  else if s.bytes = [] then (.err 11, s.tick)
  else if devTakes (s.bytes.take s.pend) then
    (.ok, { s.tick with outq := s.outq ++ [s.bytes.take s.pend], segs := dropB s.pend s.segs,
                        pend := s.pend - (s.bytes.take s.pend).length })
  else (.err 22, { s.tick with segs := dropB s.pend s.segs })

/-- lib/infra/pipe.c:396-400 `silofs_pipe_dispose`, 502-505 `silofs_piper_dispose`: to /dev/null. -/
def dispose (s : St) : R × St :=
  if s.pend = 0 then (.ok, s)
  else if s.fault.1 ≠ 0 then (.err s.fault.1, s.tick)
  else if s.bytes = [] then (.err 11, s.tick)
  else (.ok, { s.tick with segs := dropB s.pend s.segs, pend := s.pend - (s.bytes.take s.pend).length })

/-- lib/infra/pipe.c:311-342 `silofs_pipe_vmsplice_to_iov` with one piece.  With nothing pending no piece is
asked for, and that succeeds. -/
def vmspliceToIov (s : St) (v : Iov) : R × St :=
  if s.fault.1 ≠ 0 then (.err s.fault.1, s.tick)
  else if countCeil s.pend 0 [v] = 0 ∨ v.len = 0 then (.ok, s.tick)
  else if s.bytes = [] then (.err 11, s.tick)
  else if (s.bytes.take v.len).length ≠ v.len ∨ (s.bytes.take v.len).length > s.pend then
    (.err 1005, { s.tick with mem := store s.mem v.base (s.bytes.take v.len), segs := dropB v.len s.segs })
  else
    (.ok, { s.tick with mem := store s.mem v.base (s.bytes.take v.len), segs := dropB v.len s.segs,
                        pend := s.pend - v.len })

/-- lib/infra/pipe.c:344-363 `silofs_pipe_copy_to_buf`. -/
def copyToBuf (s : St) (len : Nat) : R × St × Buf :=
  if s.fault.1 ≠ 0 then (.err s.fault.1, s.tick, [])
  else if s.bytes.length < min s.pend len then (.err 11, { s.tick with segs := [] }, [])
  else
    (.ok, { s.tick with segs := dropB (min s.pend len) s.segs, pend := s.pend - min s.pend len },
      s.bytes.take (min s.pend len))

/-- lib/infra/pipe.c:365-385 `silofs_pipe_append_from_buf` of a short buffer (less than a page). -/
def appendFromBuf (s : St) (b : Buf) : R × St :=
  if s.fault.1 ≠ 0 then (.err s.fault.1, s.tick)
  else if s.cap ≤ s.segs.length then (.err 11, s.tick)
  else (.ok, { s.tick with segs := s.segs ++ [b], pend := s.pend + b.length })

/-! ### lib/fuseq.c: receiving -/

/-- lib/fuseq.c:3641-3673 `fqd_copy_pipe_in` with 3600-3614 `fqd_copy_from_pipe_in`. -/
def copyPipeIn (fq : Fuse.Fq) (old : Buf) (s : St) : R × St × Buf :=
  match copyToBuf s (min 80 s.pend) with
  | (.ok, s1, b1) =>
    match Fuse.checkInhdr fq (Fuse.over b1 old) b1.length
        (toU64 (Fuse.hLen (Fuse.over b1 old) - (b1.length : Nat)) == 0) with
    | .error e => (.err e, s1, Fuse.over b1 old)
    | .ok _ =>
      if toU64 (Fuse.hLen (Fuse.over b1 old) - (b1.length : Nat)) == 0 || Fuse.hasLargeWrite (Fuse.over b1 old) then
        (.ok, s1, Fuse.over b1 old)
      else
        match copyToBuf s1 (toU64 (Fuse.hLen (Fuse.over b1 old) - (b1.length : Nat))) with
        | (.ok, s2, b2) =>
          match Fuse.checkInhdr fq (Fuse.over (b1 ++ b2) old) (b1.length + b2.length) true with
          | .error e => (.err e, s2, Fuse.over (b1 ++ b2) old)
          | .ok _ => (.ok, s2, Fuse.over (b1 ++ b2) old)
        | (r, s2, _) => (r, s2, Fuse.over b1 old)
  | (r, s1, _) => (r, s1, old)

/-- lib/fuseq.c:3730-3760 `fqd_read_or_splice_request`: 3509-3526 `fqd_check_pipe_pre`, 3705-3728
`fqd_recv_in_locked` with 3573-3598 `fqd_splice_into_pipe`. -/
def recvIn (fq : Fuse.Fq) (old : Buf) (s : St) : R × St × Buf :=
  if fq.buffsize < s.size then (.err 1005, s, old)
  else if s.pend ≠ 0 then (.err 1005, s, old)
  else match spliceFromFd s fq.buffsize with
    | (.ok, s2) => copyPipeIn fq old s2
    | (r, s2) => (r, s2, old)

/-! ### lib/fuseq.c: a large write -/

/-- What the file-system does with a large read or write: the pieces of memory it hands out, in order, and its
own result (0 for success) if all of them were accepted. -/
structure Script where
  pieces : List Iov
  res : Nat
  deriving Repr, DecidableEq

/-- `struct silofs_fuseq_wr_iter`: `cnt` is the length of `iovs`. -/
structure Wr where
  iovs : List Iov
  nwr : Nat
  ncp : Nat
  deriving Repr, DecidableEq

/-- lib/fuseq.c:2593-2614 `fq_wri_check`; pieces are always memory, at offset 0 and without a file descriptor
(lib/file.c:892-921, lib/infra/iovec.c:23-30). -/
def wrCheck (s : St) (max : Nat) (w : Wr) (v : Iov) : R :=
  if s.active = false then .err 30
  else if ¬ w.iovs.length < 50 then .err 1022
  else if w.nwr + v.len > max then .err 1022
  else .ok

/-- lib/fuseq.c:2616-2634 `fq_wri_actor`, or 2636-2648 `fq_wri_async_actor`. -/
def wrActor (async : Bool) (max : Nat) (w : Wr) (v : Iov) (s : St) : R × Wr × St :=
  match wrCheck s max w v with
  | .ok =>
    if async then (.ok, { w with iovs := w.iovs ++ [v] }, s)
    else match vmspliceToIov s v with
      | (.ok, s') => (.ok, ⟨w.iovs ++ [v], w.nwr + v.len, w.ncp + 1⟩, s')
      | (r, s') => (r, w, s')
  | r => (r, w, s)

/-- The file-system's operation: lib/file.c:1751-1774 `filc_call_rw_actor` for each piece, until one is refused. -/
def wrGather (async : Bool) (max res : Nat) : List Iov → Wr → St → R × Wr × St
  | [], w, s => (if res = 0 then .ok else .err res, w, s)
  | v :: l, w, s =>
    match wrActor async max w v s with
    | (.ok, w', s') => wrGather async max res l w' s'
    | r => r

/-- lib/fuseq.c:2650-2680 `fq_wri_copy_iov`: the pieces not yet filled, one by one (only pieces of one file
descriptor are joined). -/
def wrCopy : List Iov → Wr → St → R × Wr × St
  | [], w, s => (.ok, w, s)
  | v :: l, w, s =>
    match vmspliceToIov s v with
    | (.ok, s') => wrCopy l ⟨w.iovs, w.nwr + v.len, w.ncp + 1⟩ s'
    | (r, s') => (r, w, s')

/-- lib/fuseq.c:897-903 `fqd_reply_write_ok`: the bytes of a reply to a write. -/
def writeReply (unique n : Nat) : Buf := Fuse.replyOk unique (leBytes 4 n ++ leBytes 4 0)

/-- lib/fuseq.c:711-726 `fqd_send_msg`: one writev(2) to the device. -/
def sendMsg (s : St) (msg : Buf) : R × St :=
  if s.fault.1 ≠ 0 then (.err s.fault.1, s.tick) else (.ok, { s.tick with outq := s.outq ++ [msg] })

/-- lib/fuseq.c:2752-2754 of `do_write_iter`: the copying of what was only gathered.  An error of the file-system
about space is 1028, not the 28 that is compared with. -/
def wrFinish (r : R × Wr × St) : R × Wr × St :=
  if r.1 = .ok ∨ r.1 = .err 28 then
    match wrCopy (r.2.1.iovs.drop r.2.1.ncp) r.2.1 r.2.2 with
    | (r2, w, s) => (if r.1 = .ok then r2 else r.1, w, s)
  else r

/-- lib/fuseq.c:2732-2759 `do_write_iter`; `len` is the size asked for, bounded by `max_write`. -/
def doWrite (async : Bool) (unique len : Nat) (sc : Script) (s : St) : R × St :=
  match wrFinish (wrGather async len sc.res sc.pieces ⟨[], 0, 0⟩ s) with
  | (.ok, w, s') => sendMsg s' (writeReply unique w.nwr)
  | (.err e, _, s') => sendMsg s' (Fuse.replyErr unique e)
  | (.hang, _, s') => (.hang, s')

/-! ### lib/fuseq.c: a large read -/

/-- lib/fuseq.c:2440-2457 `fq_rdi_actor` for each piece. -/
def rdGather (max res : Nat) : List Iov → List Iov → Nat → R × List Iov × Nat
  | [], acc, nrd => (if res = 0 then .ok else .err res, acc, nrd)
  | v :: l, acc, nrd =>
    if ¬ acc.length < 50 then (.err 1022, acc, nrd)
    else if nrd + v.len > max then (.err 1022, acc, nrd)
    else rdGather max res l (acc ++ [v]) (nrd + v.len)

/-- lib/fuseq.c:1294-1319 `fqd_append_data_to_pipe`: 48 pieces at a time (`n` bounds the rounds). -/
def appendData : Nat → List Iov → St → R × St
  | 0, _, s => (.ok, s)
  | n + 1, l, s =>
    if l = [] then (.ok, s)
    else match vmspliceFromIov s (l.take 48) with
      | (.ok, s') => appendData n (l.drop 48) s'
      | r => r

/-- lib/fuseq.c:1336-1363 `fq_rdi_reply_read_iov`: on failure an error is sent past the pipe, and returned. -/
def replyIov (unique nrd : Nat) (l : List Iov) (s : St) : R × St :=
  match appendFromBuf s (Fuse.outHdr (16 + nrd) 0 unique) with
  | (.ok, s1) =>
    match appendData l.length l s1 with
    | (.ok, s2) => flushToDev s2
    | (.err e, s2) =>
      match sendMsg s2 (Fuse.replyErr unique e) with
      | (.ok, s3) => (.err e, s3)
      | r => r
    | r => r
  | (.err e, s1) =>
    match sendMsg s1 (Fuse.replyErr unique e) with
    | (.ok, s3) => (.err e, s3)
    | r => r
  | r => r

/-- lib/fuseq.c:2481-2501 `do_read_iter`, 1380-1394 `fq_rdi_reply_read_iter`, 1365-1378 `fq_rdi_reply_read_ok`;
`len` is the size asked for, bounded by `max_read`. -/
def doRead (unique len : Nat) (sc : Script) (s : St) : R × St :=
  match rdGather len sc.res sc.pieces [] 0 with
  | (.ok, l, nrd) =>
    if l.length ≤ 1 then sendMsg s (Fuse.replyOk unique ((l.map (load s.mem)).flatten.take nrd))
    else replyIov unique nrd l s
  | (.err e, _, _) => sendMsg s (Fuse.replyErr unique e)
  | (.hang, _, _) => (.hang, s)

/-! ### The dispatcher -/

/-- What the file-system answers to the request in the buffer: a large read or write, or a finished reply of any
other request. -/
structure Fs where
  script : Script
  reply : Buf

/-- lib/fuseq.c:3441-3457 `fqd_exec_request` as far as the pipe is concerned: 2778-2789 `do_write`, 2532-2543
`do_read`; every other reply goes past the pipe. -/
def execReq (fq : Fuse.Fq) (async : Bool) (fs : Fs) (b : Buf) (s : St) : R × St :=
  if Fuse.hasLargeWrite b then doWrite async (Fuse.hUnique b) (min (Fuse.rd 4 56 b) fq.maxWrite) fs.script s
  else if Fuse.hasLargeRead b then doRead (Fuse.hUnique b) (min (Fuse.rd 4 56 b) fq.maxRead) fs.script s
  else sendMsg s fs.reply

/-- lib/fuseq.c:4032-4044 `fqd_check_input` and the execution in 4046-4071 `fqd_recv_exec_request`: whether the
thread goes on.  2 is ENOENT from the device: the request was given up meanwhile. -/
def execGo (fq : Fuse.Fq) (async : Bool) (fs : Fs) (b : Buf) (s : St) : Bool × St :=
  if Fuse.hLen b = 0 ∨ Fuse.hOpcode b = 0 then (true, s)
  else match execReq fq async fs b s with
    | (.ok, s2) => (true, s2)
    | (.err e, s2) => (decide (e = 2 ∨ e = 110), s2)
    | (.hang, s2) => (false, s2)

/-- lib/fuseq.c:4046-4071 `fqd_recv_exec_request`, 3768-3782 `fqd_recv_request` (3762-3766 `fqd_prep_request`), 4174-4193
`fqd_exec_once`, 4146-4172 `fqd_post_exec_once`: one round, and whether the thread goes on. -/
def round (fq : Fuse.Fq) (async : Bool) (fs : Fs) (old : Buf) (s : St) : Bool × St :=
  match dispose s with
  | (.ok, s0) =>
    match recvIn fq old s0 with
    | (.ok, s1, b) => execGo fq async fs b s1
    | (.err e, s1, _) => (decide (e = 2 ∨ e = 4 ∨ e = 11 ∨ e = 110), s1)
    | (.hang, s1, _) => (false, s1)
  | (.err e, s0) => (decide (e = 110), s0)
  | (.hang, s0) => (false, s0)

/-- Rounds of a thread: the file-system's answers and what its buffer holds before each. -/
def rounds (fq : Fuse.Fq) (async : Bool) : List (Fs × Buf) → St → St
  | [], s => s
  | (fs, old) :: l, s =>
    match round fq async fs old s with
    | (true, s') => rounds fq async l s'
    | (false, s') => s'

/-! ### How many pieces, and how long messages may be -/

/-- Length of the leaf at a position of a file (lib/file.c:146-152 `len_of_data`; `head` tells whether the file keeps its
first 64K in small leaves). -/
def leafLen (head : Bool) (off : Nat) : Nat :=
  if head && decide (off < 4096) then 1024 else if head && decide (off < 65536) then 4096 else 65536

/-- lib/file.c:146-152 `len_of_data`. -/
def pieceLen (head : Bool) (off end_ : Nat) : Nat :=
  if (off / leafLen head off + 1) * leafLen head off < end_ then (off / leafLen head off + 1) * leafLen head off - off
  else end_ - off

/-- The lengths of the pieces of a range: the loops of lib/file.c:2720-2770 `filc_write_by_heads`, 2697-2718
`filc_write_by_tree`, 2660-2686 `filc_do_write_to_tree_leaves` (`n` bounds the rounds). -/
def pieceLens (head : Bool) : Nat → Nat → Nat → List Nat
  | 0, _, _ => []
  | n + 1, off, end_ =>
    if off < end_ then pieceLen head off end_ :: pieceLens head n (off + pieceLen head off end_) end_ else []

/-- lib/infra/pipe.c:38-41 `roundup_pow_of_two`. -/
def pow2up (n : Nat) : Nat := if n - 1 = 0 then 1 else 2 ^ (Nat.log2 (n - 1) + 1)

/-- lib/infra/pipe.c:56-91 `calc_pipe_size_of`, pages of 4K; `lim` is /proc/sys/fs/pipe-max-size if it can be read. -/
def pipeSize (lim : Option Nat) (want : Nat) : Nat :=
  match lim with
  | none => if want ≥ 65536 then 65536 else if want ≤ 8192 then 8192 else pow2up want
  | some l =>
    if want ≥ min 2097152 (pow2up l) then min 2097152 (pow2up l)
    else if want ≤ min 8192 (min 2097152 (pow2up l)) then min 8192 (min 2097152 (pow2up l))
    else pow2up want

/-- lib/fuseq.c:4601-4631 `fuseq_resolve_bufsize`; 4590-4599 `fuseq_bufsize_max` is 2M (lib/fuseq.c:3806). -/
def bufSize (splice : Bool) (lim : Option Nat) : Option Nat :=
  if (min (if splice then pipeSize lim 2097152 else 2097152) 2097152) / 4096 * 4096 < 8192 then none
  else some ((min (if splice then pipeSize lim 2097152 else 2097152) 2097152) / 4096 * 4096)

/-- lib/fuseq.c:4639-4663 `fuseq_calc_max_write`; `max_read` is the same (4665-4691 `fuseq_update_conn_info`). -/
def maxWrite (bufsize : Nat) : Option Nat :=
  if bufsize < 80 + 4096 then none
  else if (bufsize - 80) / 4096 * 4096 < 8192 then none
  else some ((bufsize - 80) / 4096 * 4096)

end Silofs.Pp
