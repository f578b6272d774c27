/-
The loops which turn the kernel's positioned reads and writes into whole reads and writes
(lib/sys/syscallx.c).  Every byte of a file-system goes to and comes from storage through them: a
single object through `silofs_sys_pwriten`, a batch of neighbouring objects through
`silofs_sys_pwritevn` (lib/repo.c:228-261, lib/task.c:159-163).

The kernel is an adversary: each call is answered by the next element of a list of answers, which
may be an interruption, an error or a count of bytes smaller than asked for; when the list is
exhausted every call completes in full.  A file is its size and its bytes; bytes beyond the size
are zeros.
-/
namespace Silofs.Sysio

abbrev Byte := Nat

/-- Content of a regular file as the kernel keeps it. -/
structure File where
  size : Nat
  byte : Nat → Byte

/-- What the kernel may answer to one call: `-EINTR`, another (positive) error number, or the
greatest number of bytes it is willing to transfer this time (lib/sys/syscall.c:456-492 hand the
result of the system call on, `size_or_errno`). -/
inductive Ans where
  | intr
  | fail (e : Nat)
  | upto (n : Nat)

/-- Outcome of a loop: success, an error number, or a use of memory the C language gives no
meaning to. -/
inductive Res where
  | ok
  | err (e : Nat)
  | undef
  deriving DecidableEq

/-- `-EIO`, the answer when the kernel transfers nothing (lib/sys/syscallx.c:46-55 `io_status`). -/
def EIO : Nat := 5

/-- pwrite(2) of the first `n` bytes of `l` at `off`: the file grows when needed. -/
def File.put (f : File) (off : Nat) (l : List Byte) : File where
  size := if l = [] then f.size else max f.size (off + l.length)
  byte i := if off ≤ i then (l[i - off]?).getD (f.byte i) else f.byte i

/-- pread(2): at most `n` bytes from `off`, none beyond the end of the file. -/
def File.get (f : File) (off n : Nat) : List Byte :=
  (List.range (min n (f.size - off))).map (fun i => f.byte (off + i))

/-- lib/sys/syscallx.c:46-55 `io_status` -/
def ioStatus (err nexpected ncomplete : Nat) : Res :=
  if err ≠ 0 then .err err else if nexpected ≠ ncomplete then .err EIO else .ok

/-- lib/sys/syscallx.c:125-147 `silofs_sys_pwriten`: the loop, `nwr` bytes done so far. -/
def pwritenLoop (buf : List Byte) (off : Nat) : List Ans → Nat → File → Res × File
  | [], nwr, f =>
    -- the call completes in full, the loop ends
    if nwr < buf.length then (ioStatus 0 buf.length buf.length, f.put (off + nwr) (buf.drop nwr))
    else (ioStatus 0 nwr buf.length, f)
  | a :: as, nwr, f =>
    if nwr < buf.length then
      match a with
      | .intr => pwritenLoop buf off as nwr f
      | .fail e => (ioStatus e nwr buf.length, f)
      | .upto n =>
        if min n (buf.length - nwr) = 0 then (ioStatus 0 nwr buf.length, f)
        else
          pwritenLoop buf off as (nwr + min n (buf.length - nwr))
            (f.put (off + nwr) ((buf.drop nwr).take (min n (buf.length - nwr))))
    else (ioStatus 0 nwr buf.length, f)

/-- lib/sys/syscallx.c:125-147 `silofs_sys_pwriten` -/
def pwriten (f : File) (buf : List Byte) (off : Nat) (as : List Ans) : Res × File :=
  pwritenLoop buf off as 0 f

/-- lib/sys/syscallx.c:79-101 `silofs_sys_preadn`: the loop, `got` the bytes read so far. -/
def preadnLoop (f : File) (cnt off : Nat) : List Ans → List Byte → Res × List Byte
  | [], got =>
    if got.length < cnt then
      -- one call for the rest; a short file ends the loop at its second turn
      (ioStatus 0 (got.length + (f.get (off + got.length) (cnt - got.length)).length) cnt,
        got ++ f.get (off + got.length) (cnt - got.length))
    else (ioStatus 0 got.length cnt, got)
  | a :: as, got =>
    if got.length < cnt then
      match a with
      | .intr => preadnLoop f cnt off as got
      | .fail e => (ioStatus e got.length cnt, got)
      | .upto n =>
        if (f.get (off + got.length) (min n (cnt - got.length))) = [] then (ioStatus 0 got.length cnt, got)
        else preadnLoop f cnt off as (got ++ f.get (off + got.length) (min n (cnt - got.length)))
    else (ioStatus 0 got.length cnt, got)

/-- lib/sys/syscallx.c:79-101 `silofs_sys_preadn` -/
def preadn (f : File) (cnt off : Nat) (as : List Ans) : Res × List Byte :=
  preadnLoop f cnt off as []

/-! ### Vectors -/

/-- One element of an array of `struct iovec`: a pointer into one of the caller's buffers and a
length. -/
structure Iov where
  buf : List Byte
  base : Nat
  len : Nat

/-- The bytes an element designates. -/
def Iov.bytes (v : Iov) : List Byte := (v.buf.drop v.base).take v.len

/-- lib/sys/syscallx.c:193 `PWRITEVN_IOV_MAX` -/
def IOV_MAX : Nat := 128

/-- The local array `iov2` of `silofs_sys_pwritevn` with a pointer into it: the elements from the
pointer on which were set by `iov_clone`, and the number of slots left from the pointer to the
end of the array; the slots between hold whatever was on the stack. -/
structure Arr where
  ents : List Iov
  room : Nat

/-- lib/sys/syscallx.c:212-220 `silofs_iov_length` -/
def iovLength : List Iov → Nat
  | [] => 0
  | v :: vs => v.len + iovLength vs

/-- lib/sys/syscallx.c:156-166 `iov_advance`.  `none`: an element outside the array is used, or
the value of an element never set decides the loop.  The length of the element reached is
diminished; its base is left as it was. -/
def iovAdvance : List Iov → Nat → Nat → Option Arr
  | [], room, len =>
    -- an element never set: harmless when nothing is left to subtract and the slot exists
    if len = 0 then (if room = 0 then none else some ⟨[], room⟩) else none
  | v :: vs, room, len =>
    if len ≠ 0 ∧ len ≥ v.len then
      match room with
      | 0 => none
      | r + 1 => iovAdvance vs r (len - v.len)
    else some ⟨{ v with len := v.len - len } :: vs, room⟩

/-- What `pwritev(fd, iov, cnt, …)` is asked to write: `none` when `cnt` elements from the pointer
on include one never set. -/
def asked (a : Arr) (cnt : Nat) : Option (List Byte) :=
  if cnt ≤ a.ents.length then some ((a.ents.take cnt).map Iov.bytes).flatten else none

/-- lib/sys/syscallx.c:168-191 `do_sys_pwritevn`: the loop; `cnt` stays what it was although the
pointer moves.  The third result is `*out_off`. -/
def pwritevLoop (cnt len : Nat) : List Ans → Arr → Nat → Nat → File → Res × File × Nat × List Ans
  | [], a, nwr, off, f =>
    if nwr < len then
      match asked a cnt with
      | none => (.undef, f, off, [])
      | some l =>
        if l = [] then (ioStatus 0 nwr len, f, off, [])
        else
          match iovAdvance a.ents a.room l.length with
          | none => (.undef, f.put off l, off, [])
          | some _ =>
            -- the next turn finds `nwr + l.length ≥ len`: the elements from the pointer on hold
            -- all the bytes which are missing
            (ioStatus 0 (nwr + l.length) len, f.put off l, off + l.length, [])
    else (ioStatus 0 nwr len, f, off, [])
  | x :: as, a, nwr, off, f =>
    if nwr < len then
      match asked a cnt with
      | none => (.undef, f, off, as)
      | some l =>
        match x with
        | .intr => pwritevLoop cnt len as a nwr off f
        | .fail e => (ioStatus e nwr len, f, off, as)
        | .upto n =>
          if l.take n = [] then (ioStatus 0 nwr len, f, off, as)
          else
            match iovAdvance a.ents a.room (l.take n).length with
            | none => (.undef, f.put off (l.take n), off, as)
            | some b => pwritevLoop cnt len as b (nwr + (l.take n).length) (off + (l.take n).length) (f.put off (l.take n))
    else (ioStatus 0 nwr len, f, off, x :: as)

/-- lib/sys/syscallx.c:195-215 `silofs_sys_pwritevn`; fuel: the number of elements. -/
def pwritevnLoop : Nat → List Iov → List Ans → Nat → File → Res × File
  | 0, _, _, _, f => (.ok, f)
  | k + 1, iov, as, off, f =>
    if iov = [] then (.ok, f)
    else
      match pwritevLoop (min iov.length IOV_MAX) (iovLength (iov.take IOV_MAX)) as ⟨iov.take IOV_MAX, IOV_MAX⟩ 0 off f with
      | (.ok, f1, off1, as1) => pwritevnLoop k (iov.drop IOV_MAX) as1 off1 f1
      | (r, f1, _, _) => (r, f1)

/-- lib/sys/syscallx.c:195-215 `silofs_sys_pwritevn` of whole buffers. -/
def pwritevn (f : File) (bufs : List (List Byte)) (off : Nat) (as : List Ans) : Res × File :=
  pwritevnLoop bufs.length (bufs.map (fun b => ⟨b, 0, b.length⟩)) as off f

end Silofs.Sysio
