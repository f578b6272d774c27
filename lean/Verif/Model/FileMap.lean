/-
Offset arithmetic of regular files, lib/file.c:109-262, 462-650, and the
request checks 1209-1343.

A file of type 1 keeps its first 64K in four 1K leaves and fifteen 4K leaves
held in the inode, and the rest in 64K leaves under a radix tree with 1024
children per node; a file of type 2 keeps everything in the tree.

Simplifications: offsets that passed the request checks are naturals.
-/
namespace Silofs.File

/-- Identity of a leaf slot of one file: `f_slots` entries of the inode
(file.c:661-680) or the 64K leaf of a given index. -/
inductive Key where
  | h1 (slot : Nat)
  | h2 (slot : Nat)
  | tr (idx : Nat)
  deriving Repr, DecidableEq

/-- `SILOFS_FILE_SIZE_MAX` of defs.h. -/
def sizeMax : Nat := 2 ^ 56 - 1

/-- `SILOFS_IO_SIZE_MAX` of defs.h: 2M minus 64K. -/
def ioSizeMax : Nat := 2097152 - 65536

/-- file.c:202-205 `off_is_head1`, `off_is_head2`. -/
def isHead1 (off : Nat) : Bool := decide (off < 4096)
def isHead2 (off : Nat) : Bool := decide (4096 ≤ off) && decide (off < 65536)

/-- file.c:205-222 `off_to_head1_slot`, `off_to_head2_slot`. -/
def head1Slot (off : Nat) : Nat := off / 1024
def head2Slot (off : Nat) : Nat := (off - 4096) / 4096

/-- file.c:231-237 `off_to_leaf_slot`. -/
def leafSlot (off : Nat) : Nat := (off / 65536) % 1024

/-- addr/offlba.c:67-80: `silofs_off_align`, `silofs_off_next`. -/
def offAlign (off len : Nat) : Nat := off / len * len
def offNext (off len : Nat) : Nat := offAlign (off + len) len

/-- file.c:132-137 `off_in_data`. -/
def offInData (off sz : Nat) : Nat := off % sz

/-- file.c:139-145 `len_to_next`. -/
def lenToNext (off sz : Nat) : Nat := offNext off sz - off

/-- file.c:147-153 `len_of_data`. -/
def lenOfData (off end_ sz : Nat) : Nat :=
  if offNext off sz < end_ then offNext off sz - off else end_ - off

/-- file.c:155-162 `off_is_partial`. -/
def isPartial (off end_ sz : Nat) : Bool :=
  decide (off ≠ offAlign off sz) || decide (end_ - off < sz)

/-- file.c:239-255 `off_to_tree_height`: the loop counting shifts by 10. -/
def heightLoop : Nat → Nat → Nat
  | 0, _ => 0
  | fuel + 1, x => if 0 < x then 1 + heightLoop fuel (x / 1024) else 0

/-- file.c:239-255 `off_to_tree_height`.  `x` itself bounds the number of rounds. -/
def treeHeight (off : Nat) : Nat :=
  if 65536 < off then 2 + heightLoop (off / 65536 / 1024) (off / 65536 / 1024) else 2

/-- file.c:574-588 `ftn_span_by_height`; `LONG_MAX` outside of 2..5. -/
def spanOf (h : Nat) : Nat :=
  if 1 < h ∧ h ≤ 5 then 65536 * 2 ^ ((h - 1) * 10) else 2 ^ 63 - 1

/-- file.c:475-497 `ftn_slot_by_file_pos` of a node covering `[beg, beg+span)`. -/
def slotBy (beg span off : Nat) : Nat := ((off - beg) / 1024) * 1024 / (span / 1024)

/-- A node is identified by its height and its index among the nodes of that
height; it covers `[i*span, (i+1)*span)` (`ftn_calc_range`, 590-597). -/
def nodeSlot (h i off : Nat) : Nat := slotBy (i * spanOf h) (spanOf h) off

/-- Index, among the nodes of the next lower height (or among the 64K leaves),
of the child in slot `s` of node `i`. -/
def childIdx (i s : Nat) : Nat := i * 1024 + s

/-- file.c:471-474 `ftn_nbytes_per_slot`, 599-607 `ftn_file_pos`,
609-617 `ftn_next_file_pos` of node `i` at height `h`. -/
def nbps (h : Nat) : Nat := spanOf h / 1024
def slotPos (h i s : Nat) : Nat := offAlign (i * spanOf h + s * nbps h) 65536
def slotNextPos (h i s : Nat) : Nat := slotPos h i s + nbps h

/-- file.c:1157-1168 `filc_curr_data_ltype` together with the slot the offset
resolves to: which leaf of a file an offset belongs to. -/
def keyOf (ft2 : Bool) (off : Nat) : Key :=
  if !ft2 && isHead1 off then .h1 (head1Slot off)
  else if !ft2 && isHead2 off then .h2 (head2Slot off)
  else .tr (off / 65536)

/-- Leaf sizes (`SILOFS_FILE_HEAD1_LEAF_SIZE` etc. of defs.h). -/
def Key.size : Key → Nat
  | .h1 _ => 1024
  | .h2 _ => 4096
  | .tr _ => 65536

/-- file.c:1170-1176 `filc_distance_to_next`. -/
def distToNext (ft2 : Bool) (off : Nat) : Nat := lenToNext off (keyOf ft2 off).size

/-- file.c:1178-1181 `filc_advance_to`: the new offset, never back and never
beyond the end. -/
def advTo (off end_ to : Nat) : Nat := min (max off to) end_

/-- file.c:1351-1357 `filc_ismapping_boundaries`. -/
def isMapBoundary (off : Nat) : Bool := off % 67108864 == 0

/-! ### Request checks -/

/-- Error codes returned by the modelled functions. -/
inductive Err where
  | einval | efbig | eoverflow | eperm | enotdir | eisdir | ebadf | enxio
  | eopnotsupp | eio | efscorrupted
  deriving Repr, DecidableEq

/-- The operation bits of `op_mask` (file.c:29-35). -/
inductive OpK where
  | read | write | trunc | falloc | fiemap | lseek | copy
  deriving Repr, DecidableEq

/-- What `filc_check_file_io` looks at (the fields of `silofs_file_ctx` and of
the inode).  `len` is the `size_t` length and `slen` its value as `loff_t`. -/
structure Req where
  op : OpK
  isDir : Bool := false
  isReg : Bool := true
  nopen : Bool := true
  beg : Int
  len : Nat
  end_ : Int
  size : Int
  oAny : Bool := false
  oWr : Bool := false
  oDirectory : Bool := false
  whenceData : Bool := false
  cpFlags : Nat := 0
  hasRwi : Bool := true
  deriving Repr, DecidableEq

/-- Value of a `size_t` converted to the 64-bit signed `loff_t`/`ssize_t`. -/
def toSigned (n : Nat) : Int := if n < 2 ^ 63 then (n : Int) else (n : Int) - 2 ^ 64

/-- 64-bit signed addition overflows. -/
def addOvf (a b : Int) : Bool := decide (a + b < -(2 ^ 63)) || decide (2 ^ 63 ≤ a + b)

/-- file.c:1254-1273 `filc_check_io_range`.  The sum of the last test is the
mathematical one; `C07_no_overflow` shows that it fits whenever it is reached. -/
def checkIoRange (r : Req) : Option Err :=
  if r.beg < 0 then some .einval
  else if r.beg > (sizeMax : Int) then some .efbig
  else if toSigned r.len > (sizeMax : Int) then some .einval
  else if r.beg + toSigned r.len < r.beg then some .eoverflow
  else none

/-- file.c:1275-1287 `filc_check_io_end`. -/
def checkIoEnd (r : Req) : Option Err :=
  if r.end_ < 0 then some .einval
  else if r.end_ > (sizeMax : Int) then some .efbig
  else none

/-- file.c:1238-1252 `filc_check_seek_pos` for SEEK_DATA and SEEK_HOLE. -/
def checkSeekPos (r : Req) : Option Err :=
  if r.whenceData ∧ (r.beg ≥ r.size ∨ r.beg < 0) then some .enxio else none

/-- file.c:1289-1343 `filc_check_file_io`. -/
def checkFileIo (r : Req) : Option Err :=
  if r.isDir then some .eisdir
  else if !r.isReg then some .einval
  else if !r.nopen && r.op != .trunc then some .ebadf
  else (checkIoRange r).or <|
    if r.op == .write && r.oAny && !r.oWr then some .eperm
    else (if r.op == .write || r.op == .falloc then checkIoEnd r else none).or <|
      if (r.op == .read || r.op == .write) && decide (r.len > ioSizeMax) then some .einval
      else if (r.op == .read || r.op == .write) && !r.hasRwi then some .einval
      else (if r.op == .lseek then checkSeekPos r else none).or <|
        if r.op == .copy && r.cpFlags != 0 then some .einval
        else if r.op == .copy && decide (r.beg % 65536 ≠ 0) && decide (r.len > ioSizeMax) then
          some .einval
        else if r.oDirectory then some .enotdir
        else none

/-- The request of `silofs_do_read`/`silofs_do_write` (file.c:2126-2156, 2886-2916):
the end is `off + len`, for a read not beyond the file size. -/
def rwReq (op : OpK) (off : Int) (len : Nat) (size : Int) : Req :=
  { op := op, beg := off, len := len, size := size,
    end_ := if op = .read then min (off + toSigned len) size else off + toSigned len }

/-- The request of `silofs_do_fallocate` (file.c:3830-3853): `len` is an `loff_t`. -/
def fallocReq (off len size : Int) : Req :=
  { op := .falloc, beg := off, size := size,
    len := (if len < 0 then len + 2 ^ 64 else len).toNat, end_ := off + len }

/-- The request of `silofs_do_truncate` (file.c:3451-3475): the length is the
distance to the end of the mapped span. -/
def truncReq (off span size : Int) (nopen : Bool) : Req :=
  { op := .trunc, nopen := nopen, beg := off, size := size,
    len := (if off < span then span - off else 0).toNat % 2 ^ 64,
    end_ := off + (if off < span then span - off else 0) }

/-- The request of `silofs_do_lseek` with SEEK_DATA or SEEK_HOLE (file.c:3564-3591). -/
def seekReq (off size : Int) : Req :=
  { op := .lseek, whenceData := true, beg := off, len := 0, end_ := size, size := size }

/-- One side of `silofs_do_copy_file_range` (file.c:4675-4717). -/
def copyReq (off : Int) (len : Nat) (end_ size : Int) (flags : Nat) : Req :=
  { op := .copy, beg := off, len := len, end_ := end_, size := size, cpFlags := flags }

/-- file.c:3614-3659 `filc_check_fl_mode`.  Bits: KEEP_SIZE 1, PUNCH_HOLE 2,
COLLAPSE_RANGE 8, ZERO_RANGE 16, INSERT_RANGE 32, UNSHARE_RANGE 64. -/
structure FlMode where
  keepSize : Bool := false
  punchHole : Bool := false
  collapse : Bool := false
  zeroRange : Bool := false
  insert : Bool := false
  unshare : Bool := false
  other : Bool := false
  deriving Repr, DecidableEq

/-- file.c:3603-3652; the first switch requires at most one of the range modes. -/
def checkFlMode (m : FlMode) : Option Err :=
  let nModes := m.punchHole.toNat + m.collapse.toNat + m.zeroRange.toNat +
    m.insert.toNat + m.unshare.toNat
  if 1 < nModes then some .eopnotsupp
  else if m.punchHole ∧ ¬ m.keepSize then some .eopnotsupp
  else if (m.collapse ∨ m.insert) ∧ m.keepSize then some .eopnotsupp
  else if m.punchHole ∧ m.zeroRange then some .eopnotsupp
  else if m.other then some .eopnotsupp
  else if m.collapse ∨ m.insert ∨ m.unshare then some .eopnotsupp
  else none

end Silofs.File
