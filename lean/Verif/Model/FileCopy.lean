/-
copy_file_range, lib/file.c:4051-4717.

The two file contexts have the cursors `pos` (source) and `pos2` (destination).
Whether a block is in the current volume segment (`silofs_sbi_ismutable_laddr`,
false for blocks inherited from a snapshot) is an answer of the environment.
The flush of dirty nodes before the copy is a call that may fail.
-/
import Verif.Model.FileSeek

namespace Silofs.File

/-- A resolved leaf: its slot and its block. -/
structure LeafRef where
  key : Key
  blk : Option Nat

/-- file.c:4145-4161 `filc_resolve_fpos`: heads first, then the tree; a missing node is a
hole (`flref_noent`). -/
def resolve (f off end_ : Nat) : M LeafRef := do
  let s ← getS
  if (s.file f).ft2 = false ∧ off < end_ ∧ off < 65536 then
    pure ⟨keyOf false off, (s.file f).leaf (keyOf false off)⟩
  else do
    let j ← stageByTree f off
    match j with
    | none => pure ⟨.tr (off / 65536), none⟩
    | some j => pure ⟨bottomKey j off, (s.file f).leaf (bottomKey j off)⟩

/-- Where a copy of `len` bytes starts in a leaf (`filc_iovec_by_fileaf`, 892-911, called with
`all` when the length is that of the leaf, 4222-4226). -/
def copyOff (off sz len : Nat) : Nat := if len = sz then 0 else offInData off sz

/-- file.c:4242-4266 `filc_copy_leaf_by` with `filc_copy_data_leaf_by` (4199-4240): `len` bytes
from block `b1` (leaf size `z1`, file position `off1`) to block `b2`. -/
def copyLeaf (b1 z1 off1 b2 z2 off2 len : Nat) : M Unit := do
  preWrite b2 z2 (decide (len < z2))
  preWrite b1 z1 (decide (len < z1))
  chk
  chk
  let s ← getS
  setRaw b2 fun raw o =>
    if copyOff off2 z2 len ≤ o ∧ o < copyOff off2 z2 len + len
    then (s.blk b1).raw (copyOff off1 z1 len + (o - copyOff off2 z2 len)) else raw o
  if (s.blk b2).unw then do
    chk
    setUnw b2 false
  else pure ()

/-- file.c:4382-4396 `filc_test_may_share_leaf_by`, apart from the mutability test. -/
def mayShare (k : Key) (off end_ : Nat) : Bool := k.isTree && !isPartial off end_ 65536

/-- file.c:4346-4357 `filc_require_leaf`. -/
def requireLeafAt (f off : Nat) : M LeafRef := do
  let s ← getS
  if (s.file f).ft2 = false ∧ off < 65536 then do
    let b ← requireLeaf f (keyOf false off)
    pure ⟨keyOf false off, some b⟩
  else do
    let j ← requireTree f off
    let b ← requireLeaf f (bottomKey j off)
    pure ⟨bottomKey j off, some b⟩

/-- file.c:4359-4373 `filc_share_leaf_by`. -/
def shareLeaf (f : Nat) (k : Key) (b : Nat) : M Unit := do
  shareData b
  setLeaf f k (some b) k.nkb

/-- file.c:4430-4514 `filc_copy_range_at_leaf_by`. -/
def copyAt (f2 : Nat) (r1 : LeafRef) (off1 end1 : Nat) (r2 : LeafRef) (off2 end2 len : Nat) : M Unit := do
  match r1.blk, r2.blk with
  | none, none => pure ()
  | none, some b2 => do
    chk
    discardBy f2 r2.key (some b2) off2 end2 false
  | some b1, none => do
    let m1 ← ask
    if mayShare r1.key off1 end1 ∧ m1 ≠ 0 ∧ mayShare r2.key off2 end2 then do
      let j ← requireTree f2 off2
      shareLeaf f2 (bottomKey j off2) b1
    else do
      let r ← requireLeafAt f2 off2
      match r.blk with
      | none => throwE .efscorrupted
      | some b2 => do
        chk
        copyLeaf b1 r1.key.size off1 b2 r.key.size off2 len
  | some b1, some b2 => do
    chk
    let m1 ← ask
    let m2 ← ask
    if mayShare r1.key off1 end1 ∧ m1 ≠ 0 ∧ mayShare r2.key off2 end2 ∧ m2 ≠ 0 then do
      discardBy f2 r2.key (some b2) off2 end2 false
      shareLeaf f2 r2.key b1
    else copyLeaf b1 r1.key.size off1 b2 r2.key.size off2 len

/-- file.c:4163-4180 `filc_copy_length_of`. -/
def copyLen (ft2 : Bool) (off end_ : Nat) : Nat := min (end_ - off) (distToNext ft2 off)

/-- file.c:4516-4548 `filc_copy_range_iter`. -/
def copyIter (f1 f2 end1 end2 : Nat) : Nat → M Unit
  | 0 => throwE .efscorrupted
  | n + 1 => do
    let s ← getS
    if s.pos < end1 ∧ s.pos2 < end2 then do
      let r1 ← resolve f1 s.pos end1
      let r2 ← resolve f2 s.pos2 end2
      let len := min (copyLen (s.file f1).ft2 s.pos end1) (copyLen (s.file f2).ft2 s.pos2 end2)
      copyAt f2 r1 s.pos end1 r2 s.pos2 end2 len
      modS fun s' => { s' with
        pos := advTo s.pos end1 (s.pos + len)
        pos2 := advTo s.pos2 end2 (s.pos2 + len) }
      copyIter f1 f2 end1 end2 n
    else pure ()

/-- file.c:4573-4604 `filc_lseek_data_pos`. -/
def dataPos (f off end_ : Nat) : M Nat := do
  modS fun s => { s with pos := off }
  let r ← lseekLeaf f false end_
  pure (r.getD sizeMax)

/-- file.c:4604-4631 `filc_set_copy_range_start`, with `filc_advance_by_nbytes2` (1189-1197). -/
def copyStart (f1 off1 end1 f2 off2 end2 : Nat) : M Unit := do
  let d1 ← dataPos f1 off1 end1
  let d2 ← dataPos f2 off2 end2
  let skip := min (d1 - off1) (d2 - off2)
  modS fun s =>
    if 0 < skip then
      { s with pos := advTo off1 end1 (off1 + skip), pos2 := advTo off2 end2 (off2 + skip) }
    else { s with pos := off1, pos2 := off2 }

/-- file.c:4650-4676 `filc_copy_range` after the checks: number of bytes copied.  The end of
the source range is limited by its size (`ii_off_end`), that of the destination is not. -/
def copyRange (f1 off1 f2 off2 len : Nat) : M Nat := do
  chk
  chk
  let s ← getS
  let end1 := min (off1 + len) (s.file f1).size
  let end2 := off2 + len
  copyStart f1 off1 end1 f2 off2 end2
  copyIter f1 f2 end1 end2 (end2 + 1)
  modS fun s => s.setFile f2
    { s.file f2 with size := max s.pos2 (s.file f2).size, span := max s.pos2 (s.file f2).span }
  let s' ← getS
  pure (s'.pos2 - off2)

/-- file.c:4550-4571 `filc_check_copy_range`; within one file the ranges must not overlap. -/
def checkCopy (f1 : Nat) (off1 : Int) (size1 : Nat) (f2 : Nat) (off2 : Int) (size2 len : Nat) : Option Err :=
  (checkFileIo (copyReq off1 len (min (off1 + len) size1) size1 0)).or <|
  (checkFileIo (copyReq off2 len (off2 + len) size2 0)).or <|
    if f1 = f2 ∧ off2 + len > off1 ∧ off2 < off1 + len then some .einval else none

/-- Outcome of a range copy. -/
inductive CopyRes where
  | ok (n : Nat)
  | failed (e : Err)
  | rejected (e : Err)
  deriving DecidableEq

/-- file.c:4675-4717 `silofs_do_copy_file_range`. -/
def opCopy (f1 : Nat) (off1 : Int) (f2 : Nat) (off2 : Int) (len : Nat) (s : St) (o : List Ans) : CopyRes × St :=
  match checkCopy f1 off1 (s.file f1).size f2 off2 (s.file f2).size len with
  | some e => (.rejected e, s)
  | none =>
    match copyRange f1 off1.toNat f2 off2.toNat len s o with
    | (.ok n, s', _) => (.ok n, s')
    | (.error e, s', _) => (.failed e, s')

end Silofs.File
