/-
Regular-file data path of lib/file.c over a heap of data blocks: read, write,
truncate, fallocate and file removal.  (lseek: FileSeek.lean, range copy:
FileCopy.lean.)

State.  Every data block has raw bytes, the "unwritten" mark and the reference
count kept in its space-map leaf (spmaps.c, modelled on its own in Space.lean).
Every file has its leaf table and the set of existing radix-tree nodes.  A node
is identified by height and index, its child in slot `s` by `childIdx`;
`C06_slot` shows that this is the position `ftn_calc_range` gives the child.

Environment.  Each call that may fail (staging from storage, allocation, space
map access, copying to the caller) consumes one answer of an oracle list, so a
theorem about all oracles covers every failure pattern, every choice of the
allocator and every stale content of a newly allocated block.  An answer list
that has run out means failure.

Simplifications:
* the cursor `f_ctx->off` is kept in the state (`pos`);
* the two loops over head-1 and head-2 leaves are one loop over head leaves;
* a failing actor (copy from/to the caller's memory) moves nothing;
* `late` tells whether an access to a space-map leaf may fail right after another
  access to the same leaf succeeded within one step (file.c:2524-2530 import then
  clear-unwritten, 2228-2233 clear-unwritten then remove);
* staging an existing node does not report ENOENT;
* `t_interrupt` (abort by signal) and time stamps are left out;
* the count of active children of a tree node (early exit of 2996-3012) is left
  out; without children the remaining iterations do nothing.
-/
import Verif.Model.FileMap

namespace Silofs.File

/-- A data block: raw bytes, unwritten mark, reference count (0 = free). -/
structure Blk where
  raw : Nat → Nat
  unw : Bool
  ref : Nat

/-- A regular file: type, size, span (inode), tree root height (0 = no root),
existing tree nodes, leaf table, count of allocated KBs (`i_blocks`). -/
structure File where
  ft2 : Bool := false
  size : Nat := 0
  span : Nat := 0
  root : Nat := 0
  node : Nat → Nat → Bool := fun _ _ => false
  leaf : Key → Option Nat := fun _ => none
  iblk : Int := 0

/-- State of the model. -/
structure St where
  blk : Nat → Blk
  file : Nat → File
  pos : Nat := 0
  pos2 : Nat := 0
  late : Bool := false

/-- One answer of the environment. -/
inductive Ans where
  | fail (e : Err)
  | ok (b : Nat) (raw : Nat → Nat)

/-- State and error monad over an oracle. -/
def M (α : Type) := St → List Ans → Except Err α × St × List Ans

instance : Monad M where
  pure a := fun s o => (.ok a, s, o)
  bind m k := fun s o =>
    match m s o with
    | (.ok a, s', o') => k a s' o'
    | (.error e, s', o') => (.error e, s', o')

/-- Read the state. -/
def getS : M St := fun s o => (.ok s, s, o)

/-- Change the state. -/
def modS (g : St → St) : M Unit := fun s o => (.ok (), g s, o)

/-- Fail. -/
def throwE {α : Type} (e : Err) : M α := fun s o => (.error e, s, o)

/-- A call that may fail. -/
def chk : M Unit := fun s o =>
  match o with
  | [] => (.error .eio, s, [])
  | .fail e :: o' => (.error e, s, o')
  | .ok _ _ :: o' => (.ok (), s, o')

/-- A call that may fail only if late failures are allowed. -/
def chkLate : M Unit := fun s o => if s.late then chk s o else (.ok (), s, o)

/-- A question to the environment. -/
def ask : M Nat := fun s o =>
  match o with
  | [] => (.error .eio, s, [])
  | .fail e :: o' => (.error e, s, o')
  | .ok b _ :: o' => (.ok b, s, o')

/-- Clean-up on error: run `h`, ignore its outcome, keep the first error. -/
def onErr {α : Type} (m : M α) (h : M Unit) : M α := fun s o =>
  match m s o with
  | (.ok a, s', o') => (.ok a, s', o')
  | (.error e, s', o') =>
    match h s' o' with
    | (_, s'', o'') => (.error e, s'', o'')

/-- Run `m`, then `h` whatever the outcome of `m`. -/
def andThen {α : Type} (m : M α) (h : St → St) : M α := fun s o =>
  match m s o with
  | (r, s', o') => (r, h s', o')

/-- Replace block `b`. -/
def St.setBlk (s : St) (b : Nat) (x : Blk) : St :=
  { s with blk := fun b' => if b' = b then x else s.blk b' }

/-- Replace file `f`. -/
def St.setFile (s : St) (f : Nat) (x : File) : St :=
  { s with file := fun f' => if f' = f then x else s.file f' }

/-- KBs of a leaf, by its logical type (ltype.c `ltype_nkbs`). -/
def Key.nkb : Key → Int
  | .h1 _ => 1
  | .h2 _ => 4
  | .tr _ => 64

/-- Replace one leaf slot and adjust the count of blocks by `d` KBs (inode.c:1343-1369
`silofs_ii_update_iblocks`). -/
def File.setLeaf (x : File) (k : Key) (v : Option Nat) (d : Int) : File :=
  { x with leaf := fun k' => if k' = k then v else x.leaf k', iblk := x.iblk + d }

/-- Create or remove one tree node. -/
def File.setNode (x : File) (h i : Nat) (v : Bool) : File :=
  { x with node := fun h' i' => if h' = h ∧ i' = i then v else x.node h' i' }

/-- inode.c:1046-1054 `ii_stat_blocks`: `st_blocks`, in units of 512 bytes. -/
def statBlocks (x : File) : Int := (x.iblk * 1024 + 511) / 512

/-- Replace one leaf slot of file `f`, and its count of blocks. -/
def setLeaf (f : Nat) (k : Key) (v : Option Nat) (d : Int) : M Unit :=
  modS fun s => s.setFile f ((s.file f).setLeaf k v d)

/-- Create or remove a tree node of file `f`. -/
def setNode (f h i : Nat) (v : Bool) : M Unit :=
  modS fun s => s.setFile f ((s.file f).setNode h i v)

/-- Move the cursor: file.c:1178-1181 `filc_advance_to`. -/
def advance (end_ to : Nat) : M Unit := modS fun s => { s with pos := advTo s.pos end_ to }

/-! ### Space -/

/-- claim.c `silofs_claim_vspace` as seen by file.c: some free block, whose content is
arbitrary, marked unwritten and with one reference (spmaps.c:1254-1268). -/
def claimSpace : M Nat := fun s o =>
  match o with
  | [] => (.error .eio, s, [])
  | .fail e :: o' => (.error e, s, o')
  | .ok b raw :: o' =>
    if (s.blk b).ref = 0 then (.ok b, s.setBlk b ⟨raw, true, 1⟩, o')
    else (.error .efscorrupted, s, o')

/-- file.c:2187-2203 `filc_claim_data_space`: when the second step fails the block
stays claimed. -/
def claimData : M Nat := do
  let b ← claimSpace
  chk
  pure b

/-- Change of the reference count of a block. -/
def setRef (b : Nat) (g : Nat → Nat) : M Unit :=
  modS fun s => s.setBlk b { s.blk b with ref := g (s.blk b).ref }

/-- Change of the unwritten mark of a block. -/
def setUnw (b : Nat) (u : Bool) : M Unit :=
  modS fun s => s.setBlk b { s.blk b with unw := u }

/-- Change of the bytes of a block. -/
def setRaw (b : Nat) (g : (Nat → Nat) → Nat → Nat) : M Unit :=
  modS fun s => s.setBlk b { s.blk b with raw := g (s.blk b).raw }

/-- file.c:2211-2215 `filc_reclaim_data_space`: drop one reference. -/
def reclaimData (b : Nat) : M Unit := do
  chk
  setRef b (· - 1)

/-- file.c:2205-2209 `filc_share_data_space`: add one reference. -/
def shareData (b : Nat) : M Unit := do
  chk
  setRef b (· + 1)

/-- file.c:2217-2238 `filc_del_data_space`. -/
def delData (b : Nat) (isTree : Bool) : M Unit := do
  chk
  let s ← getS
  if (s.blk b).ref = 1 ∨ isTree = false then do
    chk
    setUnw b false
    chkLate
    setRef b (· - 1)
  else do
    chk
    setRef b (· - 1)

/-! ### Tree -/

/-- file.c:1822-1844 `filc_do_stage_by_tree_from`: index of the bottom node on the way to
`off`, `none` for a missing node (ENOENT). -/
def descend (f off : Nat) : Nat → Nat → M (Option Nat)
  | 0, i => pure (some i)
  | h + 1, i => do
    if h + 1 ≤ 2 then pure (some i)
    else do
      let s ← getS
      let c := childIdx i (nodeSlot (h + 1) i off)
      if (s.file f).node h c then do
        chk
        descend f off h c
      else pure none

/-- file.c:1858-1880 `filc_stage_by_tree`. -/
def stageByTree (f off : Nat) : M (Option Nat) := do
  let s ← getS
  if (s.file f).root = 0 then pure none
  else do
    chk
    if off < spanOf (s.file f).root then descend f off (s.file f).root 0
    else pure none

/-- file.c:2438-2446, the loop of `filc_create_tree_spine`. -/
def spineLoop (f want : Nat) : Nat → M Unit
  | 0 => pure ()
  | n + 1 => do
    let s ← getS
    let cur := if (s.file f).root = 0 then 1 else (s.file f).root
    if cur < want then do
      chk
      modS fun s => s.setFile f { (s.file f).setNode (cur + 1) 0 true with root := cur + 1 }
      spineLoop f want n
    else pure ()

/-- file.c:2429-2450 `filc_create_tree_spine`. -/
def createSpine (f off : Nat) : M Unit := do
  let s ← getS
  if (s.file f).root = 0 then spineLoop f (treeHeight off) (treeHeight off)
  else do
    chk
    spineLoop f (treeHeight off) (treeHeight off)

/-- file.c:2480-2504, the loop of `filc_require_tree_path`, with
`filc_require_tree_node` (2450-2478). -/
def requirePath (f off : Nat) : Nat → Nat → M Nat
  | 0, i => pure i
  | h + 1, i => do
    if h + 1 ≤ 2 then pure i
    else do
      let s ← getS
      let c := childIdx i (nodeSlot (h + 1) i off)
      chk
      if (s.file f).node h c then requirePath f off h c
      else do
        setNode f h c true
        requirePath f off h c

/-- file.c:2506-2520 `filc_require_tree`: index of the bottom node for `off`. -/
def requireTree (f off : Nat) : M Nat := do
  createSpine f off
  chk
  let s ← getS
  requirePath f off (s.file f).root 0

/-- Leaf of bottom node `j` an offset is looked up at (`fni_child_slot_of`, 810-814). -/
def bottomKey (j off : Nat) : Key := .tr (childIdx j (nodeSlot 2 j off))

/-- Leaf read at an offset below an optional bottom node (1923-1930). -/
def bottomLeaf (x : File) (j : Option Nat) (off : Nat) : Option Nat :=
  match j with
  | none => none
  | some j => x.leaf (bottomKey j off)

/-! ### Leaves -/

/-- file.c:2578-2594 `filc_do_require_tree_leaf`, 2703-2735 `filc_require_head1_leaf`,
`filc_require_head2_leaf`: the block of leaf `k`, claimed if missing. -/
def requireLeaf (f : Nat) (k : Key) : M Nat := do
  let s ← getS
  match (s.file f).leaf k with
  | some b => do
    chk
    pure b
  | none => do
    let b ← claimData
    setLeaf f k (some b) k.nkb
    pure b

/-- file.c:2551-2568 `filc_pre_write_leaf`: zero a block that is unwritten and about to be
written only partially. -/
def preWrite (b sz : Nat) (part : Bool) : M Unit := do
  chk
  let s ← getS
  if (s.blk b).unw ∧ part then do
    chk
    setRaw b fun raw o => if o < sz then 0 else raw o
  else pure ()

/-- file.c:2607-2629 `filc_write_to_leaf_by`, with `filc_do_write_leaf_by_copy` (2522-2536):
store `dat` for file positions `[off, off+len)` of a leaf of size `sz`. -/
def writeLeaf (b sz off end_ : Nat) (dat : Nat → Nat) : M Unit := do
  preWrite b sz (isPartial off end_ sz)
  chk
  chk
  setRaw b fun raw o =>
    if offInData off sz ≤ o ∧ o < offInData off sz + lenOfData off end_ sz
    then dat (off + (o - offInData off sz)) else raw o
  chkLate
  setUnw b false

/-- file.c:2631-2641 `filc_detect_shared_by` for a tree leaf. -/
def detectShared (b : Nat) : M Bool := do
  chk
  let s ← getS
  pure (decide (1 < (s.blk b).ref))

/-- file.c:4199-4240 `filc_copy_data_leaf_by`, called from unshare: whole-block copy. -/
def copyWhole (b b' : Nat) : M Unit := do
  chk
  chk
  let s ← getS
  setRaw b' fun _ => (s.blk b).raw
  chk
  setUnw b' false

/-- file.c:4276-4310 `filc_unshare_leaf_by`: private copy of a shared block. -/
def unshare (f : Nat) (k : Key) (b : Nat) (shared : Bool) : M Nat := do
  if shared then do
    let b' ← claimData
    onErr (copyWhole b b') (reclaimData b')
    reclaimData b
    setLeaf f k (some b') 0
    pure b'
  else pure b

/-! ### Write -/

/-- file.c:2737-2771 `filc_write_by_heads`. -/
def writeHeads (f end_ : Nat) (dat : Nat → Nat) : Nat → M Unit
  | 0 => throwE .efscorrupted
  | n + 1 => do
    let s ← getS
    if (s.file f).ft2 = false ∧ s.pos < end_ ∧ s.pos < 65536 then do
      let k := keyOf false s.pos
      let b ← requireLeaf f k
      writeLeaf b k.size s.pos end_ dat
      advance end_ (s.pos + lenOfData s.pos end_ k.size)
      writeHeads f end_ dat n
    else pure ()

/-- file.c:2643-2675 `filc_do_write_to_tree_leaves`. -/
def writeTreeLeaves (f j end_ : Nat) (dat : Nat → Nat) : Nat → M Unit
  | 0 => throwE .efscorrupted
  | n + 1 => do
    let s ← getS
    if s.pos < end_ then do
      let k := bottomKey j s.pos
      let b ← requireLeaf f k
      let sh ← detectShared b
      let b' ← unshare f k b sh
      writeLeaf b' 65536 s.pos end_ dat
      advance end_ (s.pos + lenOfData s.pos end_ 65536)
      let s' ← getS
      if isMapBoundary s'.pos then pure () else writeTreeLeaves f j end_ dat n
    else pure ()

/-- file.c:2688-2701 `filc_write_by_tree`. -/
def writeTree (f end_ : Nat) (dat : Nat → Nat) : Nat → M Unit
  | 0 => throwE .efscorrupted
  | n + 1 => do
    let s ← getS
    if s.pos < end_ then do
      let j ← requireTree f s.pos
      writeTreeLeaves f j end_ dat (end_ + 1)
      writeTree f end_ dat n
    else pure ()

/-- file.c:2770-2783 `filc_write_data`. -/
def writeData (f end_ : Nat) (dat : Nat → Nat) : M Unit := do
  writeHeads f end_ dat (end_ + 1)
  writeTree f end_ dat (end_ + 1)

/-- file.c:1371-1374, size and span after a write or range copy. -/
def postWrite (f : Nat) (s : St) : St :=
  s.setFile f { s.file f with size := max s.pos (s.file f).size, span := max s.pos (s.file f).span }

/-- file.c:2841-2861 `filc_write_iter` after the checks, O_SYNC included as a last
fallible step; the attributes are updated on error, too. -/
def writeIter (f beg end_ : Nat) (dat : Nat → Nat) (sync : Bool) : M Unit := do
  modS fun s => { s with pos := beg }
  andThen (do
    writeData f end_ dat
    if sync then chk else pure ()) (postWrite f)

/-! ### Read -/

/-- file.c:1912-1940 `filc_read_from_leaf`; `k` is the leaf looked up. -/
def readLeaf (f : Nat) (ob : Option Nat) (sz off end_ : Nat) : M (List Nat) := do
  let len := lenOfData off end_ sz
  match ob with
  | none => do
    chk
    pure (List.replicate len 0)
  | some b => do
    chk
    let s ← getS
    if (s.blk b).unw then do
      chk
      pure (List.replicate len 0)
    else do
      chk
      chk
      pure ((List.range len).map fun i => (s.blk b).raw (offInData off sz + i))

/-- file.c:1994-2017 `filc_read_by_heads`. -/
def readHeads (f end_ : Nat) : Nat → M (List Nat)
  | 0 => throwE .efscorrupted
  | n + 1 => do
    let s ← getS
    if (s.file f).ft2 = false ∧ s.pos < end_ ∧ s.pos < 65536 then do
      let k := keyOf false s.pos
      let d ← readLeaf f ((s.file f).leaf k) k.size s.pos end_
      advance end_ (s.pos + d.length)
      let d' ← readHeads f end_ n
      pure (d ++ d')
    else pure []

/-- file.c:1939-1961 `filc_do_read_from_tree_leaves`; no parent node means a hole. -/
def readTreeLeaves (f : Nat) (j : Option Nat) (end_ : Nat) : Nat → M (List Nat)
  | 0 => throwE .efscorrupted
  | n + 1 => do
    let s ← getS
    if s.pos < end_ then do
      let d ← readLeaf f (bottomLeaf (s.file f) j s.pos) 65536 s.pos end_
      advance end_ (s.pos + d.length)
      let s' ← getS
      if isMapBoundary s'.pos then pure d
      else do
        let d' ← readTreeLeaves f j end_ n
        pure (d ++ d')
    else pure []

/-- file.c:1976-1994 `filc_read_by_tree`. -/
def readTree (f end_ : Nat) : Nat → M (List Nat)
  | 0 => throwE .efscorrupted
  | n + 1 => do
    let s ← getS
    if s.pos < end_ then do
      let j ← stageByTree f s.pos
      let d ← readTreeLeaves f j end_ (end_ + 1)
      let d' ← readTree f end_ n
      pure (d ++ d')
    else pure []

/-- file.c:2019-2032 `filc_read_data`, 2078-2088 `filc_read_iter`, after the checks;
the end of a read is limited by the file size (`filc_update_with_rw_iter`, 2064-2077). -/
def readIter (f beg len : Nat) : M (List Nat) := do
  modS fun s => { s with pos := beg }
  let s ← getS
  let end_ := min (beg + len) (s.file f).size
  let d ← readHeads f end_ (end_ + 1)
  let d' ← readTree f end_ (end_ + 1)
  pure (d ++ d')

/-! ### Seek in the tree (used by discard and lseek) -/

/-- file.c:1572-1594 `filc_seek_tree_at_leaves`, `n` slots left from `slot`; result:
bottom node and slot. -/
def seekLeaves (f : Nat) (hole : Bool) (end_ j : Nat) : Nat → Nat → M (Option (Nat × Nat))
  | 0, _ => pure none
  | n + 1, slot => do
    advance end_ (slotPos 2 j slot)
    let s ← getS
    if s.pos < end_ then
      if hole = ((s.file f).leaf (.tr (childIdx j slot))).isNone then pure (some (j, slot))
      else seekLeaves f hole end_ j n (slot + 1)
    else pure none

/-- file.c:1629-1638, the loop over the children of a non-bottom node, with
`filc_seek_tree_recursive_at` (1592-1613). -/
def seekChilds (f end_ : Nat) (rec : Nat → M (Option (Nat × Nat))) (h i : Nat) :
    Nat → Nat → M (Option (Nat × Nat))
  | 0, _ => pure none
  | n + 1, slot => do
    let s ← getS
    if (s.file f).node (h - 1) (childIdx i slot) then do
      chk
      let r ← rec (childIdx i slot)
      match r with
      | some x => pure (some x)
      | none => do
        advance end_ (slotNextPos h i slot)
        seekChilds f end_ rec h i n (slot + 1)
    else do
      advance end_ (slotNextPos h i slot)
      seekChilds f end_ rec h i n (slot + 1)

/-- file.c:1620-1645 `filc_do_seek_tree_recursive`. -/
def seekRec (f : Nat) (hole : Bool) (end_ : Nat) : Nat → Nat → M (Option (Nat × Nat))
  | 0, _ => pure none
  | h + 1, i => do
    let s ← getS
    if i * spanOf (h + 1) ≤ s.pos ∧ s.pos < (i + 1) * spanOf (h + 1) then
      if h + 1 ≤ 2 then
        seekLeaves f hole end_ i (1024 - nodeSlot (h + 1) i s.pos) (nodeSlot (h + 1) i s.pos)
      else
        seekChilds f end_ (seekRec f hole end_ h) (h + 1) i
          (1024 - nodeSlot (h + 1) i s.pos) (nodeSlot (h + 1) i s.pos)
    else pure none

/-- file.c:1659-1677 `filc_seek_by_tree`. -/
def seekByTree (f : Nat) (hole : Bool) (end_ : Nat) : M (Option (Nat × Nat)) := do
  let s ← getS
  if (s.file f).root = 0 then pure none
  else do
    chk
    seekRec f hole end_ (s.file f).root 0

/-! ### Discard -/

/-- file.c:3212-3226 `filc_discard_partial_by`: zero part of a leaf, in a private copy. -/
def discardPartial (f : Nat) (k : Key) (b : Nat) (shared : Bool) (off end_ : Nat) : M Unit := do
  let b' ← unshare f k b shared
  chk
  setRaw b' fun raw o =>
    if offInData off k.size ≤ o ∧ o < offInData off k.size + lenOfData off end_ k.size
    then 0 else raw o

/-- Whether a key is a tree leaf. -/
def Key.isTree : Key → Bool
  | .tr _ => true
  | _ => false

/-- file.c:2935-2949 `filc_discard_data_leaf` and 3235-3252 `filc_discard_entire_by`. -/
def discardEntire (f : Nat) (k : Key) (b : Nat) : M Unit := do
  delData b k.isTree
  setLeaf f k none (-k.nkb)

/-- file.c:3269-3290 `filc_discard_data_by` at file position `off` of leaf `k`. -/
def discardBy (f : Nat) (k : Key) (ob : Option Nat) (off end_ : Nat) (zero : Bool) : M Unit := do
  match ob with
  | none => pure ()
  | some b => do
    let sh ← if k.isTree then detectShared b else pure false
    if isPartial off end_ k.size then discardPartial f k b sh off end_
    else if !sh && zero then do
      chk
      setUnw b true
    else discardEntire f k b

/-- file.c:3316-3338 `filc_discard_by_heads`. -/
def discardHeads (f end_ : Nat) (zero : Bool) : Nat → M Unit
  | 0 => throwE .efscorrupted
  | n + 1 => do
    let s ← getS
    if (s.file f).ft2 = false ∧ s.pos < end_ ∧ s.pos < 65536 then do
      let k := keyOf false s.pos
      discardBy f k ((s.file f).leaf k) s.pos end_ zero
      advance end_ (s.pos + lenToNext s.pos k.size)
      discardHeads f end_ zero n
    else pure ()

/-- file.c:3299-3313, the loop of `filc_discard_by_tree`.  The leaf is looked up by the slot
the seek returned and unmapped by `off_to_leaf_slot` (987, 3120-3126). -/
def discardTreeLoop (f end_ : Nat) (zero : Bool) : Nat → M Unit
  | 0 => throwE .efscorrupted
  | n + 1 => do
    let s ← getS
    if s.pos < end_ then do
      let r ← seekByTree f false end_
      match r with
      | none => pure ()
      | some (j, slot) => do
        let s' ← getS
        discardBy f (.tr (childIdx j (leafSlot s'.pos)))
          ((s'.file f).leaf (.tr (childIdx j slot))) s'.pos end_ zero
        advance end_ (s'.pos + distToNext (s'.file f).ft2 s'.pos)
        discardTreeLoop f end_ zero n
    else pure ()

/-- file.c:3292-3314 `filc_discard_by_tree`. -/
def discardTree (f end_ : Nat) (zero : Bool) : M Unit := do
  let s ← getS
  if (s.file f).root = 0 then pure ()
  else discardTreeLoop f end_ zero (end_ + 1)

/-- file.c:3340-3353 `filc_discard_data`. -/
def discardData (f end_ : Nat) (zero : Bool) : M Unit := do
  discardHeads f end_ zero (end_ + 1)
  discardTree f end_ zero

/-! ### Removing all data -/

/-- file.c:2922-2936 and 3074-3096: drop one leaf and reset its slot. -/
def dropKey (f : Nat) (k : Key) : M Unit := do
  let s ← getS
  match (s.file f).leaf k with
  | none => pure ()
  | some b => do
    delData b k.isTree
    setLeaf f k none (-k.nkb)

/-- Head leaves in the order of 3128-3156. -/
def headKeys : List Key :=
  (List.range 4).map Key.h1 ++ (List.range 15).map Key.h2

/-- Drop a list of leaves. -/
def dropKeys (f : Nat) : List Key → M Unit
  | [] => pure ()
  | k :: ks => do
    dropKey f k
    dropKeys f ks

/-- file.c:3145-3161 `filc_drop_heads`. -/
def dropHeads (f : Nat) : M Unit := do
  let s ← getS
  if (s.file f).ft2 then pure () else dropKeys f headKeys

/-- file.c:2996-3012, the loop of `filc_drop_recursive` over non-bottom slots, with
`filc_drop_subtree` (2938-2957) and `filc_drop_finode` (3014-3025). -/
def dropChilds (f : Nat) (rec : Nat → M Unit) (h i : Nat) : Nat → Nat → M Unit
  | 0, _ => pure ()
  | n + 1, slot => do
    let s ← getS
    if (s.file f).node (h - 1) (childIdx i slot) then do
      chk
      rec (childIdx i slot)
      chk
      setNode f (h - 1) (childIdx i slot) false
      dropChilds f rec h i n (slot + 1)
    else dropChilds f rec h i n (slot + 1)

/-- file.c:2994-3013 `filc_drop_recursive`. -/
def dropRec (f : Nat) : Nat → Nat → M Unit
  | 0, _ => pure ()
  | h + 1, i =>
    if h + 1 ≤ 2 then dropKeys f ((List.range 1024).map fun s => Key.tr (childIdx i s))
    else dropChilds f (dropRec f h) (h + 1) i 1024 0

/-- file.c:3048-3066 `filc_drop_tree_map`. -/
def dropTree (f : Nat) : M Unit := do
  let s ← getS
  if (s.file f).root = 0 then pure ()
  else do
    chk
    dropRec f (s.file f).root 0
    chk
    modS fun s' => s'.setFile f
      { (s'.file f).setNode (s.file f).root 0 false with root := 0 }

/-- file.c:3163-3176 `filc_drop_data_and_meta`. -/
def dropAll (f : Nat) : M Unit := do
  dropHeads f
  dropTree f

/-! ### Truncate -/

/-- file.c:3360-3386 `filc_resolve_heads_end`: end of the last mapped head leaf. -/
def headsEnd (x : File) : Nat :=
  if x.ft2 then 0
  else match (List.range 15).reverse.find? fun s => (x.leaf (.h2 s)).isSome with
    | some s => 4096 + (s + 1) * 4096
    | none =>
      match (List.range 4).reverse.find? fun s => (x.leaf (.h1 s)).isSome with
      | some s => (s + 1) * 1024
      | none => 0

/-- file.c:3391-3407 `filc_resolve_tree_end`. -/
def treeEnd (f : Nat) : M Nat := do
  let s ← getS
  if (s.file f).root = 0 then pure 0
  else do
    chk
    pure (spanOf (s.file f).root)

/-- file.c:3427-3449 `filc_truncate` after the checks. -/
def truncate (f off : Nat) : M Unit := do
  modS fun s => { s with pos := off }
  let s ← getS
  let tend ← treeEnd f
  discardData f (max (max off (headsEnd (s.file f))) tend) false
  if off = 0 then dropAll f else pure ()
  modS fun s => s.setFile f { s.file f with size := off, span := off }

/-! ### Fallocate -/

/-- file.c:3747-3767 `filc_fallocate_reserve_by_heads`. -/
def reserveHeads (f end_ : Nat) : Nat → M Unit
  | 0 => throwE .efscorrupted
  | n + 1 => do
    let s ← getS
    if (s.file f).ft2 = false ∧ s.pos < end_ ∧ s.pos < 65536 then do
      let k := keyOf false s.pos
      let _ ← requireLeaf f k
      advance end_ (s.pos + lenToNext s.pos k.size)
      reserveHeads f end_ n
    else pure ()

/-- file.c:3680-3697 `filc_reserve_tree_leaves`. -/
def reserveTreeLeaves (f j end_ : Nat) : Nat → M Unit
  | 0 => throwE .efscorrupted
  | n + 1 => do
    let s ← getS
    if s.pos < end_ then do
      let _ ← requireLeaf f (bottomKey j s.pos)
      advance end_ (s.pos + distToNext (s.file f).ft2 s.pos)
      let s' ← getS
      if isMapBoundary s'.pos then pure () else reserveTreeLeaves f j end_ n
    else pure ()

/-- file.c:3737-3745 `filc_fallocate_reserve_by_tree`, 3696-3730. -/
def reserveTree (f end_ : Nat) : Nat → M Unit
  | 0 => throwE .efscorrupted
  | n + 1 => do
    let s ← getS
    if s.pos < end_ then do
      let j ← requireTree f s.pos
      reserveTreeLeaves f j end_ (end_ + 1)
      reserveTree f end_ n
    else pure ()

/-- What fallocate does to the data. -/
inductive FlOp where
  | reserve | punch | zero
  deriving Repr, DecidableEq

/-- file.c:3794-3809 `filc_fallocate_op`. -/
def FlMode.op (m : FlMode) : FlOp :=
  if m.zeroRange then .zero else if m.punchHole then .punch else .reserve

/-- file.c:3765-3828 `filc_fallocate` after the checks. -/
def fallocate (f off end_ : Nat) (op : FlOp) (keep : Bool) : M Unit := do
  modS fun s => { s with pos := off }
  match op with
  | .reserve => do
    reserveHeads f end_ (end_ + 1)
    reserveTree f end_ (end_ + 1)
  | .punch => discardData f end_ false
  | .zero => discardData f end_ true
  modS fun s => s.setFile f { s.file f with
    span := max end_ (s.file f).span
    size := if keep then (s.file f).size else max end_ (s.file f).size }

end Silofs.File
