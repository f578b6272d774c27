/-
Large writes in two phases (the default, `asyncwr`): under the file-system lock the
leaves of the range are claimed, zeroed where needed, marked written and collected
(lib/fuseq.c:2637-2650 `fq_wri_async_actor` called from lib/file.c:1751-1774); after
the lock was released the data move from the pipe into the collected blocks
(lib/fuseq.c:2652-2680 `fq_wri_copy_iov`, called at 2752-2754).

Simplifications: the checks of one collected vector (fuseq.c:2592-2613) are a step
that may fail; the blocks collected are memory (`iov_base`, 2567-2573), so vectors
are not merged (2664-2672 merges only vectors of one file descriptor); on an error of
the first phase nothing is copied: fuseq.c:2753 compares with `-ENOSPC`, the file system
returns `-SILOFS_ENOSPC`, which is another number.  The vectors collected are pinned by
a reference count until the second phase ends (file.c:374-390, 2920-2928), so a block in
memory stays the block of its leaf; the counts themselves are not modelled.
-/
import Verif.Model.FileCopy
import Verif.Model.FileOps

namespace Silofs.File

/-- One collected vector (file.c:1751-1774): `len` bytes at `off` of block `blk` take
the bytes of the file from `pos`. -/
structure Piece where
  blk : Nat
  off : Nat
  len : Nat
  pos : Nat
  deriving DecidableEq

/-- file.c:2607-2629 `filc_write_to_leaf_by` with an actor that only collects
(fuseq.c:2637-2650): as `writeLeaf`, without the data. -/
def gatherLeaf (b sz off end_ : Nat) : M Piece := do
  preWrite b sz (isPartial off end_ sz)
  chk
  chk
  chkLate
  setUnw b false
  pure ⟨b, offInData off sz, lenOfData off end_ sz, off⟩

/-- file.c:2737-2771 `filc_write_by_heads`, collecting. -/
def gatherHeads (f end_ : Nat) : Nat → M (List Piece)
  | 0 => throwE .efscorrupted
  | n + 1 => do
    let s ← getS
    if (s.file f).ft2 = false ∧ s.pos < end_ ∧ s.pos < 65536 then do
      let k := keyOf false s.pos
      let b ← requireLeaf f k
      let p ← gatherLeaf b k.size s.pos end_
      advance end_ (s.pos + lenOfData s.pos end_ k.size)
      let ps ← gatherHeads f end_ n
      pure (p :: ps)
    else pure []

/-- file.c:2643-2675 `filc_do_write_to_tree_leaves`, collecting. -/
def gatherTreeLeaves (f j end_ : Nat) : Nat → M (List Piece)
  | 0 => throwE .efscorrupted
  | n + 1 => do
    let s ← getS
    if s.pos < end_ then do
      let k := bottomKey j s.pos
      let b ← requireLeaf f k
      let sh ← detectShared b
      let b' ← unshare f k b sh
      let p ← gatherLeaf b' 65536 s.pos end_
      advance end_ (s.pos + lenOfData s.pos end_ 65536)
      let s' ← getS
      if isMapBoundary s'.pos then pure [p]
      else do
        let ps ← gatherTreeLeaves f j end_ n
        pure (p :: ps)
    else pure []

/-- file.c:2688-2701 `filc_write_by_tree`, collecting. -/
def gatherTree (f end_ : Nat) : Nat → M (List Piece)
  | 0 => throwE .efscorrupted
  | n + 1 => do
    let s ← getS
    if s.pos < end_ then do
      let j ← requireTree f s.pos
      let ps ← gatherTreeLeaves f j end_ (end_ + 1)
      let qs ← gatherTree f end_ n
      pure (ps ++ qs)
    else pure []

/-- file.c:2770-2783 `filc_write_data`, collecting. -/
def gatherData (f end_ : Nat) : M (List Piece) := do
  let ps ← gatherHeads f end_ (end_ + 1)
  let qs ← gatherTree f end_ (end_ + 1)
  pure (ps ++ qs)

/-- file.c:2841-2861 `filc_write_iter` after the checks, collecting: the flush of O_SYNC and
the update of the size precede the data. -/
def gatherIter (f beg end_ : Nat) (sync : Bool) : M (List Piece) := do
  modS fun s => { s with pos := beg }
  andThen (do
    let ps ← gatherData f end_
    if sync then chk else pure ()
    pure ps) (postWrite f)

/-- fuseq.c:2567-2573, 2652-2680: the first `m` bytes of a vector arrive. -/
def copyPiece (p : Piece) (dat : Nat → Nat) (m : Nat) (s : St) : St :=
  s.setBlk p.blk { s.blk p.blk with
    raw := fun o => if p.off ≤ o ∧ o < p.off + min m p.len then dat (p.pos + (o - p.off))
      else (s.blk p.blk).raw o }

/-- A vector whose data did not arrive yet, with the data of its request. -/
structure Flight where
  file : Nat
  piece : Piece
  dat : Nat → Nat

/-- The file system with the vectors of all requests in their second phase. -/
structure Sys where
  st : St
  pend : List Flight

/-- What the threads do: a read or an ordinary write under the lock, the first phase of a
large write under the lock, the copy of one vector without the lock (as far as `m` bytes;
the vector is dropped then). -/
inductive Act where
  | read (f : Nat) (off : Int) (len : Nat)
  | write (f : Nat) (off : Int) (dat : List Nat) (sync : Bool)
  | start (f : Nat) (off : Int) (len : Nat) (dat : Nat → Nat) (sync : Bool)
  | store (i m : Nat)

/-- fuseq.c:2732-2759 `do_write_iter`, the part under the lock (2751). -/
def startRun (f : Nat) (off : Int) (len : Nat) (dat : Nat → Nat) (sync : Bool) (x : Sys) (o : List Ans) :
    FRes × Sys :=
  match checkFileIo (rwReq .write off len (x.st.file f).size) with
  | some e => (.rejected e, x)
  | none =>
    match gatherIter f off.toNat (off.toNat + len) sync x.st o with
    | (.ok ps, s', _) => (.ok [], ⟨s', x.pend ++ ps.map fun p => ⟨f, p, dat⟩⟩)
    | (.error e, s', _) => (.failed e, ⟨s', x.pend⟩)

/-- One action. -/
def Act.run (x : Sys) (o : List Ans) : Act → FRes × Sys
  | .read f off len => ((FOp.run f (.read off len) x.st o).1, ⟨(FOp.run f (.read off len) x.st o).2, x.pend⟩)
  | .write f off dat sync =>
    ((FOp.run f (.write off dat sync) x.st o).1, ⟨(FOp.run f (.write off dat sync) x.st o).2, x.pend⟩)
  | .start f off len dat sync => startRun f off len dat sync x o
  | .store i m =>
    match x.pend[i]? with
    | none => (.ok [], x)
    | some q => (.ok [], ⟨copyPiece q.piece q.dat m x.st, x.pend.eraseIdx i⟩)

end Silofs.File
