/-
lseek with SEEK_DATA and SEEK_HOLE, lib/file.c:1677-1720 and 3479-3591.
-/
import Verif.Model.File

namespace Silofs.File

/-- file.c:1679-1697 `filc_seek_data_by_heads`, 1697-1715 `filc_seek_hole_by_heads`. -/
def seekHeads (f : Nat) (hole : Bool) (end_ : Nat) : Nat → M Bool
  | 0 => throwE .efscorrupted
  | n + 1 => do
    let s ← getS
    if (s.file f).ft2 = false ∧ s.pos < end_ ∧ s.pos < 65536 then
      if hole = ((s.file f).leaf (keyOf false s.pos)).isNone then pure true
      else do
        advance end_ (s.pos + distToNext false s.pos)
        seekHeads f hole end_ n
    else pure false

/-- file.c:3479-3495 `filc_lseek_data_leaf`, 3514-3525 `filc_lseek_hole_noleaf`: position of
the first leaf with (without) data; the heads are searched first. -/
def lseekLeaf (f : Nat) (hole : Bool) (end_ : Nat) : M (Option Nat) := do
  let h ← seekHeads f hole end_ (end_ + 1)
  if h then do
    let s ← getS
    pure (some s.pos)
  else do
    let r ← seekByTree f hole end_
    let s ← getS
    pure (r.map fun _ => s.pos)

/-- file.c:3497-3512 `filc_lseek_data`, 3527-3543 `filc_lseek_hole`, after the
checks; `none` stands for the result ENXIO. -/
def lseek (f off : Nat) (hole : Bool) : M (Option Nat) := do
  modS fun s => { s with pos := off }
  let s ← getS
  let r ← lseekLeaf f hole (s.file f).size
  match r with
  | some p => pure (some (min (max p off) (s.file f).size))
  | none => pure (if hole then some (s.file f).size else none)

/-- Outcome of lseek: the offset, ENXIO as the result of the search, an error of
the environment, or a rejected request. -/
inductive SeekRes where
  | at (off : Nat)
  | enxio
  | failed (e : Err)
  | rejected (e : Err)
  deriving DecidableEq

/-- file.c:3564-3591 `silofs_do_lseek` with SEEK_DATA or SEEK_HOLE. -/
def opSeek (f : Nat) (off : Int) (hole : Bool) (s : St) (o : List Ans) : SeekRes × St :=
  match checkFileIo (seekReq off (s.file f).size) with
  | some e => (.rejected e, s)
  | none =>
    match lseek f off.toNat hole s o with
    | (.ok (some r), s', _) => (.at r, s')
    | (.ok none, s', _) => (.enxio, s')
    | (.error e, s', _) => (.failed e, s')

end Silofs.File
