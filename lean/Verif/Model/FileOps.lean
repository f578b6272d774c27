/-
Requests on regular files as the operation layer passes them to lib/file.c:
the range checks first, then the data path.

Simplifications: the caller has opened the file (FileMap.lean models the other
checks); the returned byte count of a failed request is not part of the result.
-/
import Verif.Model.File

namespace Silofs.File

/-- A request on file `f`.  `recreate`: the last name is removed while the file is
not open (namei.c:618-660), then the inode number is given to a new file of type
`ft2` (inode.c:613-655). -/
inductive FOp where
  | write (off : Int) (dat : List Nat) (sync : Bool)
  | read (off : Int) (len : Nat)
  | truncate (off : Int)
  | fallocate (mode : FlMode) (off len : Int)
  | recreate (ft2 : Bool)

/-- Outcome: bytes of a read, an error of the checks, an error after them. -/
inductive FRes where
  | ok (out : List Nat)
  | failed (e : Err)
  | rejected (e : Err)
  deriving DecidableEq

/-- file.c:2880-2919 `silofs_do_write`, 2088-2160 `silofs_do_read`, 3442-3466
`silofs_do_truncate`, 3830-3853 `silofs_do_fallocate`, 3178-3193 `silofs_drop_reg`:
the checks. -/
def FOp.check (x : File) : FOp → Option Err
  | .write off dat _ => checkFileIo (rwReq .write off dat.length x.size)
  | .read off len => checkFileIo (rwReq .read off len x.size)
  | .truncate off => checkFileIo (truncReq off x.span x.size true)
  | .fallocate mode off len => (checkFileIo (fallocReq off len x.size)).or (checkFlMode mode)
  | .recreate _ => none

/-- The work after the checks. -/
def FOp.exec (f : Nat) : FOp → M (List Nat)
  | .write off dat sync => do
    writeIter f off.toNat (off.toNat + dat.length) (fun p => dat.getD (p - off.toNat) 0) sync
    pure []
  | .read off len => readIter f off.toNat len
  | .truncate off => do
    _root_.Silofs.File.truncate f off.toNat
    pure []
  | .fallocate mode off len => do
    _root_.Silofs.File.fallocate f off.toNat (off + len).toNat mode.op mode.keepSize
    pure []
  | .recreate ft2 => do
    dropAll f
    modS fun s => s.setFile f { ft2 := ft2 }
    pure []

/-- One request. -/
def FOp.run (f : Nat) (op : FOp) (s : St) (o : List Ans) : FRes × St :=
  match op.check (s.file f) with
  | some e => (.rejected e, s)
  | none =>
    match op.exec f s o with
    | (.ok d, s', _) => (.ok d, s')
    | (.error e, s', _) => (.failed e, s')

/-- A newly formatted file system: no data, no files, arbitrary block contents. -/
def St.init (raw : Nat → Nat → Nat) : St :=
  { blk := fun b => ⟨raw b, false, 0⟩, file := fun _ => {} }

end Silofs.File
