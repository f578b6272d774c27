/-
C07: which file and which handle a request is let through on.  The theorems
`C07_read` .. `C07_copy` of Props/FileMap are about offsets and lengths, on a
regular open file with a handle fit for the request; here the other half.
-/
import Verif.Model.FileMap

set_option linter.unusedSimpArgs false
set_option linter.unusedVariables false
namespace Silofs.File

/-- The file and the handle suit the request: a regular file; open, but for a
truncate; for a write, a handle whose flags, when it has any, say that it may
write; no handle of a directory; and for a read or write, a place for the data. -/
structure HandleOk (r : Req) : Prop where
  notDir : r.isDir = false
  reg : r.isReg = true
  opened : r.nopen = true ∨ r.op = .trunc
  mayWrite : r.op = .write → r.oAny = true → r.oWr = true
  noDirHandle : r.oDirectory = false
  place : r.op = .read ∨ r.op = .write → r.hasRwi = true

/-- The same offsets and lengths on a regular open file, with no handle flags. -/
def Req.plain (r : Req) : Req :=
  { r with isDir := false, isReg := true, nopen := true, oAny := false, oDirectory := false,
           hasRwi := true }

theorem checkFileIo_plain (r : Req) : checkFileIo r.plain =
    ((checkIoRange r).or <|
      (if r.op == .write || r.op == .falloc then checkIoEnd r else none).or <|
        if (r.op == .read || r.op == .write) && decide (r.len > ioSizeMax) then some .einval
        else (if r.op == .lseek then checkSeekPos r else none).or <|
          if r.op == .copy && r.cpFlags != 0 then some .einval
          else if r.op == .copy && decide (r.beg % 65536 ≠ 0) && decide (r.len > ioSizeMax) then
            some .einval
          else none) := by
  have h1 : checkIoRange r.plain = checkIoRange r := rfl
  have h2 : checkIoEnd r.plain = checkIoEnd r := rfl
  have h3 : checkSeekPos r.plain = checkSeekPos r := rfl
  unfold checkFileIo
  rw [h1, h2, h3]
  simp [Req.plain]
  by_cases hb : r.beg % 65536 = 0 <;> simp [hb]

/-- C07: a request is accepted exactly when the file and the handle suit it and
its range would be accepted on a regular open file. -/
theorem C07_handle (r : Req) :
    checkFileIo r = none ↔ HandleOk r ∧ checkFileIo r.plain = none := by
  rw [checkFileIo_plain]
  have hk : HandleOk r ↔ (r.isDir = false ∧ r.isReg = true ∧ (r.nopen = true ∨ r.op = .trunc) ∧
      (r.op = .write → r.oAny = true → r.oWr = true) ∧ r.oDirectory = false ∧
      (r.op = .read ∨ r.op = .write → r.hasRwi = true)) :=
    ⟨fun ⟨a, b, c, d, e, f⟩ => ⟨a, b, c, d, e, f⟩, fun ⟨a, b, c, d, e, f⟩ => ⟨a, b, c, d, e, f⟩⟩
  rw [hk]
  unfold checkFileIo
  generalize checkIoRange r = x
  generalize checkIoEnd r = y
  generalize checkSeekPos r = z
  generalize r.isDir = d
  generalize r.isReg = g
  generalize r.nopen = n
  generalize r.oAny = oa
  generalize r.oWr = ow
  generalize r.oDirectory = od
  generalize r.hasRwi = rw
  generalize r.op = op
  generalize r.cpFlags = cf
  cases x <;> cases d <;> cases g <;> cases n <;> simp
  all_goals cases op <;> cases oa <;> cases ow <;> cases od <;> cases rw <;> simp
  all_goals grind

/-- C07: the error of a request on a file that does not suit: EISDIR for a
directory, EINVAL for another special file, EBADF when it is not open (but for a
truncate), whatever the offsets. -/
theorem C07_handle_errors (r : Req) :
    (r.isDir = true → checkFileIo r = some .eisdir) ∧
    (r.isDir = false → r.isReg = false → checkFileIo r = some .einval) ∧
    (r.isDir = false → r.isReg = true → r.nopen = false → r.op ≠ .trunc →
      checkFileIo r = some .ebadf) := by
  refine ⟨fun h => ?_, fun h1 h2 => ?_, fun h1 h2 h3 h4 => ?_⟩ <;>
    unfold checkFileIo <;> simp [*]

/-- C07: a write whose range is good, through a handle that may not write, fails
with EPERM; a request whose range is good through a handle of a directory fails
with ENOTDIR. -/
theorem C07_handle_flags (r : Req) (h1 : r.isDir = false) (h2 : r.isReg = true)
    (h3 : r.nopen = true) (hp : checkFileIo r.plain = none) :
    (r.op = .write → r.oAny = true → r.oWr = false → checkFileIo r = some .eperm) ∧
    (r.op ≠ .write → r.hasRwi = true → r.oDirectory = true → checkFileIo r = some .enotdir) := by
  rw [checkFileIo_plain] at hp
  unfold checkFileIo
  rw [h1, h2, h3]
  cases hx : checkIoRange r with
  | some e => rw [hx] at hp; simp at hp
  | none =>
    rw [hx] at hp
    simp only [Option.none_or] at hp ⊢
    refine ⟨fun a b c => by simp [a, b, c], fun a b c => ?_⟩
    generalize hy : checkIoEnd r = y at *
    generalize hz : checkSeekPos r = z at *
    cases ho : r.op <;> cases y <;> cases z <;> simp_all
    all_goals grind

/-- C07: a read ends where it was asked to end or at the end of the file,
whichever comes first. -/
theorem C07_read_end {off size : Int} {len : Nat} (hl : len < 2 ^ 63) :
    let e := (rwReq .read off len size).end_
    e ≤ size ∧ e ≤ off + len ∧ (e = size ∨ e = off + len) := by
  have : toSigned len = len := by unfold toSigned; rw [if_pos hl]
  simp only [rwReq, this, if_true]
  omega

/-- C07: a write ends where it was asked to end. -/
theorem C07_write_end {off size : Int} {len : Nat} (hl : len < 2 ^ 63) :
    (rwReq .write off len size).end_ = off + len := by
  have : toSigned len = len := by unfold toSigned; rw [if_pos hl]
  simp [rwReq, this]

-- The conditions are met, and each of them matters.
example : checkFileIo { rwReq .write 5 10 3 with oAny := true, oWr := true } = none ∧
    checkFileIo { rwReq .write 5 10 3 with oAny := true } = some .eperm ∧
    checkFileIo { rwReq .read 5 10 3 with oAny := true } = none ∧
    checkFileIo { rwReq .read 5 10 3 with nopen := false } = some .ebadf ∧
    checkFileIo { rwReq .read 5 10 3 with oAny := true, oDirectory := true } = some .enotdir ∧
    checkFileIo (truncReq 5 100 3 false) = none := by decide

-- Flags of nought, as of a plain O_RDONLY, are not told from no flags: such a
-- write is accepted here and left to the kernel to refuse.
example : checkFileIo { rwReq .write 5 10 3 with oAny := false, oWr := false } = none := by decide

end Silofs.File
