/-
C03, C04 and C02: requests for which copy_file_range does not do what it should.
All states are reached from a new file system by accepted requests that no call of
the environment failed.
-/
import Verif.Model.FileCopy
import Verif.Props.FileOps

namespace Silofs.File

/-- A new file system with three files without head leaves. -/
def cpInit : St :=
  let s0 := (FOp.run 0 (.recreate true) (St.init (fun _ _ => 0)) (granted 0)).2
  let s1 := (FOp.run 1 (.recreate true) s0 (granted 0)).2
  (FOp.run 2 (.recreate true) s1 (granted 0)).2

/-- Result and state after a range copy with every answer positive. -/
def cpRun (f1 : Nat) (off1 : Int) (f2 : Nat) (off2 : Int) (len b : Nat) (s : St) : CopyRes × St :=
  opCopy f1 off1 f2 off2 len s (granted b)

/-- Bytes of a file. -/
def cpRead (f : Nat) (off : Int) (len : Nat) (s : St) : FRes := (FOp.run f (.read off len) s (granted 0)).1

/-- C03: file 1 shares its block with file 0 after a copy; a copy of two bytes into
file 1 changes file 0, too. -/
theorem C03_copy_violated :
    let s1 := (FOp.run 0 (.write 0 [5, 6] false) cpInit (granted 0)).2
    let s2 := (FOp.run 0 (.write 65535 [7] false) s1 (granted 20)).2
    let s3 := (cpRun 0 0 1 0 65536 40 s2).2
    let s4 := (FOp.run 2 (.write 0 [8, 9] false) s3 (granted 60)).2
    let r := cpRun 2 0 1 0 2 80 s4
    cpRead 0 0 2 s4 = .ok [5, 6] ∧ r.1 = .ok 2 ∧ cpRead 0 0 2 r.2 = .ok [8, 9] := by decide +kernel

/-- C04: copying from an empty file reports success for all bytes asked for and
extends the destination. -/
theorem C04_eof_violated :
    let r := cpRun 0 0 1 0 100 0 cpInit
    r.1 = .ok 100 ∧ (abs r.2 0).size = 0 ∧ (abs r.2 1).size = 100 := by decide +kernel

/-- C04: a source of three bytes that begins with a hole and a longer request: bytes of the destination after
the end of the source are zeroed, too. -/
theorem C04_overrun_violated :
    let s1 := (FOp.run 0 (.truncate 3) cpInit (granted 0)).2
    let s2 := (FOp.run 1 (.write 0 [1, 2, 3, 4, 5, 6] false) s1 (granted 20)).2
    let r := cpRun 0 0 1 0 6 40 s2
    r.1 = .ok 3 ∧ cpRead 1 0 6 r.2 = .ok [0, 0, 0, 0, 0, 0] := by decide +kernel

/-- C02, C04: a leaf that was zeroed by fallocate (its block keeps the old bytes and is
marked unwritten) is copied whole: the old bytes appear in the destination. -/
theorem C04_unwritten_violated :
    let s1 := (FOp.run 0 (.write 0 (List.replicate 1024 7) false) (St.init (fun _ _ => 0)) (granted 0)).2
    let s2 := (FOp.run 0 (.fallocate { zeroRange := true } 0 1024) s1 (granted 20)).2
    let r := cpRun 0 0 1 0 1024 40 s2
    cpRead 0 0 3 s2 = .ok [0, 0, 0] ∧ r.1 = .ok 1024 ∧ cpRead 1 0 3 r.2 = .ok [7, 7, 7] := by decide +kernel

/-- C02, C03: a zeroed leaf is shared by a copy; one byte written to the copy brings the
old bytes back. -/
theorem C02_shared_unwritten_violated :
    let s1 := (FOp.run 0 (.write 0 [7, 7, 7] false) cpInit (granted 0)).2
    let s2 := (FOp.run 0 (.truncate 65536) s1 (granted 20)).2
    let s3 := (FOp.run 0 (.fallocate { zeroRange := true } 0 65536) s2 (granted 20)).2
    let s4 := (cpRun 0 0 1 0 65536 40 s3).2
    let s5 := (FOp.run 1 (.write 0 [9] false) s4 (granted 60)).2
    cpRead 0 0 3 s3 = .ok [0, 0, 0] ∧ cpRead 1 0 3 s4 = .ok [0, 0, 0] ∧
      cpRead 1 0 3 s5 = .ok [9, 7, 7] := by decide +kernel

/-- C04: a copy that fails half way leaves bytes behind the end of the file, which appear
when the file is extended. -/
theorem C04_fail_violated :
    let s1 := (FOp.run 0 (.write 0 [1, 2] false) cpInit (granted 0)).2
    let s2 := (FOp.run 0 (.write 65536 [3] false) s1 (granted 20)).2
    let r := opCopy 0 0 1 0 65537 s2 ((granted 40).take 12)
    let s3 := (FOp.run 1 (.truncate 2) r.2 (granted 60)).2
    r.1 = .failed .eio ∧ (abs r.2 1).size = 0 ∧ cpRead 1 0 2 s3 = .ok [1, 2] := by decide +kernel

end Silofs.File
