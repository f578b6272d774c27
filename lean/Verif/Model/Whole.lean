/-
Names and contents together: the operations of lib/namei.c (`Model/Namei`) with what they
do to the data of regular files (`Model/FileOps`), and the requests on open files.

Where lib/namei.c calls into lib/file.c:
* 909-927 `drop_unlinked` and 977-988 `try_prune_loose_data` drop the data of a regular file
  (file.c:3178-3193 `silofs_drop_reg`) that has lost its last name and handle;
* 843-868 `trunc_data`, `post_open`: truncation on open;
* 628-650 `do_create`: a new file is empty (inode.c:613-655, file.c `silofs_setup_reg`).

Simplifications: a file that is busy has its data dropped by `try_prune_loose_data`, and
`drop_unlinked` at the end of the request then finds no data (task.c:500-517); here the data
are dropped once.  Data whose dropping failed belong to an inode without name and handle; that it
is tried again is told only when that succeeds (nobody can get at the inode, see
`C63_dropped_unreachable`).
-/
import Verif.Model.Namei
import Verif.Model.FileOps
import Verif.Model.FileCopy

namespace Silofs.Whole

open Silofs.Ns (Fs Orc Ino Out)

/-- Names, inodes and handles; contents of regular files by inode number. -/
structure W where
  ns : Fs
  st : File.St

/-- namei.c:1052-1068, 1094-1132, 1818-1839, 1502-1601, 2590-2605: the inode that
`try_prune_inode` (998-1019) is called for, if it gets that far. -/
def victim (s : Fs) : Ns.Op → Option Nat
  | .unlink _ d n => s.look d n
  | .rename _ _ _ d2 n2 _ => s.look d2 n2
  | .release i _ _ => some i
  | .forget i => some i
  | _ => none

/-- Inode `i` is a regular file. -/
def isReg (s : Fs) (i : Nat) : Bool :=
  match s.ino i with
  | none => false
  | some x => decide (x.attr.kind = .reg)

/-- Between `s` and `t` dropping the data of regular file `i` was begun: the inode is gone, or its
data are, or they were dropped anew (an earlier attempt had failed) and the inode awaits its end. -/
def dropped (s t : Fs) (i : Nat) : Bool :=
  match s.ino i, t.ino i with
  | some x, none => decide (x.attr.kind = .reg)
  | some x, some y => decide (x.attr.kind = .reg) && (x.data || (y.loose && t.looseq.contains i)) && !y.data
  | none, _ => false

/-- file.c:3178-3193 `silofs_drop_reg`: whether it fails, and the state after. -/
def dropRun (i : Nat) (st : File.St) (fo : List File.Ans) : Bool × File.St :=
  match File.dropAll i st fo with
  | (.ok _, st', _) => (false, st')
  | (.error _, st', _) => (true, st')

/-- The regular file that came into being between `s` and `t`. -/
def born (s t : Fs) (o : Orc) : Option Nat :=
  match o.spawn with
  | none => none
  | some i => if s.ino i = none ∧ isReg t i = true then some i else none

/-- Truncation to length 0, by an open with O_TRUNC (namei.c:843-868): whether it fails. -/
def truncRun (i : Nat) (st : File.St) (fo : List File.Ans) : Bool × File.St :=
  match File.FOp.run i (.truncate 0) st fo with
  | (.ok _, st') => (false, st')
  | (_, st') => (true, st')

/-- A request on names or handles.  `o` and `fo` decide the failures in the two parts; `early`:
dropping an inode failed before its data were reached (namei.c:914-917, the extended attributes);
`ft2`: the type of a new file (inode.c:613-655). -/
structure NReq where
  op : Ns.Op
  o : Orc
  fo : List File.Ans
  early : Bool
  ft2 : Bool

/-- The failures of the data part become those of the name part. -/
def NReq.orc (q : NReq) (w : W) : Orc :=
  match q.op with
  | .openReg _ i f => if f.trunc = true ∧ isReg w.ns i = true then { q.o with trunc := (truncRun i w.st q.fo).1 } else q.o
  | _ =>
    match victim w.ns q.op with
    | none => q.o
    | some v => { q.o with drop := q.o.drop || (isReg w.ns v && (dropRun v w.st q.fo).1) }

/-- What happens to contents: namei.c:857-872 `do_open`, 998-1019 `try_prune_inode`, 628-650
`do_create`. -/
def NReq.data (q : NReq) (w : W) : File.St :=
  match q.op with
  | .openReg cr i f =>
    if f.trunc = true ∧ isReg w.ns i = true ∧ (w.ns.openReg { q.o with trunc := false } cr i f).1 = none
    then (truncRun i w.st q.fo).2 else w.st
  | _ =>
    match victim w.ns q.op with
    | some v =>
      if dropped w.ns (q.op.body w.ns (q.orc w)).2 v then
        (if q.early && q.o.drop then w.st else (dropRun v w.st q.fo).2)
      else w.st
    | none =>
      match born w.ns (q.op.body w.ns (q.orc w)).2 q.o with
      | none => w.st
      | some i => w.st.setFile i { ft2 := q.ft2 }

/-- One request on names or handles. -/
def NReq.run (q : NReq) (w : W) : Out × W :=
  ((w.ns.step (q.orc w) q.op).1, ⟨(w.ns.step (q.orc w) q.op).2, q.data w⟩)

/-- file.c:1287-1300: requests on data need an open regular file; truncation only a file
(inode.c `silofs_do_truncate` by path). -/
def mayIo (s : Fs) (i : Nat) (op : File.FOp) : Bool :=
  match s.ino i, op with
  | some x, .truncate _ => decide (x.attr.kind = .reg)
  | _, .recreate _ => false
  | some x, _ => decide (x.attr.kind = .reg ∧ 0 < x.nopen)
  | none, _ => false

/-- Requests. -/
inductive Req where
  | name (q : NReq)
  | data (i : Nat) (op : File.FOp) (fo : List File.Ans)
  | copy (i1 : Nat) (off1 : Int) (i2 : Nat) (off2 : Int) (len : Nat) (fo : List File.Ans)

/-- Outcomes. -/
inductive WRes where
  | name (r : Out)
  | refused
  | data (r : File.FRes)
  | copy (r : File.CopyRes)

/-- One request. -/
def Req.run (w : W) : Req → WRes × W
  | .name q => (.name (q.run w).1, (q.run w).2)
  | .data i op fo =>
    if mayIo w.ns i op then (.data (op.run i w.st fo).1, ⟨w.ns, (op.run i w.st fo).2⟩) else (.refused, w)
  | .copy i1 off1 i2 off2 len fo =>
    if mayIo w.ns i1 (.read 0 0) ∧ mayIo w.ns i2 (.read 0 0) then
      (.copy (File.opCopy i1 off1 i2 off2 len w.st fo).1, ⟨w.ns, (File.opCopy i1 off1 i2 off2 len w.st fo).2⟩)
    else (.refused, w)

/-- A new file system: only the root directory, blocks with arbitrary contents. -/
def W.init (a : Ns.Attr) (m : Nat) (raw : Nat → Nat → Nat) : W := ⟨Fs.init a m, File.St.init raw⟩

end Silofs.Whole
