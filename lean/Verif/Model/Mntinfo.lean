import Verif.Model.Strview
import Verif.Model.Report
import Verif.Model.Addr
/-
Which file-systems are mounted: reading /proc/self/mountinfo (cmd/cmdutils.c:856-883, 899-1040),
`silofs lsmnt` (cmd/lsmnt.c) and the check of `silofs rmfs` that the file-system is not in use
(cmd/rmfs.c:107-173).

Texts are lists of bytes; `none` is a read outside the buffer.  What the kernel answers is a
parameter (`Os`).  Memory is always found (cmd_zalloc dies when it is not).
-/
namespace Silofs.Mi
open Silofs.Sv Silofs.Rep

/-- Size of the buffer, cmd/cmdutils.c:901. -/
def BSZ : Nat := 1048576

/-- What read(2) does when there is something to read: an error, or up to `n + 1` bytes. -/
inductive Ans where
  | err (e : Nat)
  | upto (n : Nat)
  deriving DecidableEq

/-- The loop of cmd/cmdutils.c:866-883 `cmd_readfile` (lines 873-881), over a file `f`, by pages of `pg` bytes into a
buffer of `bsz`, `len` bytes being read already.  An error (856-864 `cmd_read`) ends the program.  At
most one turn for each byte. -/
def readLoop (f : List Nat) (pg bsz : Nat) (as : Nat → Ans) : Nat → Nat → Except Nat Nat
  | 0, len => .ok len
  | k + 1, len =>
    if len < bsz then
      match as len with
      | .err e => .error e
      | .upto n =>
        if min (min pg (bsz - len)) (min (n + 1) (f.length - len)) = 0 then .ok len
        else readLoop f pg bsz as k (len + min (min pg (bsz - len)) (min (n + 1) (f.length - len)))
    else .ok len

/-- cmd/cmdutils.c:866-883 `cmd_readfile` into a buffer of zeros, with 899-913
`cmd_read_proc_mountinfo`: what the buffer holds then. -/
def readInfo (f : List Nat) (pg : Nat) (as : Nat → Ans) : Except Nat Buf :=
  match readLoop f pg BSZ as BSZ 0 with
  | .error e => .error e
  | .ok n => .ok (f.take n ++ List.replicate (BSZ - n) 0)

/-- strlen(3), lib/str/strchr.c:58-61 `silofs_str_length`: a text without end is read past its
buffer. -/
def strLen (b : Buf) : Option Nat :=
  if 0 ∈ b then some (b.takeWhile (· ≠ 0)).length else none

/-- " \t\v" -/
def fieldSeps : List Nat := [32, 9, 11]

/-- The loop of cmd/cmdutils.c:924-932. -/
def fieldLoop (b : Buf) : Nat → View → View → Option View
  | 0, word, tail => if word.len ≠ 0 ∨ tail.len ≠ 0 then stripWs b word else some ⟨0, 0⟩
  | i + 1, word, tail =>
    if word.len ≠ 0 ∨ tail.len ≠ 0 then
      match split b tail fieldSeps with
      | none => none
      | some p => fieldLoop b i p.1 p.2
    else some ⟨0, 0⟩

/-- cmd/cmdutils.c:915-933 `cmd_parse_field`; the text "" is the view of length zero at zero. -/
def parseField (b : Buf) (line : View) (idx : Nat) : Option View :=
  match split b line fieldSeps with
  | none => none
  | some p => fieldLoop b idx p.1 p.2

/-- cmd/cmdutils.c:935-946 `cmd_parse_mountinfo_line` -/
def parseLine (b : Buf) (line : View) : Option (View × View) :=
  match splitStr b line [32, 45, 32] with
  | none => none
  | some p =>
    match parseField b p.1 4, parseField b p.2 2 with
    | some d, some a => some (d, a)
    | _, _ => none

/-- "fuse.silofs" -/
def fuseSilofs : List Nat := [102, 117, 115, 101, 46, 115, 105, 108, 111, 102, 115]

/-- cmd/cmdutils.c:948-951 `cmd_isfusesilofs_mountinfo_line` -/
def isSilofs (b : Buf) (line : View) : Option Bool :=
  match find b line 0 fuseSilofs with
  | none => none
  | some i => some (decide (i < line.len))

/-- cmd/cmd.h `struct cmd_proc_mntinfo` -/
structure Mnt where
  mntdir : List Nat
  mntargs : List Nat
  deriving DecidableEq, Repr

/-- cmd/cmdutils.c:953-958 `round_up` -/
def roundUp (n : Nat) : Nat := (n + 8 - 1) / 8 * 8

/-- One of the two texts of cmd/cmdutils.c:965-996 `cmd_new_mntinfo`: copied into zeros, read as a C
string. -/
def newText (b : Buf) (v : View) : Option (List Nat) :=
  match copyTo b v (roundUp (v.len + 1)) with
  | none => none
  | some p => if 0 ∈ p.1 then some (cstr p.1 0) else none

/-- cmd/cmdutils.c:998-1006 `cmd_new_mntinfo_of`, 965-996 `cmd_new_mntinfo` -/
def newMntinfo (b : Buf) (line : View) : Option Mnt :=
  match parseLine b line with
  | none => none
  | some p =>
    match newText b p.1, newText b p.2 with
    | some d, some a => some ⟨d, a⟩
    | _, _ => none

/-- The loop of cmd/cmdutils.c:1019-1027; each turn takes at least one character. -/
def parseLoop (b : Buf) : Nat → View → View → List Mnt → Option (List Mnt)
  | 0, _, _, l => some l
  | k + 1, line, tail, l =>
    if line.len ≠ 0 ∨ tail.len ≠ 0 then
      match isSilofs b line with
      | none => none
      | some true =>
        match newMntinfo b line, splitChr b tail 10 with
        | some m, some p => parseLoop b k p.1 p.2 (m :: l)
        | _, _ => none
      | some false =>
        match splitChr b tail 10 with
        | none => none
        | some p => parseLoop b k p.1 p.2 l
    else some l

/-- cmd/cmdutils.c:1008-1028 `cmd_parse_mountinfo_into` -/
def parseInto (b : Buf) : Option (List Mnt) :=
  match strLen b with
  | none => none
  | some n =>
    match splitChr b ⟨0, n⟩ 10 with
    | none => none
    | some p => parseLoop b (n + 2) p.1 p.2 []

/-- cmd/cmdutils.c:1030-1040 `cmd_parse_mountinfo`: an error, a read outside the buffer, or the
list. -/
def parseMountinfo (f : List Nat) (pg : Nat) (as : Nat → Ans) : Except Nat (Option (List Mnt)) :=
  match readInfo f pg as with
  | .error e => .error e
  | .ok b => .ok (parseInto b)

/-! ### lsmnt and rmfs -/

/-- What the kernel answers: openat(2) of a directory; the QUERY ioctl of a type on it; stat(2), the
inode and device. -/
structure Os where
  openDir : List Nat → Except Nat Nat
  query : Nat → Nat → Except Nat (List Nat)
  stat : List Nat → Except Nat (Nat × Nat)

/-- SILOFS_QUERY_REPO -/
def QREPO : Nat := 2
/-- SILOFS_QUERY_BOOT -/
def QBOOT : Nat := 3

/-- cmd/lsmnt.c:97-101 `cmd_lsmnt_short` -/
def lsShort (m : Mnt) : List Nat := m.mntdir ++ [10]

/-- cmd/lsmnt.c:103-151 `cmd_lsmnt_long`; 782-791 of cmd/cmdutils.c `cmd_struuid` -/
def lsLong (os : Os) (m : Mnt) : List Nat :=
  match os.openDir m.mntdir with
  | .error _ => [10]
  | .ok fd =>
    match os.query fd QREPO with
    | .error _ => [10]
    | .ok r =>
      match os.query fd QBOOT with
      | .error _ => [10]
      | .ok q =>
        m.mntdir ++ [32] ++ showRepo r ++ [47] ++ (showBoot q).1 ++ [32] ++ (showBoot q).2.1 ++ [32] ++
          Addr.uuidText (showBoot q).2.2 ++ [10]

/-- cmd/lsmnt.c:153-167 `cmd_lsmnt_execute`: what is printed. -/
def lsmnt (os : Os) (long : Bool) (l : List Mnt) : List Nat :=
  l.flatMap (fun m => if long then lsLong os m else lsShort m)

/-- cmd/cmdutils.c:193-205 `cmd_joinpath_safe`, 724-731 `cmd_join_path` -/
def joinPath (d n : List Nat) : List Nat := d ++ [47] ++ n

/-- cmd/rmfs.c:107-161 `cmd_rmfs_check_nomnt_at`: whether the program dies, saying the file-system is
in use. -/
def nomntAt (os : Os) (repodir name : List Nat) (m : Mnt) : Bool :=
  match os.openDir m.mntdir with
  | .error _ => false
  | .ok fd =>
    match os.query fd QREPO with
    | .error _ => false
    | .ok r =>
      match os.query fd QBOOT with
      | .error _ => false
      | .ok q =>
        match os.stat (joinPath (showRepo r) (showBoot q).1) with
        | .error _ => false
        | .ok s =>
          match os.stat (joinPath repodir name) with
          | .error _ => false
          | .ok t => s.1 == t.1 && s.2 == t.2

/-- cmd/rmfs.c:163-173 `cmd_rmfs_check_nomnt`: the mount it dies for. -/
def nomnt (os : Os) (repodir name : List Nat) (l : List Mnt) : Option Mnt := l.find? (nomntAt os repodir name)

/-- The beginning of cmd/rmfs.c:278-335 `cmd_execute_rmfs`, up to line 292: whether it goes on.
`none` is a read outside the buffer; the error is the exit status' cause. -/
def rmfsGuard (os : Os) (repodir name : List Nat) (f : List Nat) (pg : Nat) (as : Nat → Ans) :
    Option (Except Nat Unit) :=
  match parseMountinfo f pg as with
  | .error e => some (.error e)
  | .ok none => none
  | .ok (some l) =>
    match nomnt os repodir name l with
    | some _ => some (.error 16)
    | none => some (.ok ())

end Silofs.Mi
