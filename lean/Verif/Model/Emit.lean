import Verif.Model.Fuse
import Verif.Model.Readdir
import Verif.Model.Xattr
/-
The lists that are answered to the kernel, as bytes: names of extended attributes
(lib/fuseq.c:1390-1450 with lib/xattr.c:1130-1225) and entries of a directory
(lib/fuseq.c:1459-1610 with lib/dir.c:2068-2440).
-/
namespace Silofs.Emit
open Silofs.Fuse

/-! ### Names of extended attributes -/

/-- lib/fuseq.c:367-374 `struct silofs_fuseq_xiter`: the room (none: only count), the bytes so far
and their count. -/
structure Xiter where
  room : Option Nat
  buf : Buf
  cnt : Nat
  deriving DecidableEq

/-- lib/fuseq.c:1433-1447 `xiter_prep` -/
def xiterPrep (size : Nat) : Xiter := ⟨if 0 < size then some (min size 65536) else none, [], 0⟩

/-- lib/fuseq.c:1415-1431 `fillxent` -/
def fillxent (xi : Xiter) (name : List Nat) : Xattr.Res Xiter :=
  match xi.room with
  | none => .ok { xi with cnt := xi.cnt + (name.length + 1) }
  | some r =>
    if r - xi.buf.length < name.length + 1 then .err .range
    else .ok { xi with buf := xi.buf ++ name ++ [0], cnt := xi.cnt + (name.length + 1) }

/-- lib/xattr.c:1143-1154 `xac_emit_range` over the names of one node. -/
def emitRange (xi : Xiter) : List (List Nat) → Xattr.Res Xiter
  | [] => .ok xi
  | n :: l =>
    match fillxent xi n with
    | .err e => .err e
    | .ok xi' => emitRange xi' l

/-- lib/xattr.c:1168-1201 `xac_emit_node_at`, `xac_emit_by_nodes` over the `k` slots from `i` on. -/
def emitNodes (io : Nat → Bool) : Nat → Nat → Xattr.St → Xiter → Xattr.St × Xattr.Res Xiter
  | 0, _, s, xi => (s, .ok xi)
  | k + 1, i, s, xi =>
    match s.slot i with
    | none => emitNodes io k (i + 1) s xi
    | some x =>
      match Xattr.stage io i x with
      | none => (s, .err .io)
      | some x' =>
        match emitRange xi (Xattr.names x'.node.buf 0 x'.node.nents) with
        | .err e => (s.set i x', .err e)
        | .ok xi' => emitNodes io k (i + 1) (s.set i x') xi'

/-- lib/fuseq.c:2210-2223 `do_listxattr`, with lib/fuseq.c:1104-1120 `fqd_reply_xattr`: the data of
the answer. -/
def listxattr (io : Nat → Bool) (s : Xattr.St) (size : Nat) : Xattr.St × Xattr.Res Buf :=
  match emitNodes io Xattr.nslots 0 s (xiterPrep size) with
  | (s1, .err e) => (s1, .err e)
  | (s1, .ok xi) =>
    (s1, .ok (if xi.room = none then leBytes 4 xi.cnt ++ leBytes 4 0 else xi.buf.take xi.cnt))

/-! ### Entries of a directory -/

/-- include/silofs/dir.h:31-38 `struct silofs_readdir_info` -/
structure Rdi where
  name : List Nat
  ino : Nat
  dt : Nat
  off : Int
  attr : St

/-- lib/fuseq.c:352-365 `struct silofs_fuseq_diter`; the bytes of `buf` up to `len`. -/
structure Diter where
  plus : Bool
  bsz : Nat
  buf : Buf
  deName : List Nat
  deIno : Nat
  deDt : Nat
  deAttr : St

/-- All attributes zero but the inode's number: what lib/dir.c:2093-2114 `dirc_emit` starts with. -/
def stZero (ino : Nat) : St := ⟨ino, 0, 0, 0, 0, 0, 0, 0, 0, 0, 0, 0, 0, 0, 0, 0⟩

/-- include/linux/fuse_kernel.h:1017-1030 `FUSE_NAME_OFFSET`, `FUSE_NAME_OFFSET_DIRENTPLUS` -/
def hdrLen (plus : Bool) : Nat := if plus then 152 else 24

/-- `FUSE_DIRENT_ALIGN`. -/
def align8 (n : Nat) : Nat := (n + 7) / 8 * 8

/-- `IFTODT` of glibc. -/
def iftodt (mode : Nat) : Nat := mode % 65536 / 4096

/-- The part of an entry that both kinds have: `struct fuse_dirent`, the name and zeros up to a
multiple of eight. -/
def direntBytes (ino : Nat) (off : Int) (dt : Nat) (name : List Nat) (pad : Nat) : Buf :=
  leBytes 8 ino ++ leBytes 8 (toU64 off) ++ leBytes 4 name.length ++ leBytes 4 dt ++ name ++ List.replicate pad 0

/-- lib/fuseq.c:1460-1483 `emit_direntonly` -/
def emitOnly (room : Nat) (name : List Nat) (ino dt : Nat) (off : Int) : Option Buf :=
  if room < align8 (24 + name.length) then none
  else some (direntBytes ino off dt name (align8 (24 + name.length) - (24 + name.length)))

/-- lib/fuseq.c:1485-1512 `emit_direntplus` -/
def emitPlus (room : Nat) (name : List Nat) (st : St) (off : Int) : Option Buf :=
  if room < align8 (152 + name.length) then none
  else some (entryBytes st ++
    direntBytes st.ino off (iftodt st.mode) name (align8 (152 + name.length) - (152 + name.length)))

/-- lib/fuseq.c:1514-1540 `emit_dirent` -/
def emitDirent (di : Diter) (off : Int) : Option Diter :=
  if di.bsz - di.buf.length ≤ di.deName.length then none
  else
    match (if di.plus then emitPlus (di.bsz - di.buf.length) di.deName di.deAttr off
      else emitOnly (di.bsz - di.buf.length) di.deName di.deIno di.deDt off) with
    | none => none
    | some b => some { di with buf := di.buf ++ b }

/-- lib/fuseq.c:1542-1556 `update_dirent`; `struct silofs_strbuf` holds 512 bytes. -/
def updateDirent (di : Diter) (r : Rdi) : Diter :=
  { di with
    deIno := r.ino
    deDt := r.dt
    deName := r.name.take 511
    deAttr := if di.plus then r.attr else di.deAttr }

/-- lib/fuseq.c:1558-1561 `has_dirent` -/
def hasDirent (di : Diter) : Bool := decide (0 < di.deIno) && decide (0 < di.deName.length)

/-- lib/fuseq.c:1568-1582 `filldir`; none: an error, on which the iteration ends (lib/dir.c:2109-2111). -/
def filldir (di : Diter) (r : Rdi) : Option Diter :=
  if hasDirent di then (emitDirent di r.off).map (updateDirent · r) else some (updateDirent di r)

/-- lib/fuseq.c:1584-1599 `diter_prep` -/
def diterPrep (size : Nat) (plus : Bool) : Diter := ⟨plus, min size 8192, [], [], 0, 0, stZero 0⟩

/-- The entries that the iteration offers, one after the other, until one is refused. -/
def fill (di : Diter) : List Rdi → Diter
  | [] => di
  | r :: l => match filldir di r with
    | none => di
    | some di' => fill di' l

/-- lib/dir.c:2093-2147 `dirc_emit`, `dirc_emit_dirent`, `dirc_emit_ii`: what is told of one entry; `attr`
is the attributes of inodes (lib/inode.c:1131-1154 `silofs_ii_stat_of`).  An inode that can not be staged fails the whole
request, which is left out. -/
def rdiOf (plus : Bool) (attr : Nat → St) (x : Dir.Item) : Rdi :=
  ⟨x.name, x.ino, x.dt, x.off, if plus then attr x.ino else stZero x.ino⟩

/-- lib/dir.c:2192-2199 `dirc_readdir_eos` -/
def rdiEos : Rdi := ⟨[], 0, 0, -1, stZero 0⟩

/-- lib/fuseq.c:2255-2289 `do_readdir`, `do_readdirplus`: the data of the answer. -/
def readdir (d : Dir.Dir) (selfIno upIno : Nat) (plus : Bool) (attr : Nat → St) (size : Nat) (pos : Int) : Buf :=
  (fill (diterPrep size plus)
    ((Dir.offers d selfIno upIno pos).map (rdiOf plus attr) ++ [rdiEos])).buf

end Silofs.Emit
