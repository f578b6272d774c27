import Verif.Model.DirNode
import Verif.Model.Xattr
import Verif.Model.FileMap
import Verif.Model.Space
import Verif.Model.Namei
import Verif.Model.Inode
/-
Verification of stored objects when they are loaded: lib/lnodes.c:1290-1325 `view_verify_sub` and the functions
it calls for directory nodes (lib/dir.c:362-386, 876-902, 2817-2880), nodes of extended attributes
(lib/xattr.c:266-303, 395-398, 1322-1335), nodes of the tree of a file (lib/file.c:4729-4764), leaves of the
space map (lib/spmaps.c:1735-1795) and inodes (lib/inode.c:1412-1493).

`none` is an access outside of the object or a failed `silofs_expect_*`; `some true` is success and `some false`
is `-EFSCORRUPTED`.

Simplifications: the header of an object (magic, type, size, checksum) is in Meta.lean; addresses of children
and parents are not modelled (their encoding is in Vrange.lean and Addr.lean).
-/
namespace Silofs.Dir

/-- lib/dir.c:67-89 `dttoif`: the types whose mode bits are not zero. -/
def dtOk (dt : Nat) : Bool :=
  dt == 1 || dt == 2 || dt == 4 || dt == 6 || dt == 8 || dt == 10 || dt == 12 || dt == 14

/-- lib/dir.c:363-387 `de_isvalid`. -/
def De.valid (e : De) : Bool :=
  decide (0 < e.ino) && dtOk (e.hd / 16777216 % 256) && decide (0 < e.len) && decide (e.len ≤ 511) &&
    decide (0 < e.pos) && decide (e.pos < 7680)

/-- lib/dir.c:876-888 `dtn_verify_des` over the slots `k`, …, `k + f - 1`. -/
def verifyDes (m : Mem) : Nat → Nat → Option Bool
  | 0, _ => some true
  | f + 1, k =>
    if 16 * k + 16 ≤ 7680 then
      if (getDe m k).active && !(getDe m k).valid then some false else verifyDes m f (k + 1)
    else none

/-- lib/dir.c:893-897: a byte of a name is neither zero nor a slash. -/
def chrOk (c : Nat) : Bool := c != 0 && c != 47

/-- lib/dir.c:582-593, 890-902 `dtn_names_beg`, `dtn_verify_names`. -/
def BNode.verifyNames (b : BNode) : Option Bool :=
  if nameAtOk (7680 - b.nnb) then some ((rd b.mem (7680 - b.nnb) b.nnb).all chrOk) else none

/-- lib/dir.c:2857-2882 `silofs_verify_dtree_node`: inode, parent's offset (-1 is the null offset), index, and
the data. -/
def BNode.verify (b : BNode) (ino : Nat) (parent : Int) (index : Nat) : Option Bool :=
  if ino = 0 then some false
  else if ¬ (parent = -1 ∨ 0 ≤ parent) then some false
  else if ¬ (1 ≤ index ∧ index ≤ 16777216) then some false
  else match verifyDes b.mem b.nde 0 with
    | some true => b.verifyNames
    | r => r

end Silofs.Dir

namespace Silofs.Xattr

/-- lib/xattr.c:266-280 `xe_verify`. -/
def entOk (buf : Nat → Nat) (u : Nat) : Bool :=
  decide (0 < nameLen buf u) && decide (nameLen buf u ≤ 511) && decide (valSize buf u ≤ valueMax)

/-- lib/xattr.c:282-302 `xe_verify_range` from unit 0 to `tip`, at unit `u`.  The number of units of an entry is
compared with the distance of `tip` from the beginning of the range, not from the entry. -/
def verifyRange (buf : Nat → Nat) (tip u : Nat) : Option Bool :=
  if u < tip then
    if u < nentsMax then
      if entOk buf u then
        if 0 + entUnits buf u > tip then some false else verifyRange buf tip (u + entUnits buf u)
      else some false
    else none
  else some true
termination_by tip - u
decreasing_by
  have : 1 ≤ entUnits buf u := by unfold entUnits units; omega
  omega

/-- lib/xattr.c:395-398, 1322-1335 `xan_verify`, `silofs_verify_xattr_node`. -/
def Node.verify (n : Node) (ino : Nat) : Option Bool :=
  if ino = 0 then some false else verifyRange n.buf n.nents 0

/-- lib/xattr.c:226-238 `xe_search` with its accesses: the length of the name of every entry met is read, and
where it is the same as the one looked for also the name. -/
def searchIn (buf : Nat → Nat) (name : Bytes) (u tip : Nat) : Option (Option Nat) :=
  if u < tip then
    if u < nentsMax then
      if name.length = nameLen buf u then
        if 8 * u + 8 + name.length ≤ 8 * nentsMax then
          if bytesAt buf (8 * u + 8) name.length == name then some (some u)
          else searchIn buf name (u + entUnits buf u) tip
        else none
      else searchIn buf name (u + entUnits buf u) tip
    else none
  else some none
termination_by tip - u
decreasing_by
  all_goals
    have : 1 ≤ entUnits buf u := by unfold entUnits units; omega
    omega

/-- lib/xattr.c:220-224 `xe_copy_value` with its access: the value of the entry at unit `u`. -/
def valueIn (buf : Nat → Nat) (u : Nat) : Option Bytes :=
  if 8 * u + 8 + up8 (nameLen buf u) + valSize buf u ≤ 8 * nentsMax then some (valueOf buf u) else none

end Silofs.Xattr

namespace Silofs.File

/-- `struct silofs_ftree_node` without its children; the type of children is true for data blocks. -/
structure FNode where
  ino : Nat
  beg : Int
  end_ : Int
  height : Nat
  bk : Bool
  deriving DecidableEq, Repr

/-- lib/file.c:590-597, 641-651 `ftn_calc_range`, `ftn_init_by`. -/
def FNode.init (ino off height : Nat) : FNode where
  ino := ino
  beg := (offAlign off (spanOf height) : Nat)
  end_ := (offAlign off (spanOf height) + spanOf height : Nat)
  height := height
  bk := decide (height ≤ 2)

/-- lib/file.c:4729-4764 `silofs_verify_ftree_node`.  The last check is `ftn_isbottom` (256-263), which expects a
height of 5 at most. -/
def FNode.verify (n : FNode) : Option Bool :=
  if n.ino = 0 then some false
  else if n.beg < 0 ∨ n.end_ < 0 then some false
  else if n.end_ ≤ n.beg then some false
  else if n.height ≤ 1 ∨ 7 < n.height then some false
  else if n.end_ - n.beg ≠ (spanOf n.height : Nat) then some false
  else if n.bk ≠ decide (n.height ≤ 2) then some false
  else if n.height ≤ 5 then some (decide (¬ (n.height ≤ 2 ∧ n.bk = false))) else none

/-- lib/file.c:475-497 `ftn_slot_by_file_pos` of a node as loaded. -/
def FNode.slotOf (n : FNode) (off : Nat) : Nat := slotBy n.beg.toNat (n.end_ - n.beg).toNat off

end Silofs.File

namespace Silofs.Space

/-- lib/spmaps.c:1735-1744 `verify_bk_ref`. -/
def Bkr.verify (b : Bkr) : Bool := decide (¬ 2147483647 ≤ b.dbkref)

/-- lib/spmaps.c:1774-1795 `silofs_verify_spmap_leaf`: the 256 blocks of leaf `k`. -/
def VSpace.verifyLeaf (v : VSpace) (k : Nat) : Bool := (List.range 256).all fun i => (v.bk (256 * k + i)).verify

end Silofs.Space

namespace Silofs.Ns

/-- lib/inode.c:1419-1450 `verify_inode_head`: number, size, links and mode of an inode. -/
def verifyHead (ino : Nat) (size : Int) (nlink mode : Nat) : Bool :=
  decide (ino ≠ 0) && decide (¬ (size < 0 ∨ size > (2 ^ 63 - 1) / 2)) && decide (¬ nlink > LINK_MAX) &&
    decide (mode &&& Silofs.Attr.sIFMT ≠ 0)

/-- lib/dir.c:2767-2777 `dinode_verify_ndends`, together with the root (2733-2765): entries, and whether root and
last index are both there or both missing, `last` being the last index. -/
def verifyDirInode (ndents : Nat) (root : Bool) (last : Nat) : Bool :=
  (if root then decide (1 ≤ last ∧ last ≤ 16777216) else decide (last = 0)) &&
    decide (¬ ndents > DIR_ENTRIES_MAX)

end Silofs.Ns
