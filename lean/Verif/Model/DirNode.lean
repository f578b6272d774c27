import Verif.Model.Bytes
import Verif.Model.Dir
/-
Byte-level directory node: lib/dir.c:255-352 (entries), 431-480, 562-836 (node
data).  `dn_data` (include/silofs/defs.h:866-885) is a union of 480 entries of 16
bytes and a buffer of 7680 bytes: entries grow upwards from its start, names
downwards from its end.

The 7680 bytes are a function from address to byte.  Every access outside of the
buffer, every overlapping `memcpy` and every failed `silofs_expect_*` makes the
operation fail with `none`.
-/
namespace Silofs.Dir

abbrev Mem := Nat → Nat

/-- The `n` bytes at `p`. -/
def rd (m : Mem) (p n : Nat) : List Nat := (List.range n).map fun k => m (p + k)

/-- Store the bytes `l` at `p`. -/
def wr (m : Mem) (p : Nat) (l : List Nat) : Mem :=
  fun a => if p ≤ a ∧ a < p + l.length then l.getD (a - p) 0 else m a

/-- `struct silofs_dir_entry`, decoded (include/silofs/defs.h:858-863): inode,
hash and type, name length, name position. -/
structure De where
  ino : Nat
  hd : Nat
  len : Nat
  pos : Nat
  deriving Repr, DecidableEq

/-- Load entry `s`. -/
def getDe (m : Mem) (s : Nat) : De :=
  ⟨leVal (rd m (16 * s) 8), leVal (rd m (16 * s + 8) 4), leVal (rd m (16 * s + 12) 2),
   leVal (rd m (16 * s + 14) 2)⟩

/-- lib/dir.c:341-348 `de_assign_meta` (fields are truncated to their width). -/
def putDe (m : Mem) (s : Nat) (e : De) : Mem :=
  wr m (16 * s) (leBytes 8 e.ino ++ leBytes 4 e.hd ++ leBytes 2 e.len ++ leBytes 2 e.pos)

/-- lib/dir.c:350-353 `de_isactive`. -/
def De.active (e : De) : Bool := decide (0 < e.ino) && decide (0 < e.len)

/-- lib/dir.c:290-298 `de_set_name_hash_dt`: 24 bits of hash, type above. -/
def packHd (hash dt : Nat) : Nat := dt % 256 * 16777216 + hash % 16777216

/-- Node data with `dn_nde` and `dn_nnb`. -/
structure BNode where
  mem : Mem
  nde : Nat
  nnb : Nat

/-- lib/dir.c:535-548 `dtn_setup`: the data is zeroed. -/
def BNode.empty : BNode := ⟨fun _ => 0, 0, 0⟩

/-- lib/dir.c:574-581 `dtn_name_at`: expectations on a position. -/
def nameAtOk (pos : Nat) : Bool := decide (0 < pos) && decide (pos ≤ 7680)

/-- lib/dir.c:592-622: `dtn_search` over the slots `k`, …, `k + fuel - 1`. -/
def bsearchFrom (m : Mem) (hash : Nat) (name : Name) : Nat → Nat → Option (Option Nat)
  | 0, _ => some none
  | f + 1, k =>
    let e := getDe m k
    if e.active && e.hd % 16777216 == hash % 16777216 && e.len == name.length then
      if nameAtOk e.pos && decide (e.pos + name.length ≤ 7680) then
        if rd m e.pos name.length == name then some (some k)
        else bsearchFrom m hash name f (k + 1)
      else none
    else bsearchFrom m hash name f (k + 1)

def BNode.search (b : BNode) (hash : Nat) (name : Name) : Option (Option Nat) :=
  bsearchFrom b.mem hash name b.nde 0

/-- lib/dir.c:464-467, 675-683 `dtn_data_used`, `dtn_may_insert`. -/
def BNode.mayInsert (b : BNode) (nlen : Nat) : Bool := decide (16 + nlen + (b.nnb + b.nde * 16) ≤ 7680)

/-- lib/dir.c:719-732 `dtn_resolve_insert_de`. -/
def insertSlot (m : Mem) : Nat → Nat → Nat
  | 0, k => k
  | f + 1, k => if (getDe m k).active then insertSlot m f (k + 1) else k

/-- lib/dir.c:693-735 `dtn_insert_name_pos`, `dtn_insert`. -/
def BNode.insert (b : BNode) (hash : Nat) (name : Name) (ino dt : Nat) : Option BNode :=
  if b.nnb + name.length < 7680 then
    let pos := 7680 - (b.nnb + name.length)
    let s := insertSlot b.mem b.nde 0
    if 16 * s + 16 ≤ 7680 then
      let m1 := putDe b.mem s ⟨ino, packHd hash dt, name.length, pos⟩
      -- dtn_de_assing_name: position is read back from the entry
      let p := (getDe m1 s).pos
      if nameAtOk p && decide (p + name.length ≤ 7680) then
        some ⟨wr m1 p name, if s = b.nde then b.nde + 1 else b.nde, b.nnb + name.length⟩
      else none
    else none
  else none

/-- lib/dir.c:751-770 `dtn_punch_name_at`: result memory and whether bytes were
moved. -/
def punch (b : BNode) (pos len : Nat) : Option (Mem × Bool) :=
  let beg := 7680 - b.nnb
  if nameAtOk beg && nameAtOk pos then
    if beg < pos then
      let mv := pos - beg
      if pos + len ≤ 7680 then
        if mv ≤ len then
          -- memcpy: source [beg, beg+mv), destination [pos + (len - mv), …)
          if beg + mv ≤ pos + (len - mv) then
            some (wr b.mem (pos + (len - mv)) (rd b.mem beg mv), true)
          else none
        else some (wr b.mem (pos + len - mv) (rd b.mem beg mv), true)
      else none
    else some (b.mem, false)
  else none

/-- lib/dir.c:792-810 `dtn_remove_fixup` over slots `k`, …, `k + f - 1`. -/
def fixup (m : Mem) (ref len : Nat) : Nat → Nat → Mem
  | 0, _ => m
  | f + 1, k =>
    let e := getDe m k
    if e.active && decide (e.pos < ref) then
      fixup (wr m (16 * k + 14) (leBytes 2 (e.pos + len))) ref len f (k + 1)
    else fixup m ref len f (k + 1)

/-- lib/dir.c:812-828 `dtn_trim_nonactive_des`: the new number of entries. -/
def trimNde (m : Mem) : Nat → Nat
  | 0 => 0
  | n + 1 => if (getDe m n).active then n + 1 else trimNde m n

/-- lib/dir.c:350-356, 821-836 `dtn_remove` of the entry at slot `s`. -/
def BNode.remove (b : BNode) (s : Nat) : Option BNode :=
  let e := getDe b.mem s
  match punch b e.pos e.len with
  | none => none
  | some (m1, punched) =>
    let m2 := putDe m1 s ⟨0, 0, 0, 0⟩
    let m3 := if punched then fixup m2 e.pos e.len b.nde 0 else m2
    some ⟨m3, trimNde m3 b.nde, b.nnb - e.len⟩

end Silofs.Dir
