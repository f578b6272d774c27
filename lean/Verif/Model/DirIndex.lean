/-
Index arithmetic of the directory hash-tree and the encoding of readdir
offsets: lib/dir.c:97-251.

Node indexes, ordinals and depths are natural numbers.  All C values are
`uint64_t`/`uint32_t` far below their range for valid indexes (1 .. 2^24), so no
wrap-around is possible there.
-/
namespace Silofs.Dir

/-- include/silofs/defs.h `SILOFS_DIR_TREE_INDEX_MAX`. -/
def INDEX_MAX : Nat := 16777216

/-- lib/dir.c:107-111 `dtn_index_isvalid`. -/
def indexValid (i : Nat) : Bool := decide (1 ≤ i) && decide (i ≤ INDEX_MAX)

/-- lib/dir.c:113-121 `dtn_index_to_parent` (not called on index 0). -/
def parent (i : Nat) : Nat := if i = 1 then 0 else (i - 2) / 64 + 1

/-- lib/dir.c:123-129 `dtn_index_to_child_ord` (called on indexes ≥ 2). -/
def childOrd (i : Nat) : Nat := i - (parent i - 1) * 64 - 2

/-- lib/dir.c:131-136 `child_dtn_index_of`. -/
def child (p ord : Nat) : Nat := (p - 1) * 64 + ord + 2

/-- lib/dir.c:138-148 `dtn_index_depth`. -/
def depth (i : Nat) : Nat := if _h : i ≤ 1 then 0 else depth (parent i) + 1
termination_by i
decreasing_by
  unfold parent
  split <;> omega

/-- lib/dir.c:155-168 `dtn_index_valid_depth`. -/
def validDepth (i : Nat) : Bool := indexValid i && decide (depth i ≤ 4)

/-- lib/dir.c:170-185 `hash_to_child_ord` for `depth` in 1..4.  Any other depth
fails `silofs_expect_le` and kills the process; callers of this definition
handle that case as the outcome `die`. -/
def hashOrd (hash depth : Nat) : Nat := (hash / 2 ^ (6 * (depth - 1))) % 64

/-- lib/dir.c:185-192 `hash_to_child_dtn_index` for a parent of depth below 4. -/
def hashChild (hash p : Nat) : Nat := child p (hashOrd hash (depth p + 1))

/-- lib/dir.c:196-202 `encode_doffset` + lib/dir.c:213-221 `make_doffset`. -/
def mkDoff (idx slot : Nat) : Nat := (((idx <<< 13) ||| (slot &&& 8191)) <<< 2) ||| 2

/-- lib/dir.c:204-211 `decode_doffset` + lib/dir.c:223-230 `doff_to_dtn_index`. -/
def doffIndex (doff : Nat) : Nat :=
  if (doff >>> 2) >>> 13 ≤ INDEX_MAX then (doff >>> 2) >>> 13 else 0

/-- lib/dir.c:232-239 `doff_to_slot`. -/
def doffSlot (doff : Nat) : Nat := (doff >>> 2) &&& 8191

/-- lib/dir.c:241-251 `dtn_index_to_isize` (`SILOFS_DIR_EMPTY_SIZE` is 1024). -/
def indexToIsize (last : Nat) : Nat := if last = 0 then 1024 else mkDoff (last + 1) 0 / 4 * 4

end Silofs.Dir
