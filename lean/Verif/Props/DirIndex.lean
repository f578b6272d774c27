import Verif.Model.DirIndex
/-
C12: directory tree index arithmetic is a bijection; readdir offsets encode
(node, slot) without loss and order entries lexicographically.
-/
namespace Silofs.Dir

/-- Every non-root index is the child of its parent at its ordinal. -/
theorem C12_child_of_parent (i : Nat) (h : 2 ≤ i) :
    child (parent i) (childOrd i) = i ∧ childOrd i < 64 ∧ 1 ≤ parent i ∧ parent i < i := by
  unfold child childOrd parent
  rw [if_neg (by omega)]
  omega

/-- The child of `p` at ordinal `o` has parent `p` and ordinal `o`. -/
theorem C12_parent_of_child (p o : Nat) (hp : 1 ≤ p) (ho : o < 64) :
    parent (child p o) = p ∧ childOrd (child p o) = o ∧ p < child p o := by
  unfold childOrd parent child
  rw [if_neg (by omega)]
  omega

/-- Distinct (parent, ordinal) pairs have distinct indexes. -/
theorem C12_child_inj (p q o r : Nat) (hp : 1 ≤ p) (hq : 1 ≤ q) (ho : o < 64) (hr : r < 64)
    (h : child p o = child q r) : p = q ∧ o = r := by
  unfold child at h; omega

/-- Depth grows by exactly one from a node to its children. -/
theorem C12_depth_child (p o : Nat) (hp : 1 ≤ p) (ho : o < 64) :
    depth (child p o) = depth p + 1 := by
  have h := C12_parent_of_child p o hp ho
  rw [depth, dif_neg (by omega), h.1]

theorem depth_le_one (i : Nat) (h : i ≤ 1) : depth i = 0 := by rw [depth, dif_pos h]

theorem depth_succ (i : Nat) (h : 2 ≤ i) : depth i = depth (parent i) + 1 := by
  rw [depth, dif_neg (by omega)]

/-- First index of each depth: 1, 2, 66, 4162, 266306, … -/
def firstOfDepth : Nat → Nat
  | 0 => 1
  | d + 1 => (firstOfDepth d - 1) * 64 + 2

theorem firstOfDepth_pos (d : Nat) : 1 ≤ firstOfDepth d := by
  cases d <;> simp [firstOfDepth]

/-- The nodes of one depth are exactly one interval of indexes. -/
theorem C12_depth_interval (d i : Nat) (hi : 1 ≤ i) :
    depth i = d ↔ firstOfDepth d ≤ i ∧ i < firstOfDepth (d + 1) := by
  induction d generalizing i with
  | zero =>
    simp only [firstOfDepth]
    by_cases h : i ≤ 1
    · simp only [depth_le_one i h, true_iff]; omega
    · rw [depth_succ i (by omega)]; simp; omega
  | succ d ih =>
    have hp := firstOfDepth_pos d
    have hp' := firstOfDepth_pos (d + 1)
    by_cases h : i ≤ 1
    · rw [depth_le_one i h]
      simp only [firstOfDepth] at *
      simp; omega
    · rw [depth_succ i (by omega)]
      have h1 := C12_child_of_parent i (by omega)
      have := ih (parent i) h1.2.2.1
      simp only [Nat.add_right_cancel_iff, this]
      unfold parent
      rw [if_neg (by omega)]
      simp only [firstOfDepth] at *
      omega

theorem depth_mono {i j : Nat} (h : i ≤ j) : depth i ≤ depth j := by
  by_cases hi : i ≤ 1
  · rw [depth_le_one i hi]; omega
  · induction j using Nat.strongRecOn generalizing i with
    | _ j ih =>
      rw [depth_succ i (by omega), depth_succ j (by omega)]
      have a := C12_child_of_parent j (by omega)
      by_cases hp : parent i ≤ 1
      · rw [depth_le_one _ hp]; omega
      · have : parent i ≤ parent j := by unfold parent; split <;> split <;> omega
        have := ih (parent j) a.2.2.2 this hp
        omega

/-- Indexes of depth at most 4 are those below 17043522; every valid index is. -/
theorem C12_valid_depth (i : Nat) : validDepth i = true ↔ 1 ≤ i ∧ i ≤ 16777216 := by
  unfold validDepth indexValid INDEX_MAX
  simp only [Bool.and_eq_true, decide_eq_true_eq]
  constructor
  · exact fun h => h.1
  · intro h
    refine ⟨h, ?_⟩
    have a := depth_mono h.2
    have : depth 16777216 = 4 := (C12_depth_interval 4 16777216 (by decide)).2 (by decide)
    omega

/-- Depth-4 nodes start at index 266306. -/
theorem depth_lt_four (i : Nat) : depth i < 4 ↔ i < 266306 := by
  constructor
  · intro h
    by_cases hc : i < 266306
    · exact hc
    · have a := depth_mono (Nat.le_of_not_lt hc)
      have : depth 266306 = 4 := (C12_depth_interval 4 266306 (by decide)).2 (by decide)
      omega
  · intro h
    have a := depth_mono (show i ≤ 266305 by omega)
    have : depth 266305 = 3 := (C12_depth_interval 3 266305 (by decide)).2 (by decide)
    omega

theorem mkDoff_eq (i s : Nat) (hs : s < 8192) : mkDoff i s = (i * 8192 + s) * 4 + 2 := by
  unfold mkDoff
  have e1 : s &&& 8191 = s := by
    rw [show (8191 : Nat) = 2 ^ 13 - 1 from rfl, Nat.and_two_pow_sub_one_eq_mod]
    exact Nat.mod_eq_of_lt hs
  rw [e1, Nat.shiftLeft_eq, Nat.shiftLeft_eq]
  have e2 : i * 2 ^ 13 ||| s = i * 2 ^ 13 + s := by
    rw [Nat.mul_comm, Nat.two_pow_add_eq_or_of_lt (i := 13) hs]
  rw [e2]
  have e3 : (i * 2 ^ 13 + s) * 2 ^ 2 ||| 2 = (i * 2 ^ 13 + s) * 2 ^ 2 + 2 := by
    rw [Nat.mul_comm, Nat.two_pow_add_eq_or_of_lt (i := 2) (by decide)]
  rw [e3]

theorem doffSlot_eq (p : Nat) : doffSlot p = p / 4 % 8192 := by
  unfold doffSlot
  rw [show (8191 : Nat) = 2 ^ 13 - 1 from rfl, Nat.and_two_pow_sub_one_eq_mod,
    Nat.shiftRight_eq_div_pow]

theorem doffIndex_eq (p : Nat) :
    doffIndex p = if p / 32768 ≤ 16777216 then p / 32768 else 0 := by
  unfold doffIndex INDEX_MAX
  simp only [Nat.shiftRight_eq_div_pow, Nat.div_div_eq_div_mul, Nat.reducePow, Nat.reduceMul]

/-- The (node, slot) pair of an entry is recovered from its readdir offset, and
from the "just after it" offset, for every valid node index and slot; the
offset is above the offsets of "." and ".." and is a positive `loff_t`. -/
theorem C12_doff_roundtrip (i s : Nat) (hi : i ≤ 16777216) (hs : s < 8192) :
    doffIndex (mkDoff i s) = i ∧ doffSlot (mkDoff i s) = s ∧
    doffIndex (mkDoff i s + 1) = i ∧ doffSlot (mkDoff i s + 1) = s ∧
    2 ≤ mkDoff i s ∧ mkDoff i s + 1 < 2 ^ 63 := by
  rw [doffIndex_eq, doffIndex_eq, doffSlot_eq, doffSlot_eq, mkDoff_eq i s hs]
  refine ⟨?_, ?_, ?_, ?_, ?_, ?_⟩ <;> (try split) <;> omega

/-- Readdir offsets are ordered lexicographically by (node index, slot); in
particular distinct entries have distinct offsets. -/
theorem C12_doff_order (i s j t : Nat) (hs : s < 8192) (ht : t < 8192) :
    mkDoff i s < mkDoff j t ↔ i < j ∨ (i = j ∧ s < t) := by
  rw [mkDoff_eq i s hs, mkDoff_eq j t ht]; omega

example : parent 266306 = 4162 ∧ childOrd 66 = 0 ∧ child 65 63 = 4161 := by decide
example : doffIndex (mkDoff 266306 479) = 266306 ∧ doffSlot (mkDoff 266306 479) = 479 := by decide

end Silofs.Dir
