/-
C06: the offset-to-leaf mapping of files is a partition and the radix-tree
path of an offset is well defined at every height.
C07: request checks.
-/
import Verif.Model.FileMap

set_option linter.unusedSimpArgs false
set_option linter.unusedVariables false

namespace Silofs.File

/-! ### Specification: the leaves of a file and what they cover -/

/-- The leaves a file may have: four of 1K, fifteen of 4K, then 64K ones; only
64K ones for type 2. -/
def Key.Valid (ft2 : Bool) : Key → Prop
  | .h1 s => ft2 = false ∧ s < 4
  | .h2 s => ft2 = false ∧ s < 15
  | .tr i => ft2 = true ∨ 1 ≤ i

/-- First byte of a leaf. -/
def Key.lo : Key → Nat
  | .h1 s => 1024 * s
  | .h2 s => 4096 + 4096 * s
  | .tr i => 65536 * i

/-- The bytes a leaf covers. -/
def Key.Covers (k : Key) (off : Nat) : Prop := k.lo ≤ off ∧ off < k.lo + k.size

theorem Key.size_pos (k : Key) : 0 < k.size := by cases k <;> simp [Key.size]

theorem keyOf_cases (ft2 : Bool) (off : Nat) :
    (ft2 = false ∧ off < 4096 ∧ keyOf ft2 off = .h1 (off / 1024)) ∨
    (ft2 = false ∧ 4096 ≤ off ∧ off < 65536 ∧ keyOf ft2 off = .h2 ((off - 4096) / 4096)) ∨
    ((ft2 = true ∨ 65536 ≤ off) ∧ keyOf ft2 off = .tr (off / 65536)) := by
  unfold keyOf isHead1 isHead2 head1Slot head2Slot
  cases ft2
  · by_cases h1 : off < 4096
    · left; simp [h1]
    · by_cases h2 : off < 65536
      · right; left
        have : 4096 ≤ off := by omega
        simp [h1, h2, this]
      · right; right
        have : 65536 ≤ off := by omega
        simp [h1, h2, this]
  · right; right; simp

/-- C06: every offset is covered by a leaf of the file, and by only one. -/
theorem C06_one_leaf (ft2 : Bool) (off : Nat) :
    (keyOf ft2 off).Valid ft2 ∧ (keyOf ft2 off).Covers off ∧
    ∀ k : Key, k.Valid ft2 → k.Covers off → k = keyOf ft2 off := by
  rcases keyOf_cases ft2 off with ⟨hf, h1, hk⟩ | ⟨hf, h1, h2, hk⟩ | ⟨hf, hk⟩
  · rw [hk]
    refine ⟨⟨hf, by omega⟩, ⟨by simp only [Key.lo]; omega, by simp only [Key.lo, Key.size]; omega⟩, ?_⟩
    rintro (s | s | i) hv ⟨ha, hb⟩ <;> simp only [Key.Valid, Key.lo, Key.size] at hv ha hb
    · congr 1; omega
    · omega
    · rw [hf] at hv; simp at hv; omega
  · rw [hk]
    refine ⟨⟨hf, by omega⟩, ⟨by simp only [Key.lo]; omega, by simp only [Key.lo, Key.size]; omega⟩, ?_⟩
    rintro (s | s | i) hv ⟨ha, hb⟩ <;> simp only [Key.Valid, Key.lo, Key.size] at hv ha hb
    · omega
    · congr 1; omega
    · rw [hf] at hv; simp at hv; omega
  · rw [hk]
    refine ⟨?_, ⟨by simp only [Key.lo]; omega, by simp only [Key.lo, Key.size]; omega⟩, ?_⟩
    · simp only [Key.Valid]
      rcases hf with h | h
      · exact .inl h
      · right; omega
    · rintro (s | s | i) hv ⟨ha, hb⟩ <;> simp only [Key.Valid, Key.lo, Key.size] at hv ha hb
      · rcases hf with h | h
        · rw [h] at hv; simp at hv
        · omega
      · rcases hf with h | h
        · rw [h] at hv; simp at hv
        · omega
      · congr 1; omega

example : keyOf false 4096 = .h2 0 ∧ keyOf false 4095 = .h1 3 ∧ keyOf false 65536 = .tr 1 ∧
    keyOf true 4095 = .tr 0 := by decide

/-- C06: two offsets get the same leaf exactly when they lie in the same
aligned leaf-size interval. -/
theorem C06_same_leaf (ft2 : Bool) (p q : Nat) :
    keyOf ft2 q = keyOf ft2 p ↔ q / (keyOf ft2 p).size = p / (keyOf ft2 p).size := by
  constructor
  · intro h
    have hp := (C06_one_leaf ft2 p).2.1
    have hq := (C06_one_leaf ft2 q).2.1
    rw [h] at hq
    rcases keyOf_cases ft2 p with ⟨hf, h1, hk⟩ | ⟨hf, h1, h2, hk⟩ | ⟨hf, hk⟩ <;>
      rw [hk] at hp hq ⊢ <;> simp only [Key.Covers, Key.lo, Key.size] at * <;> omega
  · intro h
    have hv := (C06_one_leaf ft2 p).1
    have hp := (C06_one_leaf ft2 p).2.1
    refine ((C06_one_leaf ft2 q).2.2 _ hv ?_).symm
    rcases keyOf_cases ft2 p with ⟨hf, h1, hk⟩ | ⟨hf, h1, h2, hk⟩ | ⟨hf, hk⟩ <;>
      rw [hk] at hp h ⊢ <;> simp only [Key.Covers, Key.lo, Key.size] at * <;> omega

theorem keyOf_base (ft2 : Bool) (p : Nat) :
    p % (keyOf ft2 p).size = p - (keyOf ft2 p).lo := by
  have hp := (C06_one_leaf ft2 p).2.1
  rcases keyOf_cases ft2 p with ⟨hf, h1, hk⟩ | ⟨hf, h1, h2, hk⟩ | ⟨hf, hk⟩ <;>
    rw [hk] at hp ⊢ <;> simp only [Key.Covers, Key.lo, Key.size] at * <;> omega

/-! ### Radix tree -/

/-- Bytes under one node of height `h`; a 64K leaf counts as height 1. -/
def cover (h : Nat) : Nat := 65536 * 1024 ^ (h - 1)

theorem cover_one : cover 1 = 65536 := rfl

theorem cover_succ {h : Nat} (hh : 1 ≤ h) : cover (h + 1) = 1024 * cover h := by
  unfold cover
  obtain ⟨m, rfl⟩ : ∃ m, h = m + 1 := ⟨h - 1, by omega⟩
  simp only [Nat.add_sub_cancel]
  rw [Nat.pow_succ]
  generalize 1024 ^ m = x
  omega

theorem cover_pos (h : Nat) : 0 < cover h := by
  unfold cover
  exact Nat.mul_pos (by omega) (Nat.pow_pos (by omega))

theorem cover_dvd (h : Nat) : ∃ t, cover h = 65536 * t ∧ 0 < t :=
  ⟨1024 ^ (h - 1), rfl, Nat.pow_pos (by omega)⟩

theorem spanOf_cover {h : Nat} (h2 : 2 ≤ h) (h5 : h ≤ 5) : spanOf h = cover h := by
  have : h = 2 ∨ h = 3 ∨ h = 4 ∨ h = 5 := by omega
  rcases this with rfl | rfl | rfl | rfl <;> decide

/-- C06: at every height the slot computed for an offset inside a node is one
of the node's 1024 slots and leads to the node (or leaf) that covers it. -/
theorem C06_slot {h i off : Nat} (h2 : 2 ≤ h) (h5 : h ≤ 5) (hin : off / cover h = i) :
    nodeSlot h i off < 1024 ∧ childIdx i (nodeSlot h i off) = off / cover (h - 1) := by
  have hs := spanOf_cover h2 h5
  obtain ⟨t, ht, htp⟩ := cover_dvd (h - 1)
  have hc : cover h = 1024 * cover (h - 1) := by
    have := cover_succ (h := h - 1) (by omega)
    rwa [show h - 1 + 1 = h by omega] at this
  have hpos := cover_pos (h - 1)
  unfold nodeSlot childIdx slotBy
  rw [hs]
  generalize cover h = C at *
  generalize cover (h - 1) = c at *
  subst hc
  have hlo : i * (1024 * c) ≤ off := by
    rw [← hin]; exact Nat.div_mul_le_self _ _
  have hhi : off < i * (1024 * c) + 1024 * c := by
    have := Nat.lt_div_mul_add (a := off) (b := 1024 * c) (by omega)
    rwa [hin] at this
  have e1 : 1024 * c / 1024 = c := Nat.mul_div_cancel_left _ (by omega)
  rw [e1]
  obtain ⟨r, hr⟩ : ∃ r, off = i * (1024 * c) + r := ⟨off - i * (1024 * c), by omega⟩
  have e2 : off - i * (1024 * c) = r := by omega
  rw [e2]
  have e3 : r / 1024 * 1024 / c = r / c := by
    subst ht
    have : (65536 * t) = 1024 * (64 * t) := by omega
    rw [this, ← Nat.div_div_eq_div_mul, Nat.mul_div_cancel _ (by omega : 0 < 1024),
      Nat.div_div_eq_div_mul]
  rw [e3]
  constructor
  · exact Nat.div_lt_of_lt_mul (by rw [Nat.mul_comm]; omega)
  · subst hr
    have : i * (1024 * c) + r = r + c * (i * 1024) := by
      rw [Nat.add_comm, Nat.mul_comm c, Nat.mul_assoc]
    rw [this, Nat.add_mul_div_left _ _ hpos]; omega

example : nodeSlot 3 0 (2 ^ 26 * 5 + 7) = 5 ∧ nodeSlot 2 5 (2 ^ 26 * 5 + 3 * 65536) = 3 := by
  decide

theorem heightLoop_spec : ∀ (fuel x : Nat), x ≤ fuel →
    x < 1024 ^ heightLoop fuel x ∧
    (0 < heightLoop fuel x → 1024 ^ (heightLoop fuel x - 1) ≤ x)
  | 0, x, hx => by
    have : x = 0 := by omega
    subst this; simp [heightLoop]
  | fuel + 1, x, hx => by
    unfold heightLoop
    by_cases h0 : 0 < x
    · rw [if_pos h0]
      have ih := heightLoop_spec fuel (x / 1024) (by omega)
      generalize heightLoop fuel (x / 1024) = k at *
      refine ⟨?_, fun _ => ?_⟩
      · rw [Nat.add_comm, Nat.pow_succ]
        have := ih.1
        omega
      · rw [Nat.add_sub_cancel_left]
        rcases Nat.eq_zero_or_pos k with hk | hk
        · subst hk; simp; omega
        · have := ih.2 hk
          obtain ⟨m, rfl⟩ : ∃ m, k = m + 1 := ⟨k - 1, by omega⟩
          rw [Nat.add_sub_cancel] at this
          rw [Nat.pow_succ]; omega
    · rw [if_neg h0]; simp; omega

/-- C06: the height chosen for an offset is the least height whose root node
covers it, and it is within the supported heights for every legal offset. -/
theorem C06_height {off : Nat} (ho : off ≤ sizeMax) :
    2 ≤ treeHeight off ∧ treeHeight off ≤ 5 ∧ off < cover (treeHeight off) ∧
    (2 < treeHeight off → cover (treeHeight off - 1) ≤ off) := by
  unfold treeHeight sizeMax at *
  by_cases h1 : 65536 < off
  · rw [if_pos h1]
    have hsp := heightLoop_spec (off / 65536 / 1024) (off / 65536 / 1024) (Nat.le_refl _)
    generalize hk : heightLoop (off / 65536 / 1024) (off / 65536 / 1024) = k at *
    have hk3 : k ≤ 3 := by
      rcases Nat.lt_or_ge 3 k with h | h
      · exfalso
        have := hsp.2 (by omega)
        have h4 : 1024 ^ 3 ≤ 1024 ^ (k - 1) := Nat.pow_le_pow_right (by omega) (by omega)
        omega
      · exact h
    have : k = 0 ∨ k = 1 ∨ k = 2 ∨ k = 3 := by omega
    refine ⟨by omega, by omega, ?_, ?_⟩
    · have := hsp.1
      unfold cover
      have e : 2 + k - 1 = k + 1 := by omega
      rw [e, Nat.pow_succ]; omega
    · intro hk'
      have := hsp.2 (by omega)
      unfold cover
      obtain ⟨m, rfl⟩ : ∃ m, k = m + 1 := ⟨k - 1, by omega⟩
      rw [Nat.add_sub_cancel] at this
      have e : 2 + (m + 1) - 1 - 1 = m + 1 := by omega
      rw [e, Nat.pow_succ]; omega
  · rw [if_neg h1]
    refine ⟨by omega, by omega, ?_, by omega⟩
    have : cover 2 = 67108864 := by decide
    omega

example : treeHeight (2 ^ 26 - 1) = 2 ∧ treeHeight (2 ^ 26) = 3 ∧ treeHeight sizeMax = 5 := by
  decide +kernel

/-- Slots visited from node `i` of height `h` down to the leaf (the loops of
file.c:1828-1834 and 2488-2502). -/
def path : Nat → Nat → Nat → List Nat
  | 0, _, _ => []
  | 1, _, _ => []
  | h + 2, i, off =>
    nodeSlot (h + 2) i off :: path (h + 1) (childIdx i (nodeSlot (h + 2) i off)) off

theorem div_cover_succ {h off : Nat} (hh : 1 ≤ h) : off / cover h / 1024 = off / cover (h + 1) := by
  rw [cover_succ hh, Nat.div_div_eq_div_mul, Nat.mul_comm]

/-- C06: two offsets below the same node have the same path exactly when they
lie in the same 64K leaf. -/
theorem C06_path {p q : Nat} : ∀ {h i : Nat}, h ≤ 5 → 1 ≤ h → p / cover h = i → q / cover h = i →
    (path h i p = path h i q ↔ p / 65536 = q / 65536)
  | 0, _, _, h1, _, _ => by omega
  | 1, i, _, _, hp, hq => by
    rw [cover_one] at hp hq
    simp [path, hp, hq]
  | h + 2, i, h5, _, hp, hq => by
    unfold path
    have sp := C06_slot (by omega) h5 hp
    have sq := C06_slot (by omega) h5 hq
    rw [show h + 2 - 1 = h + 1 by omega] at sp sq
    constructor
    · intro he
      simp only [List.cons.injEq] at he
      have e1 : p / cover (h + 1) = q / cover (h + 1) := by
        rw [← sp.2, ← sq.2, he.1]
      rw [sp.2, sq.2] at he
      refine (C06_path (h := h + 1) (i := p / cover (h + 1)) (by omega) (by omega) rfl e1.symm).1 ?_
      rw [he.2, e1]
    · intro he
      have e1 : p / cover (h + 1) = q / cover (h + 1) := by
        have : cover (h + 1) = 65536 * 1024 ^ h := rfl
        rw [this, ← Nat.div_div_eq_div_mul, ← Nat.div_div_eq_div_mul, he]
      have e2 : nodeSlot (h + 2) i p = nodeSlot (h + 2) i q := by
        have : childIdx i (nodeSlot (h + 2) i p) = childIdx i (nodeSlot (h + 2) i q) := by
          rw [sp.2, sq.2, e1]
        unfold childIdx at this; omega
      rw [e2, sq.2]
      congr 1
      rw [← e1]
      exact (C06_path (h := h + 1) (i := p / cover (h + 1)) (by omega) (by omega) rfl e1.symm).2 he

/-- C06: when the tree grows by a level (old root in slot 0 of the new one),
the path of an already covered offset only gets a leading 0. -/
theorem C06_grow {h off : Nat} (h1 : 1 ≤ h) (h4 : h ≤ 4) (hc : off < cover h) :
    path (h + 1) 0 off = 0 :: path h 0 off := by
  obtain ⟨m, rfl⟩ : ∃ m, h = m + 1 := ⟨h - 1, by omega⟩
  have hlt : off < cover (m + 2) := by
    have : cover (m + 2) = 1024 * cover (m + 1) := cover_succ (h := m + 1) (by omega)
    omega
  have s := C06_slot (h := m + 2) (i := 0) (off := off) (by omega) (by omega)
    (Nat.div_eq_of_lt hlt)
  have e : childIdx 0 (nodeSlot (m + 2) 0 off) = 0 := by
    rw [s.2]; exact Nat.div_eq_of_lt hc
  have e0 : nodeSlot (m + 2) 0 off = 0 := by
    unfold childIdx at e; omega
  show nodeSlot (m + 2) 0 off :: path (m + 1) (childIdx 0 (nodeSlot (m + 2) 0 off)) off = _
  rw [e, e0]

/-- C06: the slot used when a leaf is unmapped (`off_to_leaf_slot`) is the slot
used when it was mapped (`ftn_slot_by_file_pos` of the bottom node). -/
theorem C06_leaf_slot {i off : Nat} (hin : off / cover 2 = i) : leafSlot off = nodeSlot 2 i off := by
  have s := C06_slot (h := 2) (by omega) (by omega) hin
  have hc : cover 2 = 67108864 := by decide
  rw [show (2 : Nat) - 1 = 1 from rfl, cover_one] at s
  unfold leafSlot
  unfold childIdx at s
  omega

/-- C06: the tree always has room for an offset: descending the path of `off`
ends in leaf `off / 65536`. -/
theorem C06_path_leaf {off : Nat} : ∀ {h i : Nat}, h ≤ 5 → 1 ≤ h → off / cover h = i →
    (path h i off).length = h - 1 ∧ (∀ s ∈ path h i off, s < 1024) ∧
    (path h i off).foldl childIdx i = off / 65536
  | 0, _, _, h1, _ => by omega
  | 1, i, _, _, hp => by
    rw [cover_one] at hp
    simp [path, hp]
  | h + 2, i, h5, _, hp => by
    unfold path
    have sp := C06_slot (by omega) h5 hp
    rw [show h + 2 - 1 = h + 1 by omega] at sp
    rw [sp.2]
    have ih := C06_path_leaf (off := off) (h := h + 1) (i := off / cover (h + 1))
      (by omega) (by omega) rfl
    refine ⟨?_, ?_, ?_⟩
    · rw [List.length_cons, ih.1]; omega
    · intro s hs
      rcases List.mem_cons.1 hs with rfl | hs
      · exact sp.1
      · exact ih.2.1 s hs
    · rw [List.foldl_cons, sp.2]; exact ih.2.2

example : path 5 0 (2 ^ 46 * 3 + 2 ^ 36 * 5 + 2 ^ 26 * 7 + 65536 * 9 + 1) = [3, 5, 7, 9] := by
  decide +kernel

/-! ### Leaf-level lengths -/

theorem offAlign_le (off len : Nat) : offAlign off len ≤ off := Nat.div_mul_le_self _ _

theorem offNext_eq (off : Nat) {len : Nat} (h : 0 < len) : offNext off len = off - off % len + len := by
  unfold offNext offAlign
  have h1 := Nat.div_add_mod (off + len) len
  have h2 := Nat.div_add_mod off len
  rw [Nat.add_div_right _ h, Nat.add_one_mul]
  have : off / len * len = off - off % len := by
    rw [Nat.mul_comm]; omega
  omega

theorem offAlign_eq (off len : Nat) : offAlign off len = off - off % len := by
  unfold offAlign
  have h2 := Nat.div_add_mod off len
  rw [Nat.mul_comm]; omega

/-! ### C07: request checks -/

theorem toSigned_small {n : Nat} (h : n < 2 ^ 63) : toSigned n = (n : Int) := by
  unfold toSigned; rw [if_pos h]

/-- A 64-bit offset. -/
def Off64 (x : Int) : Prop := -(2 ^ 63) ≤ x ∧ x < 2 ^ 63

/-- C07: a read is accepted exactly when its offset is in the file range and its
length is within the I/O limit. -/
theorem C07_read {off size : Int} {len : Nat} (hl : len < 2 ^ 64) :
    checkFileIo (rwReq .read off len size) = none ↔
      0 ≤ off ∧ off ≤ sizeMax ∧ len ≤ ioSizeMax := by
  unfold checkFileIo checkIoRange rwReq ioSizeMax sizeMax toSigned
  simp
  grind

/-- C07: a write is accepted exactly when it stays within the maximal file size
and its length is within the I/O limit. -/
theorem C07_write {off size : Int} {len : Nat} (ho : Off64 off) (hl : len < 2 ^ 64) :
    checkFileIo (rwReq .write off len size) = none ↔
      0 ≤ off ∧ off + len ≤ sizeMax ∧ len ≤ ioSizeMax := by
  unfold checkFileIo checkIoRange rwReq checkIoEnd ioSizeMax sizeMax toSigned
  unfold Off64 at ho
  simp
  grind

/-- C07: a fallocate (`off` and `len` are signed) is accepted by the range check
exactly when both are non-negative and the range ends within the maximal size. -/
theorem C07_falloc {off len size : Int} (ho : Off64 off) (hl : Off64 len) :
    checkFileIo (fallocReq off len size) = none ↔
      0 ≤ off ∧ 0 ≤ len ∧ off + len ≤ sizeMax := by
  unfold checkFileIo checkIoRange fallocReq checkIoEnd sizeMax toSigned
  unfold Off64 at ho hl
  simp
  grind

/-- C07: a truncate is accepted exactly for sizes within the limit, on an open
or closed file (`len` is the distance to the end of the mapped span). -/
theorem C07_trunc {off span size : Int} {nopen : Bool} (ho : Off64 off) (hs : 0 ≤ span ∧ span ≤ sizeMax) :
    checkFileIo (truncReq off span size nopen) = none ↔
      0 ≤ off ∧ off ≤ sizeMax := by
  unfold checkFileIo truncReq checkIoRange sizeMax toSigned
  unfold Off64 at ho
  unfold sizeMax at hs
  simp
  grind

/-- C07: SEEK_DATA/SEEK_HOLE is accepted exactly for offsets inside the file. -/
theorem C07_seek {off size : Int} (hs : size ≤ sizeMax) :
    checkFileIo (seekReq off size) = none ↔ 0 ≤ off ∧ off < size := by
  unfold checkFileIo seekReq checkIoRange checkSeekPos sizeMax toSigned
  unfold sizeMax at hs
  simp
  grind

/-- C07: each side of a range copy is accepted exactly when the offset is in the
file range, the length is not negative as `ssize_t` and either the offset is
block aligned or the length is within the I/O limit.  The *end* of the range is
not looked at, see `C07_copy_end_violated`. -/
theorem C07_copy {off end_ size : Int} {len flags : Nat} (hl : len < 2 ^ 64) :
    checkFileIo (copyReq off len end_ size flags) = none ↔
      flags = 0 ∧ 0 ≤ off ∧ off ≤ sizeMax ∧ len ≤ sizeMax ∧
      (off % 65536 = 0 ∨ len ≤ ioSizeMax) := by
  unfold checkFileIo copyReq checkIoRange sizeMax ioSizeMax toSigned
  simp
  grind

/-- C07 does not hold for the destination of a range copy: a request whose end
lies beyond the maximal file size passes the checks (file.c:1315-1320 covers
only OP_WRITE and OP_FALLOC), and the tree height computed for offsets there is
beyond the supported maximum. -/
theorem C07_copy_end_violated :
    checkFileIo (copyReq (2 ^ 56 - 65536) 131072 (2 ^ 56 + 65536) 0 0) = none ∧
    ((2 ^ 56 + 65536 : Int) > sizeMax) ∧ treeHeight (2 ^ 56) = 6 := by
  decide +kernel

/-- C07: for any accepted read, write, fallocate or copy no 64-bit signed sum of
offset and length overflows, including the `end` computed before the checks. -/
theorem C07_no_overflow {r : Req} (hl : r.len < 2 ^ 64)
    (h : checkFileIo r = none) : addOvf r.beg (toSigned r.len) = false ∧ 0 ≤ toSigned r.len := by
  have hr : checkIoRange r = none := by
    unfold checkFileIo at h
    grind
  unfold checkIoRange sizeMax at hr
  unfold addOvf
  simp
  grind

/-- C07: the sum tested by `filc_check_io_range` is evaluated only when it cannot
overflow. -/
theorem C07_sum_fits {r : Req} (hl : r.len < 2 ^ 64) (h1 : 0 ≤ r.beg) (h2 : r.beg ≤ sizeMax)
    (h3 : toSigned r.len ≤ sizeMax) : addOvf r.beg (toSigned r.len) = false := by
  unfold addOvf toSigned sizeMax at *
  simp
  grind

/-- C07: the fallocate modes accepted are preallocation, punch-hole with
KEEP_SIZE, and zero-range, the first and last with or without KEEP_SIZE. -/
theorem C07_falloc_modes (m : FlMode) :
    checkFlMode m = none ↔
      m = {} ∨ m = { keepSize := true } ∨ m = { keepSize := true, punchHole := true } ∨
      m = { zeroRange := true } ∨ m = { zeroRange := true, keepSize := true } := by
  rcases m with ⟨_ | _, _ | _, _ | _, _ | _, _ | _, _ | _, _ | _⟩ <;> decide

example : checkFileIo (rwReq .write (2 ^ 56 - 2) 1 0) = none ∧
    checkFileIo (rwReq .write (2 ^ 56 - 1) 1 0) = some .efbig ∧
    checkFileIo (rwReq .write (-1) 1 0) = some .einval ∧
    checkFileIo (fallocReq 10 (-1) 0) = some .eoverflow := by decide

end Silofs.File
