import Verif.Model.Vrange
/-!
C30: the space maps of one level partition the space of their parent, the slot
computed for an offset is the one whose range contains it.
-/
namespace Silofs.Vrange
open Silofs Silofs.Addr

theorem int_succ_mul (a b : Int) : (a + 1) * b = a * b + b := by rw [Int.add_mul, Int.one_mul]

theorem spanOf_pos (h : Nat) : 0 < spanOf h := by
  unfold spanOf
  exact Nat.mul_pos (Nat.pow_pos (by decide)) (by decide)

/-- Spans grow by 256 per level between leaf-block and top node. -/
theorem spanOf_step (h : Nat) (h1 : 2 ≤ h) (h2 : h ≤ 6) : spanOf h = 256 * spanOf (h - 1) := by
  have : h = 2 ∨ h = 3 ∨ h = 4 ∨ h = 5 ∨ h = 6 := by omega
  rcases this with h|h|h|h|h <;> subst h <;> decide

theorem spanOf_le (h : Nat) (h2 : h ≤ 9) : spanOf h ≤ 72057594037927936 := by
  have : h = 0 ∨ h = 1 ∨ h = 2 ∨ h = 3 ∨ h = 4 ∨ h = 5 ∨ h = 6 ∨ h = 7 ∨ h = 8 ∨ h = 9 := by omega
  rcases this with h|h|h|h|h|h|h|h|h|h <;> subst h <;> decide

theorem offAlign_eq (off : Int) (a : Nat) (h : 0 ≤ off) : offAlign off a = off / a * a := by
  unfold offAlign; rw [Int.tdiv_eq_ediv_of_nonneg h]

theorem ofSpmap_eq (height : Nat) (voff : Int) (h0 : 0 ≤ voff) (hh : height ≤ 9) :
    ofSpmap height voff = ⟨voff / spanOf height * spanOf height,
      voff / spanOf height * spanOf height + spanOf height, spanOf height, height⟩ := by
  have hp := spanOf_pos height
  have hl := spanOf_le height hh
  generalize hs : spanOf height = s at *
  have hq : 0 ≤ voff / s := Int.ediv_nonneg h0 (by omega)
  have hb : 0 ≤ voff / (s:Int) * s := Int.mul_nonneg hq (by omega)
  have he : offNext (voff / s * s) s = voff / s * s + s := by
    unfold offNext
    rw [offAlign_eq _ _ (by omega)]
    have : (voff / (s:Int) * s + s) / s = voff / s + 1 := by
      rw [← int_succ_mul, Int.mul_ediv_cancel _ (by omega)]
    rw [this, int_succ_mul]
  simp only [ofSpmap, hs, offAlign_eq _ _ h0, he, vrangeSetup, Vrange.mk.injEq, true_and, and_true]
  unfold toU64
  omega

/-- **C30 (coverage)**: the range of the map at some level covering an offset does
contain that offset. -/
theorem C30_contains (height : Nat) (voff : Int) (h0 : 0 ≤ voff) (hh : height ≤ 9) :
    within (ofSpmap height voff) voff = true := by
  rw [ofSpmap_eq _ _ h0 hh]
  have hp := spanOf_pos height
  have h1 := Int.mul_ediv_self_le (x := voff) (k := spanOf height) (by omega)
  have h2 := Int.lt_mul_ediv_self_add (x := voff) (k := spanOf height) (by omega)
  simp only [within, Bool.and_eq_true, decide_eq_true_eq]
  rw [Int.mul_comm] at h1 h2
  omega

/-- **C30 (disjointness)**: two maps of the same level either cover exactly the same
range or disjoint ranges; two offsets get the same map iff it covers both. -/
theorem C30_partition (height : Nat) (v1 v2 : Int) (h1 : 0 ≤ v1) (h2 : 0 ≤ v2) (hh : height ≤ 9) :
    within (ofSpmap height v1) v2 = true ↔ ofSpmap height v1 = ofSpmap height v2 := by
  constructor
  · intro hw
    rw [ofSpmap_eq _ _ h1 hh] at hw
    rw [ofSpmap_eq _ _ h1 hh, ofSpmap_eq _ _ h2 hh]
    have hp := spanOf_pos height
    generalize hs : spanOf height = s at *
    simp only [within, Bool.and_eq_true, decide_eq_true_eq] at hw
    have : v2 / s = v1 / s := by
      apply Int.le_antisymm
      · have h3 : v2 < (v1 / s + 1) * s := by rw [int_succ_mul]; exact hw.2
        have := Int.ediv_lt_of_lt_mul (show (0:Int) < s by omega) h3
        omega
      · exact Int.le_ediv_of_mul_le (by omega) hw.1
    rw [this]
  · intro he; rw [he]; exact C30_contains _ _ h2 hh

/-- Child start offsets: slot `s` of a map starts `s` child-spans after its begin. -/
theorem voffAt_eq (height : Nat) (voff : Int) (slot : Nat) (h0 : 0 ≤ voff) (h1 : 2 ≤ height)
    (h2 : height ≤ 7) :
    voffAt (ofSpmap height voff) slot = (ofSpmap height voff).beg + slot * spanOf (height - 1) := by
  rw [ofSpmap_eq _ _ h0 (by omega)]
  simp only [voffAt]
  have hp := spanOf_pos (height - 1)
  have hq : 0 ≤ voff / spanOf height := Int.ediv_nonneg h0 (by omega)
  have hb : 0 ≤ voff / (spanOf height : Int) * spanOf height := Int.mul_nonneg hq (by omega)
  have hs : (0:Int) ≤ slot * spanOf (height - 1) := Int.mul_nonneg (by omega) (by omega)
  rw [offAlign_eq _ _ (by omega)]
  have key : ∃ k : Int, voff / (spanOf height : Int) * spanOf height = k * spanOf (height - 1) := by
    by_cases h7 : height = 7
    · subst h7
      exact ⟨voff / (spanOf 7 : Int), rfl⟩
    · refine ⟨voff / (spanOf height : Int) * 256, ?_⟩
      rw [spanOf_step height h1 (by omega)]
      simp only [Int.natCast_mul]
      rw [Int.mul_assoc]
      rfl
  obtain ⟨k, hk⟩ := key
  rw [hk, ← Int.add_mul, Int.mul_ediv_cancel _ (by omega)]

/-- **C30 (slot)**: within every map whose level is an index node the slot computed for
an offset it covers is the unique slot whose child range contains the offset, as
long as the signed product does not overflow (see the hypothesis on the top
level); the child's range begins exactly at that slot's start. -/
theorem C30_slot (height : Nat) (base voff : Int) (hb0 : 0 ≤ base) (h0 : 0 ≤ voff) (h1 : 3 ≤ height)
    (h2 : height ≤ 6) (hw : within (ofSpmap height base) voff = true)
    (hov : height = 6 → voff - (ofSpmap height base).beg < 36028797018963968) :
    ∃ s, slotOf (ofSpmap height base) voff = .slot s ∧ s < 256 ∧
      childBase (ofSpmap height base) voff = voffAt (ofSpmap height base) s ∧
      voffAt (ofSpmap height base) s ≤ voff ∧ voff < voffAt (ofSpmap height base) (s + 1) ∧
      ∀ s', voffAt (ofSpmap height base) s' ≤ voff → voff < voffAt (ofSpmap height base) (s' + 1) →
        s' = s := by
  have hsame : ofSpmap height base = ofSpmap height voff :=
    (C30_partition _ _ _ hb0 h0 (by omega)).1 hw
  rw [hsame] at hov ⊢
  have hstep := spanOf_step height (by omega) h2
  have hcp := spanOf_pos (height - 1)
  have hcontain := C30_contains height voff h0 (by omega)
  simp only [voffAt_eq _ _ _ h0 (show 2 ≤ height by omega) (show height ≤ 7 by omega)]
  rw [ofSpmap_eq height voff h0 (by omega)] at hov hcontain ⊢
  simp only [childBase]
  rw [ofSpmap_eq (height - 1) voff h0 (by omega)]
  simp only [within, Bool.and_eq_true, decide_eq_true_eq] at hcontain
  generalize hc : spanOf (height - 1) = c at *
  have hspan5 : height ≠ 6 → spanOf height ≤ 281474976710656 := by
    intro hne
    have : height = 3 ∨ height = 4 ∨ height = 5 := by omega
    rcases this with h|h|h <;> subst h <;> decide
  have hspanle := spanOf_le height (by omega)
  generalize hS : spanOf height = S at *
  -- relative offset
  generalize hB : voff / (S:Int) * S = B at *
  have hBc : ∃ k : Int, 0 ≤ k ∧ B = k * c := by
    refine ⟨voff / (S:Int) * 256, ?_, ?_⟩
    · exact Int.mul_nonneg (Int.ediv_nonneg h0 (by omega)) (by decide)
    · rw [← hB, hstep]; simp only [Int.natCast_mul]; rw [Int.mul_assoc]; rfl
  obtain ⟨k, hk0, hk⟩ := hBc
  obtain ⟨r, hr⟩ : ∃ r : Nat, voff - B = r := ⟨(voff - B).toNat, by omega⟩
  have hrS : r < S := by omega
  have hno : (voff - B) * 256 < 9223372036854775808 := by
    by_cases h6 : height = 6
    · have := hov h6; simp only at this; omega
    · have := hspan5 h6; omega
  have hu : toU64 ((voff - B) * 256) = r * 256 := by unfold toU64; omega
  have hsl : r * 256 / S = r / c := by
    rw [hstep, Nat.mul_comm 256 c, Nat.mul_div_mul_right _ _ (by decide)]
  have hlt : r / c < 256 := by
    rw [Nat.div_lt_iff_lt_mul hcp]; rw [hstep] at hrS; exact hrS
  have d1 : c * (r / c) ≤ r := Nat.mul_div_le r c
  have d2 : r < c * (r / c) + c := by
    have := Nat.lt_mul_div_succ r hcp
    rw [Nat.mul_add, Nat.mul_one] at this; exact this
  refine ⟨r / c, ?_, hlt, ?_, ?_, ?_, ?_⟩
  · simp only [slotOf]
    rw [if_neg (by omega), hu, hsl, if_pos hlt]
  · have hv : voff = B + r := by omega
    rw [hv, hk, Int.add_comm (k * c) r, Int.add_mul_ediv_right _ _ (by omega : (c:Int) ≠ 0), Int.add_mul]
    rw [Int.add_comm]
    norm_cast
  · have : ((r / c : Nat) : Int) * c ≤ r := by rw [Int.mul_comm]; exact_mod_cast d1
    omega
  · have : (r : Int) < ((r / c + 1 : Nat) : Int) * c := by
      rw [Int.mul_comm]
      have : r < c * (r / c + 1) := by rw [Nat.mul_add, Nat.mul_one]; exact d2
      exact_mod_cast this
    omega
  · intro s' ha hb
    have e1 : c * s' ≤ r := by
      have : (c : Int) * s' ≤ r := by rw [Int.mul_comm]; omega
      exact_mod_cast this
    have e2 : r < c * (s' + 1) := by
      have : (r:Int) < (c : Int) * ((s' + 1 : Nat) : Int) := by rw [Int.mul_comm]; omega
      exact_mod_cast this
    have f1 : s' ≤ r / c := by rw [Nat.le_div_iff_mul_le hcp, Nat.mul_comm]; exact e1
    have f2 : r / c < s' + 1 := by rw [Nat.div_lt_iff_lt_mul hcp, Nat.mul_comm]; exact e2
    omega

/-- The top-level slot computation overflows a signed 64-bit integer for offsets in
the upper half of the 2^56-byte range of a top node, so the unrestricted
statement (without the top-level hypothesis of `C30_slot`) is violated. -/
theorem C30_slot_overflow_violated :
    ¬ ∀ (height : Nat) (base voff : Int), 0 ≤ base → 0 ≤ voff → 3 ≤ height → height ≤ 6 →
      within (ofSpmap height base) voff = true →
      ∃ s, slotOf (ofSpmap height base) voff = .slot s := by
  intro h
  obtain ⟨s, hs⟩ := h 6 0 36028797018963968 (by decide) (by decide) (by decide) (by decide) (by decide)
  have : slotOf (ofSpmap 6 0) 36028797018963968 = .overflow := by decide
  rw [this] at hs
  cases hs

/-- **C30 (walk)**: stepping with `next` from any covered offset lands exactly on the
begin of the following child, never skipping one. -/
theorem C30_next (height : Nat) (voff : Int) (h0 : 0 ≤ voff) (h1 : 2 ≤ height) (h2 : height ≤ 7) :
    next (ofSpmap height voff) voff =
      (ofSpmap (height - 1) voff).beg + spanOf (height - 1) := by
  have hw := C30_contains height voff h0 (by omega)
  simp only [within, Bool.and_eq_true, decide_eq_true_eq] at hw
  unfold next
  rw [if_neg (by omega), if_neg (by omega)]
  have hh : (ofSpmap height voff).height = height := rfl
  rw [hh, ofSpmap_eq (height - 1) voff h0 (by omega)]
  have hp := spanOf_pos (height - 1)
  unfold offNext
  rw [offAlign_eq _ _ (by omega)]
  simp only
  have : (voff + (spanOf (height - 1) : Int)) / spanOf (height - 1) = voff / spanOf (height - 1) + 1 := by
    rw [Int.add_ediv_of_dvd_right (Int.dvd_refl _), Int.ediv_self (by omega)]
  rw [this, int_succ_mul]

/-- **C30 (blocks of a leaf)**: the block slot of an offset in a leaf is the unique
64K block of the leaf containing it. -/
theorem C30_leaf_slot (voff : Int) (h0 : 0 ≤ voff) :
    leafSlot voff < 256 ∧
    (ofSpmap HEIGHT_SPLEAF voff).beg + leafSlot voff * 65536 ≤ voff ∧
    voff < (ofSpmap HEIGHT_SPLEAF voff).beg + leafSlot voff * 65536 + 65536 := by
  have hs : spanOf HEIGHT_SPLEAF = 16777216 := by decide
  rw [ofSpmap_eq _ _ h0 (by decide), hs]
  unfold leafSlot
  rw [Int.tdiv_eq_ediv_of_nonneg h0]
  simp only
  omega

/-! Non-vacuity -/
example : slotOf (ofSpmap 4 0) (5 * 4294967296 + 77) = .slot 5 := by decide
example : within (ofSpmap 4 0) (5 * 4294967296 + 77) = true := by decide
example : next (ofSpmap 2 70000) 70000 = 131072 := by decide

end Silofs.Vrange
