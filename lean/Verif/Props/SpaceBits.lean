import Verif.Model.Space
import Verif.Props.FreeCache
/-
Bit-mask and counting lemmas about block references (helpers for C19-C22).
-/
set_option linter.unusedSimpArgs false
namespace Silofs.Space
open Silofs.Addr Silofs.FreeCache

theorem getLsbD_maskOf (ki nk i : Nat) (hi : i < 64) :
    (maskOf ki nk).getLsbD i = decide (ki ≤ i ∧ i < ki + nk) := by
  unfold maskOf
  split
  · rename_i hk
    unfold maskOf0
    split
    · rename_i hn
      have e1 : (1#64 <<< min nk (64 - ki)) - 1#64 = BitVec.ofNat 64 (2 ^ (min nk (64 - ki)) - 1) := by
        apply BitVec.eq_of_toNat_eq
        rw [BitVec.toNat_sub, BitVec.toNat_shiftLeft]
        have hlt : 2 ^ min nk (64 - ki) < 2 ^ 64 := Nat.pow_lt_pow_right (by omega) hn
        have hpos : 0 < 2 ^ min nk (64 - ki) := Nat.two_pow_pos _
        simp only [BitVec.toNat_ofNat, Nat.shiftLeft_eq]
        rw [show (1 % 2 ^ 64 : Nat) = 1 by decide, Nat.one_mul, Nat.mod_eq_of_lt hlt,
          Nat.mod_eq_of_lt (a := 2 ^ min nk (64 - ki) - 1) (by omega)]
        omega
      rw [e1, BitVec.getLsbD_shiftLeft, BitVec.getLsbD_ofNat]
      simp only [Nat.testBit_two_pow_sub_one]
      rw [Bool.eq_iff_iff]
      simp only [Bool.and_eq_true, Bool.not_eq_true', decide_eq_true_eq,
        decide_eq_false_iff_not]
      omega
    · rename_i hn
      have : ki = 0 := by omega
      subst this
      have : i < 0 + nk := by omega
      simp only [BitVec.getLsbD_not, hi, Nat.zero_le, this, and_self, decide_true, Bool.true_and,
        BitVec.getLsbD_zero, Bool.not_false]
  · rename_i hk
    simp
    omega

/-- All bits of `[kbn, kbn+nkb)` set. -/
theorem hasMask_iff (s : Mask) (kbn nkb : Nat) :
    hasMask s (maskOf kbn nkb) = true ↔
      ∀ i, i < 64 → kbn ≤ i → i < kbn + nkb → s.getLsbD i = true := by
  unfold hasMask
  rw [beq_iff_eq]
  constructor
  · intro h i hi h1 h2
    have := congrArg (fun m => m.getLsbD i) h
    simp only [BitVec.getLsbD_and, getLsbD_maskOf _ _ _ hi] at this
    simpa [h1, h2] using this
  · intro h
    apply BitVec.eq_of_getLsbD_eq
    intro i hi
    rw [BitVec.getLsbD_and, getLsbD_maskOf _ _ _ hi]
    by_cases hc : kbn ≤ i ∧ i < kbn + nkb
    · simp [hc, h i hi hc.1 hc.2]
    · simp [hc]

theorem hasNone_iff (s : Mask) (kbn nkb : Nat) :
    hasNone s (maskOf kbn nkb) = true ↔
      ∀ i, i < 64 → kbn ≤ i → i < kbn + nkb → s.getLsbD i = false := by
  unfold hasNone
  rw [beq_iff_eq]
  constructor
  · intro h i hi h1 h2
    have := congrArg (fun m => m.getLsbD i) h
    simp only [BitVec.getLsbD_and, getLsbD_maskOf _ _ _ hi] at this
    simpa [h1, h2] using this
  · intro h
    apply BitVec.eq_of_getLsbD_eq
    intro i hi
    rw [BitVec.getLsbD_and, getLsbD_maskOf _ _ _ hi]
    by_cases hc : kbn ≤ i ∧ i < kbn + nkb
    · simp [hc, h i hi hc.1 hc.2]
    · simp [hc]

theorem pos_iff_bit (s : Mask) : 0#64 < s ↔ ∃ i, i < 64 ∧ s.getLsbD i = true := by
  constructor
  · intro h
    apply Classical.byContradiction
    intro hn
    have : s = 0#64 := by
      apply BitVec.eq_of_getLsbD_eq
      intro i hi
      have : ¬ s.getLsbD i = true := fun hb => hn ⟨i, hi, hb⟩
      simpa using this
    rw [this] at h
    exact absurd h (by decide)
  · rintro ⟨i, hi, hb⟩
    rw [BitVec.lt_def]
    have : s.toNat ≠ 0 := by
      intro h0
      have : s = 0#64 := BitVec.eq_of_toNat_eq (by simpa using h0)
      rw [this] at hb
      simp at hb
    simp; omega

theorem testOther_iff (b : Bkr) (kbn nkb : Nat) :
    b.testOther kbn nkb = true ↔
      ∃ i, i < 64 ∧ ¬ (kbn ≤ i ∧ i < kbn + nkb) ∧ b.alloc.getLsbD i = true := by
  unfold Bkr.testOther hasAny maskOther
  rw [decide_eq_true_eq, pos_iff_bit]
  constructor
  · rintro ⟨i, hi, hb⟩
    rw [BitVec.getLsbD_and, BitVec.getLsbD_not, getLsbD_maskOf _ _ _ hi] at hb
    simp [hi] at hb
    exact ⟨i, hi, by omega, hb.1⟩
  · rintro ⟨i, hi, hn, hb⟩
    refine ⟨i, hi, ?_⟩
    rw [BitVec.getLsbD_and, BitVec.getLsbD_not, getLsbD_maskOf _ _ _ hi]
    simp [hi, hb]; omega

theorem getLsbD_setAlloc (b : Bkr) (kbn nkb i : Nat) (hi : i < 64) :
    (b.setAlloc kbn nkb).alloc.getLsbD i = (b.alloc.getLsbD i || decide (kbn ≤ i ∧ i < kbn + nkb)) := by
  simp [Bkr.setAlloc, getLsbD_maskOf _ _ _ hi]

theorem getLsbD_clearAlloc (b : Bkr) (kbn nkb i : Nat) (hi : i < 64) :
    (b.clearAlloc kbn nkb).alloc.getLsbD i
      = (b.alloc.getLsbD i && !decide (kbn ≤ i ∧ i < kbn + nkb)) := by
  simp only [Bkr.clearAlloc, BitVec.getLsbD_and, BitVec.getLsbD_not, getLsbD_maskOf _ _ _ hi, hi,
    decide_true, Bool.true_and]

theorem isUnused_iff (b : Bkr) : b.isUnused = true ↔ ∀ i, i < 64 → b.alloc.getLsbD i = false := by
  unfold Bkr.isUnused
  rw [Bool.not_eq_true', decide_eq_false_iff_not, pos_iff_bit]
  constructor
  · intro h i hi
    have : ¬ b.alloc.getLsbD i = true := fun hb => h ⟨i, hi, hb⟩
    simpa using this
  · rintro h ⟨i, hi, hb⟩
    rw [h i hi] at hb; exact absurd hb (by simp)

/-! ### Counting -/

theorem countP_or_disjoint {α : Type} (l : List α) (p q r : α → Bool)
    (h : ∀ x ∈ l, r x = (p x || q x)) (hd : ∀ x ∈ l, ¬ (p x = true ∧ q x = true)) :
    l.countP r = l.countP p + l.countP q := by
  induction l with
  | nil => rfl
  | cons a t ih =>
    have iht := ih (fun x hx => h x (List.mem_cons_of_mem _ hx))
      (fun x hx => hd x (List.mem_cons_of_mem _ hx))
    have ha := h a List.mem_cons_self
    have hda := hd a List.mem_cons_self
    simp only [List.countP_cons, iht, ha]
    cases hp : p a <;> cases hq : q a <;> simp_all <;> omega

theorem countP_range_interval (n a b : Nat) (hb : a + b ≤ n) :
    (List.range n).countP (fun i => decide (a ≤ i ∧ i < a + b)) = b := by
  induction n generalizing b with
  | zero => simp; omega
  | succ n ih =>
    rw [List.range_succ, List.countP_append]
    by_cases hc : a + b ≤ n
    · rw [ih b hc]
      simp; omega
    · have hab : a + b = n + 1 := by omega
      cases b with
      | zero =>
        have : (List.range n).countP (fun i => decide (a ≤ i ∧ i < a + 0)) = 0 := by
          rw [List.countP_eq_zero]; intro x _; simp only [decide_eq_true_eq]; omega
        rw [this]; simp
      | succ b =>
        have e : (List.range n).countP (fun i => decide (a ≤ i ∧ i < a + (b + 1)))
            = (List.range n).countP (fun i => decide (a ≤ i ∧ i < a + b)) := by
          apply List.countP_congr
          intro x hx
          have := List.mem_range.mp hx
          simp; omega
        rw [e, ih b (by omega)]
        simp; omega

theorem popcount_set (b : Bkr) (kbn nkb : Nat) (hf : kbn + nkb ≤ 64)
    (h0 : ∀ i, i < 64 → kbn ≤ i → i < kbn + nkb → b.alloc.getLsbD i = false) :
    (b.setAlloc kbn nkb).usecnt = b.usecnt + nkb := by
  unfold Bkr.usecnt popcount
  rw [countP_or_disjoint (List.range 64) (fun i => b.alloc.getLsbD i)
    (fun i => decide (kbn ≤ i ∧ i < kbn + nkb))]
  · rw [countP_range_interval 64 kbn nkb hf]
  · intro x hx
    exact getLsbD_setAlloc b kbn nkb x (List.mem_range.mp hx)
  · intro x hx hc
    have := decide_eq_true_iff.mp hc.2
    have h1 := h0 x (List.mem_range.mp hx) this.1 this.2
    rw [h1] at hc; exact absurd hc.1 (by simp)

theorem popcount_clear (b : Bkr) (kbn nkb : Nat) (hf : kbn + nkb ≤ 64)
    (h1 : ∀ i, i < 64 → kbn ≤ i → i < kbn + nkb → b.alloc.getLsbD i = true) :
    (b.clearAlloc kbn nkb).usecnt + nkb = b.usecnt := by
  unfold Bkr.usecnt popcount
  rw [countP_or_disjoint (List.range 64) (fun i => (b.clearAlloc kbn nkb).alloc.getLsbD i)
    (fun i => decide (kbn ≤ i ∧ i < kbn + nkb)) (fun i => b.alloc.getLsbD i)]
  · rw [countP_range_interval 64 kbn nkb hf]
  · intro x hx
    have hx' := List.mem_range.mp hx
    rw [getLsbD_clearAlloc b kbn nkb x hx']
    by_cases hc : kbn ≤ x ∧ x < kbn + nkb
    · simp [hc, h1 x hx' hc.1 hc.2]
    · simp [hc]
  · intro x hx hc
    rw [getLsbD_clearAlloc b kbn nkb x (List.mem_range.mp hx)] at hc
    simp only [Bool.and_eq_true, Bool.not_eq_true', decide_eq_false_iff_not, decide_eq_true_eq] at hc
    exact hc.1.2 hc.2

theorem usecnt_le (b : Bkr) : b.usecnt ≤ 64 := by
  have := List.countP_le_length (p := fun i => b.alloc.getLsbD i) (l := List.range 64)
  simpa [Bkr.usecnt, popcount] using this

/-- If an interval of KBs is free, the block's free count covers it. -/
theorem freecnt_ge (b : Bkr) (kbn nkb : Nat) (hf : kbn + nkb ≤ 64)
    (h0 : ∀ i, i < 64 → kbn ≤ i → i < kbn + nkb → b.alloc.getLsbD i = false) :
    b.usecnt + nkb ≤ 64 := by
  rw [← popcount_set b kbn nkb hf h0]
  exact usecnt_le _

theorem sum_map_change (n j : Nat) (f g : Nat → Nat) (hj : j < n)
    (h : ∀ i, i < n → i ≠ j → g i = f i) :
    ((List.range n).map g).sum + f j = ((List.range n).map f).sum + g j := by
  induction n with
  | zero => omega
  | succ n ih =>
    rw [List.range_succ, List.map_append, List.map_append, List.sum_append, List.sum_append]
    simp only [List.map_cons, List.map_nil, List.sum_cons, List.sum_nil]
    by_cases hc : j = n
    · subst hc
      have : (List.range j).map g = (List.range j).map f := by
        apply List.map_congr_left
        intro i hi
        have := List.mem_range.mp hi
        exact h i (by omega) (by omega)
      rw [this]; omega
    · have := ih (by omega) (fun i hi hne => h i (by omega) hne)
      have := h n (by omega) (fun e => hc e.symm)
      omega

theorem sum_map_le (n c : Nat) (f : Nat → Nat) (h : ∀ i, i < n → f i ≤ c) :
    ((List.range n).map f).sum ≤ n * c := by
  induction n with
  | zero => simp
  | succ n ih =>
    rw [List.range_succ, List.map_append, List.sum_append]
    have := ih (fun i hi => h i (by omega))
    have := h n (by omega)
    simp only [List.map_cons, List.map_nil, List.sum_cons, List.sum_nil]
    rw [Nat.add_mul]; omega

/-! ### Kinds -/

/-- Sizes of the vnode kinds. -/
theorem kind_cases (t : Nat) (h : isVnode t = true) :
    ltypeSize t = nkbs t * 1024 ∧
    (nkbs t = 1 ∨ nkbs t = 4 ∨ nkbs t = 8 ∨ (nkbs t = 64 ∧ isBk t = true)) ∧
    (nkbs t ≠ 64 → isBk t = false) := by
  unfold isVnode at h
  simp at h
  have : t = 5 ∨ t = 6 ∨ t = 7 ∨ t = 8 ∨ t = 9 ∨ t = 10 ∨ t = 11 ∨ t = 12 := by omega
  rcases this with h | h | h | h | h | h | h | h <;> subst h <;> decide

end Silofs.Space
