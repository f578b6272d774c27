import Verif.Spec.Cmdval
/- Rounding to long double. -/
set_option linter.unusedSimpArgs false
set_option linter.unusedVariables false
namespace Silofs.Cv

theorem scaled_pos {q : Q} (hd : 0 < q.d) (e : Int) : 0 < (scaled q e).d := by
  unfold scaled; split
  · exact Nat.mul_pos hd (Nat.two_pow_pos _)
  · exact hd

theorem scaled_succ (q : Q) (e : Int) :
    ((scaled q (e - 1)).n = (scaled q e).n ∧ (scaled q e).d = 2 * (scaled q (e - 1)).d) ∨
    ((scaled q (e - 1)).n = 2 * (scaled q e).n ∧ (scaled q e).d = (scaled q (e - 1)).d) := by
  by_cases h : 0 ≤ e - 1
  · left
    have h2 : 0 ≤ e := by omega
    simp only [scaled, if_pos h, if_pos h2]
    have : e.toNat = (e - 1).toNat + 1 := by omega
    refine ⟨trivial, ?_⟩
    rw [this, Nat.pow_succ]
    simp only [Nat.mul_assoc, Nat.mul_comm, Nat.mul_left_comm]
  · right
    by_cases h2 : 0 ≤ e
    · have : e = 0 := by omega
      subst this
      simp [scaled]
      exact Nat.mul_comm _ _
    · simp only [scaled, if_neg h, if_neg h2]
      have : (-(e - 1)).toNat = (-e).toNat + 1 := by omega
      refine ⟨?_, trivial⟩
      rw [this, Nat.pow_succ]
      simp only [Nat.mul_assoc, Nat.mul_comm, Nat.mul_left_comm]

theorem exp0_bounds {q : Q} (hn : 0 < q.n) (hd : 0 < q.d) :
    2 ^ 62 * (scaled q (exp0 q)).d ≤ (scaled q (exp0 q)).n ∧
    (scaled q (exp0 q)).n < 2 ^ 64 * (scaled q (exp0 q)).d := by
  have n1 : 2 ^ Nat.log2 q.n ≤ q.n := Nat.log2_self_le (by omega)
  have n2 : q.n < 2 ^ (Nat.log2 q.n + 1) := Nat.lt_log2_self
  have d1 : 2 ^ Nat.log2 q.d ≤ q.d := Nat.log2_self_le (by omega)
  have d2 : q.d < 2 ^ (Nat.log2 q.d + 1) := Nat.lt_log2_self
  generalize ha : Nat.log2 q.n = a at *
  generalize hb : Nat.log2 q.d = b at *
  unfold exp0
  rw [ha, hb]
  by_cases h : 0 ≤ (a : Int) - b - 63
  · simp only [scaled, if_pos h]
    have he : ((a : Int) - b - 63).toNat = a - b - 63 := by omega
    rw [he]
    constructor
    · have : 2 ^ 62 * (q.d * 2 ^ (a - b - 63)) ≤ 2 ^ 62 * (2 ^ (b + 1) * 2 ^ (a - b - 63)) :=
        Nat.mul_le_mul_left _ (Nat.mul_le_mul_right _ (Nat.le_of_lt d2))
      rw [← Nat.pow_add, ← Nat.pow_add] at this
      rw [show 62 + (b + 1 + (a - b - 63)) = a by omega] at this
      omega
    · have : 2 ^ 64 * (2 ^ b * 2 ^ (a - b - 63)) ≤ 2 ^ 64 * (q.d * 2 ^ (a - b - 63)) :=
        Nat.mul_le_mul_left _ (Nat.mul_le_mul_right _ d1)
      rw [← Nat.pow_add, ← Nat.pow_add] at this
      rw [show 64 + (b + (a - b - 63)) = a + 1 by omega] at this
      omega
  · simp only [scaled, if_neg h]
    have he : (-((a : Int) - b - 63)).toNat = b + 63 - a := by omega
    rw [he]
    constructor
    · have h1 : 2 ^ 62 * q.d ≤ 2 ^ 62 * 2 ^ (b + 1) := Nat.mul_le_mul_left _ (Nat.le_of_lt d2)
      have h2 : 2 ^ a * 2 ^ (b + 63 - a) ≤ q.n * 2 ^ (b + 63 - a) := Nat.mul_le_mul_right _ n1
      rw [← Nat.pow_add] at h1 h2
      rw [show a + (b + 63 - a) = 62 + (b + 1) by omega] at h2
      omega
    · have h1 : q.n * 2 ^ (b + 63 - a) < 2 ^ (a + 1) * 2 ^ (b + 63 - a) :=
        Nat.mul_lt_mul_of_pos_right n2 (Nat.two_pow_pos _)
      have h2 : 2 ^ 64 * 2 ^ b ≤ 2 ^ 64 * q.d := Nat.mul_le_mul_left _ d1
      rw [← Nat.pow_add] at h1 h2
      rw [show a + 1 + (b + 63 - a) = 64 + b by omega] at h1
      omega

theorem exponent_bounds {q : Q} (hn : 0 < q.n) (hd : 0 < q.d) :
    2 ^ 63 * (scaled q (exponent q)).d ≤ (scaled q (exponent q)).n ∧
    (scaled q (exponent q)).n < 2 ^ 64 * (scaled q (exponent q)).d := by
  obtain ⟨h1, h2⟩ := exp0_bounds hn hd
  unfold exponent
  by_cases h : 2 ^ 63 * (scaled q (exp0 q)).d ≤ (scaled q (exp0 q)).n
  · rw [if_pos h]; exact ⟨h, h2⟩
  · rw [if_neg h]
    rcases scaled_succ q (exp0 q) with ⟨a, b⟩ | ⟨a, b⟩
    · rw [b] at h1 h; rw [a]; omega
    · rw [b] at h1 h; rw [a]; omega

theorem nearest_cases (q : Q) (hd : 0 < q.d) :
    (nearest q = q.n / q.d ∨ nearest q = q.n / q.d + 1) ∧ 2 * nearest q * q.d ≤ 2 * q.n + q.d ∧
    (q.d ∣ q.n → nearest q = q.n / q.d) := by
  unfold nearest
  have hm := Nat.div_add_mod q.n q.d
  have hl := Nat.mod_lt q.n hd
  refine ⟨by split <;> simp, ?_, ?_⟩
  · split
    · next h =>
      have : 2 * (q.n / q.d + 1) * q.d = 2 * (q.d * (q.n / q.d)) + 2 * q.d := by
        rw [Nat.mul_assoc, Nat.add_mul, Nat.mul_comm (q.n / q.d)]; omega
      omega
    · have : 2 * (q.n / q.d) * q.d = 2 * (q.d * (q.n / q.d)) := by
        rw [Nat.mul_assoc, Nat.mul_comm (q.n / q.d)]
      omega
  · intro hdv
    have : q.n % q.d = 0 := Nat.mod_eq_zero_of_dvd hdv
    rw [this, if_neg (by omega)]

/-- Numbers below 2 ^ 63 after the unit. -/
theorem round_small {q : Q} (hn : 0 < q.n) (hd : 0 < q.d) (k : Nat) (hx : q.n * 2 ^ k < 2 ^ 63 * q.d) :
    ∃ j, k < j ∧ exponent q = -(j : Int) ∧ round q = (nearest ⟨q.n * 2 ^ j, q.d⟩, -(j : Int)) ∧
      2 ^ 63 * q.d ≤ q.n * 2 ^ j := by
  obtain ⟨h1, h2⟩ := exponent_bounds hn hd
  have he : exponent q < 0 := by
    refine Classical.byContradiction fun h => ?_
    have h : 0 ≤ exponent q := by omega
    simp only [scaled, if_pos h] at h1
    have a1 : q.d * 1 ≤ q.d * 2 ^ (exponent q).toNat := Nat.mul_le_mul_left _ (Nat.two_pow_pos _)
    have a2 : q.n * 1 ≤ q.n * 2 ^ k := Nat.mul_le_mul_left _ (Nat.two_pow_pos _)
    omega
  have hr : round q = (nearest (scaled q (exponent q)), exponent q) := by
    unfold round; rw [if_neg (by omega)]
  have hs : scaled q (exponent q) = ⟨q.n * 2 ^ (-exponent q).toNat, q.d⟩ := by
    unfold scaled; rw [if_neg (by omega)]
  rw [hs] at h1 hr
  have hj : exponent q = -(((-exponent q).toNat : Nat) : Int) := by omega
  refine ⟨(-exponent q).toNat, ?_, hj, ?_, h1⟩
  · have : q.n * 2 ^ k < q.n * 2 ^ (-exponent q).toNat := by
      have : 2 ^ 63 * q.d ≤ q.n * 2 ^ (-exponent q).toNat := h1
      omega
    have := Nat.lt_of_mul_lt_mul_left this
    exact (Nat.pow_lt_pow_iff_right (by omega)).1 this
  · exact hr.trans (by rw [← hj])

/-- What comes out of rounding, multiplying and cutting. -/
theorem whole_round {q : Q} (hd : 0 < q.d) (k : Nat) (hx : q.n * 2 ^ k < 2 ^ 63 * q.d) :
    q.n * 2 ^ k / q.d ≤ whole (round q).1 ((round q).2 + k) ∧
    whole (round q).1 ((round q).2 + k) ≤ q.n * 2 ^ k / q.d + 1 ∧
    whole (round q).1 ((round q).2 + k) * q.d * 2 ^ 64 ≤ q.n * 2 ^ k * (2 ^ 64 + 1) ∧
    (q.d ∣ q.n * 2 ^ k → whole (round q).1 ((round q).2 + k) * q.d = q.n * 2 ^ k) ∧
    whole (round q).1 ((round q).2 + k) ≤ 2 ^ 63 := by
  rcases Nat.eq_zero_or_pos q.n with h0 | hn
  · have : round q = (0, 0) := by unfold round; rw [if_pos h0]
    rw [this, h0]
    simp [whole]
  · obtain ⟨j, hk, he, hr, hb⟩ := round_small hn hd k hx
    obtain ⟨c1, c2, c3⟩ := nearest_cases ⟨q.n * 2 ^ j, q.d⟩ hd
    have hb' : 2 ^ 63 * q.d ≤ q.n * 2 ^ j := hb
    rw [hr]
    simp only at c1 c2 c3 ⊢
    generalize nearest ⟨q.n * 2 ^ j, q.d⟩ = m at *
    have hw : whole m (-(j : Int) + k) = m / 2 ^ (j - k) := by
      unfold whole
      rw [if_neg (by omega)]
      have : (-(-(j : Int) + k)).toNat = j - k := by omega
      rw [this]
    rw [hw]
    have hpow : q.n * 2 ^ j = q.n * 2 ^ k * 2 ^ (j - k) := by
      rw [Nat.mul_assoc, ← Nat.pow_add]; congr 2; omega
    have hp : 0 < 2 ^ (j - k) := Nat.two_pow_pos _
    have hfl : q.n * 2 ^ j / q.d / 2 ^ (j - k) = q.n * 2 ^ k / q.d := by
      rw [Nat.div_div_eq_div_mul, hpow, Nat.mul_div_mul_right _ _ hp]
    have hxle : q.n * 2 ^ k / q.d < 2 ^ 63 := by
      rw [Nat.div_lt_iff_lt_mul hd]; exact hx
    have hlow : q.n * 2 ^ k / q.d ≤ m / 2 ^ (j - k) := by
      rw [← hfl]; apply Nat.div_le_div_right; omega
    have hhigh : m / 2 ^ (j - k) ≤ q.n * 2 ^ k / q.d + 1 := by
      rw [← hfl]
      have : m ≤ q.n * 2 ^ j / q.d + 2 ^ (j - k) := by omega
      calc m / 2 ^ (j - k) ≤ (q.n * 2 ^ j / q.d + 2 ^ (j - k)) / 2 ^ (j - k) := Nat.div_le_div_right this
        _ = _ := Nat.add_div_right _ hp
    refine ⟨hlow, hhigh, ?_, ?_, by omega⟩
    · have h1 : m / 2 ^ (j - k) * 2 ^ (j - k) ≤ m := Nat.div_mul_le_self _ _
      have h2 : m * q.d * 2 ^ 64 ≤ q.n * 2 ^ j * (2 ^ 64 + 1) := by
        have : 2 * m * q.d = 2 * (m * q.d) := Nat.mul_assoc _ _ _
        rw [Nat.mul_add]; omega
      have h3 : m / 2 ^ (j - k) * q.d * 2 ^ 64 * 2 ^ (j - k) ≤ q.n * 2 ^ k * (2 ^ 64 + 1) * 2 ^ (j - k) := by
        have e1 : m / 2 ^ (j - k) * q.d * 2 ^ 64 * 2 ^ (j - k) = m / 2 ^ (j - k) * 2 ^ (j - k) * q.d * 2 ^ 64 := by
          simp only [Nat.mul_assoc, Nat.mul_comm, Nat.mul_left_comm]
        have e2 : q.n * 2 ^ k * (2 ^ 64 + 1) * 2 ^ (j - k) = q.n * 2 ^ j * (2 ^ 64 + 1) := by
          rw [hpow]; simp only [Nat.mul_assoc, Nat.mul_comm, Nat.mul_left_comm]
        rw [e1, e2]
        exact Nat.le_trans (Nat.mul_le_mul_right _ (Nat.mul_le_mul_right _ h1)) h2
      exact Nat.le_of_mul_le_mul_right h3 hp
    · intro hdv
      have hdj : q.d ∣ q.n * 2 ^ j := by rw [hpow]; exact Nat.dvd_mul_right_of_dvd hdv _
      have := c3 hdj
      rw [this, hfl]
      exact Nat.div_mul_cancel hdv

/-- No ERANGE. -/
theorem erange_small {q : Q} (hd : 0 < q.d) (hd2 : q.d ≤ 2 ^ 16000) (k : Nat) (hx : q.n * 2 ^ k < 2 ^ 63 * q.d) :
    erange q = false := by
  rcases Nat.eq_zero_or_pos q.n with h0 | hn
  · unfold erange; rw [h0]; rfl
  · obtain ⟨j, hk, he, hr, hb⟩ := round_small hn hd k hx
    have hj : j < 16445 := by
      refine Classical.byContradiction fun hc => ?_
      have h2 := (exponent_bounds hn hd).2
      have hs : scaled q (exponent q) = ⟨q.n * 2 ^ j, q.d⟩ := by
        unfold scaled; rw [if_neg (by omega), he]; simp
      rw [hs] at h2
      simp only at h2
      have h3 : 1 * 2 ^ 16445 ≤ q.n * 2 ^ j :=
        Nat.mul_le_mul hn (Nat.pow_le_pow_right (by omega) (by omega))
      have h4 : 2 ^ 64 * q.d ≤ 2 ^ 64 * 2 ^ 16000 := Nat.mul_le_mul_left _ hd2
      rw [← Nat.pow_add] at h4
      have h5 : (2:Nat) ^ (64 + 16000) < 2 ^ 16445 := Nat.pow_lt_pow_right (by omega) (by omega)
      omega
    unfold erange
    rw [hr]
    simp only [Bool.and_eq_false_iff, Bool.or_eq_false_iff, decide_eq_false_iff_not]
    right
    constructor
    · split <;> omega
    · left; omega

end Silofs.Cv
