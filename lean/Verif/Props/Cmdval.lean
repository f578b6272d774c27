import Verif.Model.Report
import Verif.Props.CmdvalRound
/- C70: values on the command line. -/
set_option linter.unusedSimpArgs false
set_option linter.unusedVariables false
namespace Silofs.Cv

open Silofs.Mnt (digits digitVal isWs strtol strtoulBody)

/-! ### Reading the text -/

/-- What may follow a number without being taken for a part of it. -/
def Junk (r : List Nat) : Prop :=
  ∀ b l, r = b :: l → ¬ digitVal b < 10 ∧ b ≠ 46 ∧ lower b ≠ 101 ∧ lower b ≠ 120

theorem junk_unit (u : Unt) : Junk u.text := by
  intro b l h
  cases u <;> simp only [Unt.text, List.cons.injEq, List.nil_eq, reduceCtorEq] at h <;>
    (try (obtain ⟨rfl, rfl⟩ := h; decide))

theorem digitVal_digit {d : Nat} (h : d < 10) : digitVal (d + 48) = d := by
  unfold digitVal; rw [if_pos ⟨by omega, by omega⟩]; omega

theorem digits_app (ds : List Nat) (hd : ∀ d ∈ ds, d < 10) (r : List Nat)
    (hr : ∀ b l, r = b :: l → ¬ digitVal b < 10) : ∀ acc,
    digits 10 acc (ds.map (· + 48) ++ r) = (ds.foldl (fun a b => a * 10 + b) acc, ds.length, r) := by
  induction ds with
  | nil =>
    intro acc
    simp only [List.map_nil, List.nil_append, List.foldl_nil, List.length_nil]
    cases r with
    | nil => rfl
    | cons b l => unfold digits; rw [if_neg (hr b l rfl)]
  | cons d ds ih =>
    intro acc
    have h1 := hd d (List.mem_cons_self ..)
    have ih := ih (fun x hx => hd x (List.mem_cons_of_mem _ hx))
    simp only [List.map_cons, List.cons_append, digits, digitVal_digit h1, if_pos h1, ih, List.foldl_cons,
      List.length_cons]

theorem digitVal_dot : ¬ digitVal 46 < 10 := by decide

theorem mantissa_text {w : Size} (hw : w.Wf) {r : List Nat} (hr : Junk r) :
    mantissa 10 (w.digits ++ r) =
      (decVal (w.ip ++ w.fp), w.ip.length + w.fp.length, w.fp.length, r) := by
  unfold mantissa Size.digits
  by_cases hf : w.fp = []
  · rw [if_pos hf, List.append_nil, digits_app w.ip hw.ip r (fun b l h => (hr b l h).1), hf]
    simp only [List.append_nil, List.length_nil, Nat.add_zero]
    cases r with
    | nil => rfl
    | cons b l =>
      have := (hr b l rfl).2.1
      split
      · next h => simp only [List.cons.injEq] at h; exact absurd h.1 this
      · rfl
  · rw [if_neg hf]
    rw [List.append_assoc, List.cons_append,
      digits_app w.ip hw.ip _ (fun b l h => by
        simp only [List.cons.injEq] at h; rw [← h.1]; exact digitVal_dot)]
    have h2 : ∀ acc, digits 10 acc (w.fp.map (· + 48) ++ r) = _ :=
      digits_app w.fp hw.fp r (fun b l h => (hr b l h).1)
    simp only [h2]
    have : w.ip.length ≠ 0 := by simpa using hw.some
    rw [if_neg (by omega)]
    simp only [decVal, List.foldl_append]

theorem expo_junk {r : List Nat} (hr : Junk r) : expo 101 r = (0, r) := by
  unfold expo
  split
  · next e l => rw [if_neg (fun h => (hr _ _ rfl).2.2.1 h.1)]
  · next e l => rw [if_neg (fun h => (hr _ _ rfl).2.2.1 h.1)]
  · next e l _ _ => rw [if_neg (fun h => (hr _ _ rfl).2.2.1 h.1)]
  · rfl

theorem decLit_text {w : Size} (hw : w.Wf) {r : List Nat} (hr : Junk r) :
    decLit (w.digits ++ r) = some (.num ⟨decVal (w.ip ++ w.fp), 10 ^ w.fp.length⟩, r) := by
  unfold decLit
  rw [mantissa_text hw hr]
  simp only [expo_junk hr]
  have : w.ip.length ≠ 0 := by simpa using hw.some
  rw [if_neg (by omega)]
  unfold scaleQ
  rw [if_pos (by omega)]
  simp

theorem startsWith_ne {a c : Nat} {t l : List Nat} (h : lower c ≠ a) : startsWith (a :: t) (c :: l) = false := by
  unfold startsWith
  simp only [List.length_cons, List.take_succ_cons, List.map_cons, beq_eq_false_iff_ne, ne_eq, List.cons.injEq,
    not_and]
  exact fun e => absurd e h

theorem startsWith_ne2 {a b c : Nat} {t l : List Nat} (h : ∀ x y, l = x :: y → lower x ≠ b) :
    startsWith (a :: b :: t) (c :: l) = false := by
  unfold startsWith
  cases l with
  | nil => simp
  | cons x y =>
    simp only [List.length_cons, List.take_succ_cons, List.map_cons, beq_eq_false_iff_ne, ne_eq, List.cons.injEq,
      not_and]
    exact fun _ e => absurd e (h x y rfl)

theorem lower_digit {d : Nat} (h : d < 10) : lower (d + 48) = d + 48 := by
  unfold lower; rw [if_neg (by omega)]

theorem body_text {w : Size} (hw : w.Wf) {r : List Nat} (hr : Junk r) :
    body (w.digits ++ r) = some (.num ⟨decVal (w.ip ++ w.fp), 10 ^ w.fp.length⟩, r) := by
  obtain ⟨d, ds, hip⟩ : ∃ d ds, w.ip = d :: ds := by
    cases h : w.ip with
    | nil => exact absurd h hw.some
    | cons d ds => exact ⟨d, ds, rfl⟩
  have hd : d < 10 := hw.ip d (by rw [hip]; exact List.mem_cons_self ..)
  have hds : ∀ x ∈ ds, x < 10 := fun x hx => hw.ip x (by rw [hip]; exact List.mem_cons_of_mem _ hx)
  have key := decLit_text hw hr
  obtain ⟨l, hl, hx⟩ : ∃ l, w.digits ++ r = (d + 48) :: l ∧ ∀ x y, l = x :: y → lower x ≠ 120 := by
    refine ⟨ds.map (· + 48) ++ (if w.fp = [] then [] else 46 :: w.fp.map (· + 48)) ++ r, ?_, ?_⟩
    · unfold Size.digits; rw [hip]; simp
    · intro x y h
      cases ds with
      | nil =>
        by_cases hf : w.fp = []
        · rw [if_pos hf] at h
          exact (hr x y (by simpa using h)).2.2.2
        · rw [if_neg hf] at h
          simp only [List.map_nil, List.nil_append, List.cons_append, List.cons.injEq] at h
          rw [← h.1]; decide
      | cons e es =>
        simp only [List.map_cons, List.cons_append, List.cons.injEq] at h
        rw [← h.1, lower_digit (hds e (List.mem_cons_self ..))]
        have := hds e (List.mem_cons_self ..)
        omega
  rw [hl] at key ⊢
  have hlow := lower_digit hd
  unfold body
  rw [startsWith_ne (by omega), startsWith_ne (by omega), startsWith_ne (by omega), startsWith_ne2 hx]
  simp only [Bool.false_eq_true, if_false]
  exact key

theorem lit_text {w : Size} (hw : w.Wf) {r : List Nat} (hr : Junk r) :
    lit (w.digits ++ r) = some (false, .num ⟨decVal (w.ip ++ w.fp), 10 ^ w.fp.length⟩, r) := by
  have key := body_text hw hr
  obtain ⟨d, l, hd, hl⟩ : ∃ d l, d < 10 ∧ w.digits ++ r = (d + 48) :: l := by
    cases h : w.ip with
    | nil => exact absurd h hw.some
    | cons d ds =>
      refine ⟨d, ds.map (· + 48) ++ (if w.fp = [] then [] else 46 :: w.fp.map (· + 48)) ++ r,
        hw.ip d (by rw [h]; exact List.mem_cons_self ..), ?_⟩
      unfold Size.digits; rw [h]; simp
  rw [hl] at key ⊢
  unfold lit
  have hws : isWs (d + 48) = false := by
    unfold isWs
    simp only [Bool.or_eq_false_iff, beq_eq_false_iff_ne, ne_eq]
    omega
  rw [List.dropWhile_cons_of_neg (by rw [hws]; simp)]
  split
  · next h => simp only [List.cons.injEq] at h; omega
  · next h => simp only [List.cons.injEq] at h; omega
  · rw [key]; rfl

theorem suffix_unit (u : Unt) : ∃ k, suffix u.text = some k ∧ u.factor = 2 ^ k ∧ k ≤ 50 := by
  cases u
  · exact ⟨0, by decide, by decide, by decide⟩
  all_goals first
    | exact ⟨10, by decide, by decide, by decide⟩
    | exact ⟨20, by decide, by decide, by decide⟩
    | exact ⟨30, by decide, by decide, by decide⟩
    | exact ⟨40, by decide, by decide, by decide⟩
    | exact ⟨50, by decide, by decide, by decide⟩

theorem parse_text {w : Size} (hw : w.Wf) :
    ∃ k, suffix w.unt.text = some k ∧ w.num = decVal (w.ip ++ w.fp) * 2 ^ k ∧
      parseSize w.text =
        if erange ⟨decVal (w.ip ++ w.fp), w.den⟩ then .die
        else toLong false (whole (round ⟨decVal (w.ip ++ w.fp), w.den⟩).1
          ((round ⟨decVal (w.ip ++ w.fp), w.den⟩).2 + k)) := by
  obtain ⟨k, h1, h2, h3⟩ := suffix_unit w.unt
  refine ⟨k, h1, by unfold Size.num; rw [h2], ?_⟩
  unfold parseSize Size.text
  rw [lit_text hw (junk_unit _)]
  simp only [h1]
  unfold Size.den
  split
  · rfl
  · rw [if_neg (by simp)]

theorem den_pos (w : Size) : 0 < w.den := Nat.pow_pos (by omega)

theorem den_le {w : Size} (hw : w.Wf) : w.den ≤ 2 ^ 16000 := by
  unfold Size.den
  have h1 : (10:Nat) ^ w.fp.length ≤ (2 ^ 4) ^ w.fp.length := Nat.pow_le_pow_left (by decide) _
  have h2 : ((2:Nat) ^ 4) ^ w.fp.length ≤ 2 ^ 16000 := by
    rw [← Nat.pow_mul]
    exact Nat.pow_le_pow_right (by omega) (by have := hw.short; omega)
  exact Nat.le_trans h1 h2

/-! ### Sizes -/

/-- A size a user writes is taken as the size it means, if it is below 2^63 - 1 bytes: cut down to
whole bytes, exact if it is whole. -/
theorem C70_size {w : Size} (hw : w.Wf) (hx : w.num < (2 ^ 63 - 1) * w.den) :
    ∃ r : Nat, parseSize w.text = .ok (r : Int) ∧ w.Is r := by
  obtain ⟨k, h1, h2, h3⟩ := parse_text hw
  have hd := den_pos w
  have hx' : decVal (w.ip ++ w.fp) * 2 ^ k < 2 ^ 63 * w.den := by
    rw [← h2]
    exact Nat.lt_of_lt_of_le hx (Nat.mul_le_mul_right _ (by decide))
  have he := erange_small (q := ⟨decVal (w.ip ++ w.fp), w.den⟩) hd (den_le hw) k hx'
  obtain ⟨a1, a2, a3, a4, a5⟩ := whole_round (q := ⟨decVal (w.ip ++ w.fp), w.den⟩) hd k hx'
  rw [he] at h3
  simp only [Bool.false_eq_true, if_false] at h3
  simp only at a1 a2 a3 a4 a5
  generalize whole (round ⟨decVal (w.ip ++ w.fp), w.den⟩).1 ((round ⟨decVal (w.ip ++ w.fp), w.den⟩).2 + k) = r at *
  rw [← h2] at a1 a2 a3 a4
  have hfl : w.num / w.den < 2 ^ 63 - 1 := by
    rw [Nat.div_lt_iff_lt_mul hd]; exact hx
  refine ⟨r, ?_, ⟨a1, a2, a3, a4⟩⟩
  rw [h3]
  unfold toLong
  simp only [Bool.false_eq_true, if_false]
  rw [if_neg (by omega)]

theorem whole_big {q : Q} (hd : 0 < q.d) (k : Nat) (hx : 2 ^ 63 * q.d ≤ q.n * 2 ^ k) :
    2 ^ 63 ≤ whole (round q).1 ((round q).2 + k) := by
  have hn : 0 < q.n := by
    rcases Nat.eq_zero_or_pos q.n with h | h
    · rw [h] at hx; have := Nat.mul_pos (Nat.two_pow_pos 63) hd; omega
    · exact h
  obtain ⟨b1, b2⟩ := exponent_bounds hn hd
  obtain ⟨c1, _, _⟩ := nearest_cases (scaled q (exponent q)) (scaled_pos hd _)
  have hr : round q = (nearest (scaled q (exponent q)), exponent q) := by
    unfold round; rw [if_neg (by omega)]
  rw [hr]
  simp only
  have hm : (scaled q (exponent q)).n / (scaled q (exponent q)).d ≤ nearest (scaled q (exponent q)) := by omega
  have hm63 : 2 ^ 63 ≤ nearest (scaled q (exponent q)) :=
    Nat.le_trans ((Nat.le_div_iff_mul_le (scaled_pos hd _)).2 b1) hm
  unfold whole
  by_cases h : 0 ≤ exponent q + k
  · rw [if_pos h]
    exact Nat.le_trans hm63 (Nat.le_mul_of_pos_right _ (Nat.two_pow_pos _))
  · rw [if_neg h]
    rw [Nat.le_div_iff_mul_le (Nat.two_pow_pos _)]
    have hs : scaled q (exponent q) = ⟨q.n * 2 ^ (-exponent q).toNat, q.d⟩ := by
      unfold scaled; rw [if_neg (by omega)]
    rw [hs] at hm ⊢
    refine Nat.le_trans ?_ hm
    simp only
    rw [Nat.le_div_iff_mul_le hd]
    have hj : (-exponent q).toNat = k + (-(exponent q + k)).toNat := by omega
    rw [hj, Nat.pow_add, ← Nat.mul_assoc, Nat.mul_right_comm]
    exact Nat.mul_le_mul_right _ hx

/-- A size of 2^63 bytes or more is never taken as some other size. -/
theorem C70_size_too_large {w : Size} (hw : w.Wf) (hx : 2 ^ 63 * w.den ≤ w.num) :
    ∀ v, parseSize w.text ≠ .ok v := by
  obtain ⟨k, h1, h2, h3⟩ := parse_text hw
  intro v
  rw [h3]
  split
  · simp
  · have := whole_big (q := ⟨decVal (w.ip ++ w.fp), w.den⟩) (den_pos w) k (by rw [← h2]; exact hx)
    unfold toLong
    simp only [Bool.false_eq_true, if_false]
    rw [if_pos this]; simp

/-- Anything but one of the units behind the number is refused. -/
theorem C70_size_junk {w : Size} (hw : w.Wf) {r : List Nat} (hr : Junk r) (hu : ∀ u : Unt, r ≠ u.text) :
    parseSize (w.digits ++ r) = .die := by
  unfold parseSize
  rw [lit_text hw hr]
  simp only
  have : suffix r = none := by
    unfold suffix
    split
    · exact absurd rfl (hu .one)
    · next c =>
      have key : ∀ b, upper c = b → c = b ∨ c = b + 32 := by
        intro b h; unfold upper at h; split at h <;> omega
      rw [if_neg (fun h => (key _ h).elim (fun e => hu .K (by rw [e]; rfl)) (fun e => hu .k (by rw [e]; rfl))),
        if_neg (fun h => (key _ h).elim (fun e => hu .M (by rw [e]; rfl)) (fun e => hu .m (by rw [e]; rfl))),
        if_neg (fun h => (key _ h).elim (fun e => hu .G (by rw [e]; rfl)) (fun e => hu .g (by rw [e]; rfl))),
        if_neg (fun h => (key _ h).elim (fun e => hu .T (by rw [e]; rfl)) (fun e => hu .t (by rw [e]; rfl))),
        if_neg (fun h => (key _ h).elim (fun e => hu .P (by rw [e]; rfl)) (fun e => hu .p (by rw [e]; rfl)))]
    · rfl
  rw [this]
  split <;> rfl

/-- A size with a minus sign is never taken for a positive one. -/
theorem C70_size_negative {s l : List Nat} (h : s.dropWhile isWs = 45 :: l) {v : Int}
    (hv : parseSize s = .ok v) : v ≤ 0 := by
  unfold parseSize lit at hv
  rw [h] at hv
  simp only at hv
  cases hb : body l with
  | none => rw [hb] at hv; simp at hv
  | some p =>
    obtain ⟨lt, r⟩ := p
    rw [hb] at hv
    simp only [Option.map_some] at hv
    cases lt with
    | nan => simp at hv
    | inf =>
      simp only [if_true] at hv
      split at hv <;> simp at hv
    | num q =>
      simp only at hv
      split at hv
      · simp at hv
      · split at hv
        · simp at hv
        · split at hv
          · simp at hv
          · unfold toLong at hv
            simp only [if_true] at hv
            split at hv
            · simp at hv
            · simp only [Out.ok.injEq] at hv; omega

/-- Texts which are no size, or which are sizes out of all bounds, are converted to an integer they do
not fit: "inf", "1e30", "9000000P". -/
theorem C70_size_violated :
    parseSize [105, 110, 102] = .undef ∧ parseSize [49, 101, 51, 48] = .undef ∧
    parseSize [57, 48, 48, 48, 48, 48, 48, 80] = .undef := by decide +kernel

/-- "-0.5G" is taken for a size, of less than nothing; so is "-0". -/
theorem C70_size_negative_violated :
    parseSize [45, 48, 46, 53, 71] = .ok (-536870912) ∧ parseSize [45, 48] = .ok 0 := by decide +kernel

/-! ### mkfs -/

theorem mkfsArg_last (l : List (List Nat)) (s : List Nat) : ∀ v c, mkfsArg (l ++ [s]) v = .ok c →
    mkfsArg [s] (-1) = .ok c := by
  induction l with
  | nil =>
    intro v c h
    simp only [List.nil_append, mkfsArg] at h ⊢
    exact h
  | cons a l ih =>
    intro v c h
    simp only [List.cons_append] at h
    rw [mkfsArg] at h
    split at h
    · simp at h
    · simp at h
    · exact ih _ _ h

/-- Of several sizes the last one counts, and no size means no file-system. -/
theorem C70_mkfs_last (l : List (List Nat)) (s : List Nat) {c : Nat} (h : mkfsCap (l ++ [s]) = .ok c) :
    mkfsCap [s] = .ok c ∧ mkfsCap [] = .die := by
  refine ⟨?_, by decide⟩
  unfold mkfsCap at h ⊢
  cases hm : mkfsArg (l ++ [s]) (-1) with
  | die => rw [hm] at h; simp at h
  | undef => rw [hm] at h; simp at h
  | ok v => rw [mkfsArg_last l s _ _ hm]; rw [hm] at h; exact h

/-- Whatever is written, a file-system which is made has between 2G and 64T, in units of 16M. -/
theorem C70_mkfs_bounds (l : List (List Nat)) {c : Nat} (h : mkfsCap l = .ok c) :
    2 * 1024 ^ 3 ≤ c ∧ c ≤ 64 * 1024 ^ 4 ∧ 16 * 1024 ^ 2 ∣ c := by
  unfold mkfsCap at h
  split at h
  · simp at h
  · simp at h
  · next v _ =>
    split at h
    · next hc =>
      simp only [Out.ok.injEq] at h
      unfold capOk at hc
      simp only [Bool.and_eq_true, Bool.not_eq_true', decide_eq_false_iff_not] at hc
      unfold alignCap at h
      refine ⟨by omega, by omega, ⟨v / 16777216, by omega⟩⟩
    · simp at h

/-- A size a user writes is the capacity of the file-system, cut down to a multiple of 16M; nothing is made
if it is out of bounds. -/
theorem C70_mkfs {w : Size} (hw : w.Wf) (hx : w.num < (2 ^ 63 - 1) * w.den) :
    ∃ r, w.Is r ∧
      ((2 * 1024 ^ 3 ≤ r ∧ r ≤ 64 * 1024 ^ 4) →
        ∃ c, mkfsCap [w.text] = .ok c ∧ c ≤ r ∧ r < c + 16 * 1024 ^ 2 ∧ 16 * 1024 ^ 2 ∣ c ∧
          w.num < (c + 16 * 1024 ^ 2) * w.den) ∧
      (¬ (2 * 1024 ^ 3 ≤ r ∧ r ≤ 64 * 1024 ^ 4) → mkfsCap [w.text] = .die) := by
  obtain ⟨r, hp, hi⟩ := C70_size hw hx
  have ha : mkfsArg [w.text] (-1) = .ok r := by
    simp only [mkfsArg, hp]
    rw [if_neg (by omega)]
    simp
  refine ⟨r, hi, ?_, ?_⟩
  · intro hb
    refine ⟨alignCap r, ?_, ?_, ?_, ?_, ?_⟩
    · unfold mkfsCap; rw [ha]; simp only
      rw [if_pos]
      unfold capOk
      simp only [Bool.and_eq_true, Bool.not_eq_true', decide_eq_false_iff_not]
      omega
    · unfold alignCap; omega
    · unfold alignCap; omega
    · exact ⟨r / 16777216, by unfold alignCap; omega⟩
    · have h1 : w.num < (w.num / w.den + 1) * w.den := by
        have := Nat.lt_mul_div_succ w.num (den_pos w)
        rw [Nat.mul_comm]; exact this
      refine Nat.lt_of_lt_of_le h1 (Nat.mul_le_mul_right _ ?_)
      have := hi.low
      unfold alignCap; omega
  · intro hb
    unfold mkfsCap; rw [ha]; simp only
    rw [if_neg]
    unfold capOk
    simp only [Bool.and_eq_true, Bool.not_eq_true', decide_eq_false_iff_not]
    omega

/-- The size of a file-system which is made is the one statfs(2) tells: blocks times block size, to the byte. -/
theorem C70_statfs (l : List (List Nat)) {c : Nat} (h : mkfsCap l = .ok c) (s : Space.Sys) (hs : s.cap = c) :
    (Rep.fillStatvfs s).blocks * (Rep.fillStatvfs s).frsize = c := by
  obtain ⟨_, _, k, hk⟩ := C70_mkfs_bounds l h
  show s.cap / 4096 * 4096 = c
  rw [hs]
  omega

/-- A size with a minus sign makes no file-system. -/
theorem C70_mkfs_negative (l : List (List Nat)) {s t : List Nat} (h : s.dropWhile isWs = 45 :: t) (c : Nat) :
    mkfsCap (l ++ [s]) ≠ .ok c := by
  intro hm
  have h1 := (C70_mkfs_last l s hm).1
  have h2 := C70_mkfs_bounds _ h1
  unfold mkfsCap at h1
  simp only [mkfsArg] at h1
  cases hp : parseSize s with
  | die => rw [hp] at h1; simp at h1
  | undef => rw [hp] at h1; simp at h1
  | ok v =>
    have := C70_size_negative h hp
    rw [hp] at h1
    simp only at h1
    split at h1 <;> (try simp at h1)
    next he =>
    split at he
    · simp at he
    · simp only [Out.ok.injEq] at he
      unfold capOk alignCap at h1
      have : v = 0 := by omega
      subst this
      subst he
      simp at h1

/-- The hypotheses are met: "1.5T", "2g", "0.1P"; and what is made of "3G" and "2.0625G" and "1G". -/
example : (⟨[1], [5], .T⟩ : Size).Wf ∧ (⟨[1], [5], .T⟩ : Size).num < (2 ^ 63 - 1) * (⟨[1], [5], .T⟩ : Size).den ∧
    (⟨[1], [5], .T⟩ : Size).text = [49, 46, 53, 84] ∧
    mkfsCap [[49, 46, 53, 84]] = .ok 1649267441664 ∧ mkfsCap [[50, 103]] = .ok 2147483648 ∧
    mkfsCap [[51, 71]] = .ok 3221225472 ∧ mkfsCap [[49, 71]] = .die ∧
    mkfsCap [[50, 46, 49, 71]] = .ok 2248146944 ∧ mkfsCap [[54, 52, 84]] = .ok 70368744177664 ∧
    mkfsCap [[54, 52, 46, 49, 84]] = .die ∧ parseSize [49, 71, 66] = .die := by
  refine ⟨⟨?_, ?_, ?_, ?_⟩, ?_⟩
  · intro d hd; simp at hd; omega
  · intro d hd; simp at hd; omega
  · simp
  · simp
  · decide +kernel

/-! ### Numbers and booleans -/

/-- A number of "tune" is taken as written, or refused. -/
theorem C70_number_partial {ds : List Nat} (hd : ∀ d ∈ ds, d < 10) (h0 : ds.head? ≠ some 0) (hne : ds ≠ [])
    {lo hi : Nat} (hh : hi ≤ 4294967295) :
    parseU32v lo hi (ds.map (· + 48)) =
      if lo ≤ decVal ds ∧ decVal ds ≤ hi then .ok (decVal ds) else .die := by
  obtain ⟨d, t, rfl⟩ : ∃ d t, ds = d :: t := by
    cases ds with
    | nil => exact absurd rfl hne
    | cons d t => exact ⟨d, t, rfl⟩
  have hd0 : d ≠ 0 := by simpa using h0
  have hd1 : d < 10 := hd d (List.mem_cons_self ..)
  have hdig := digits_app (d :: t) hd [] (by simp) 0
  simp only [List.append_nil] at hdig
  have hb : strtoulBody ((d :: t).map (· + 48)) = some (decVal (d :: t), []) := by
    unfold strtoulBody
    split
    · next h => simp only [List.map_cons, List.cons.injEq] at h; omega
    · rw [hdig]; simp [decVal]
  have hs : strtol ((d :: t).map (· + 48)) =
      if 9223372036854775807 < decVal (d :: t) then none else some ((decVal (d :: t) : Int), []) := by
    unfold strtol
    have hws : isWs (d + 48) = false := by
      unfold isWs
      simp only [Bool.or_eq_false_iff, beq_eq_false_iff_ne, ne_eq]
      omega
    rw [List.map_cons, List.dropWhile_cons_of_neg (by rw [hws]; simp)]
    split
    · next h => simp only [List.cons.injEq] at h; omega
    · next h => simp only [List.cons.injEq] at h; omega
    · rw [List.map_cons] at hb; rw [hb]
  unfold parseU32v Idsconf.parseLong
  rw [hs]
  generalize decVal (d :: t) = x
  by_cases hx : 9223372036854775807 < x
  · rw [if_pos hx, if_neg (by omega)]
  · rw [if_neg hx]
    simp only [List.length_nil, Nat.not_lt_zero, if_false]
    by_cases hx2 : 4294967295 < x
    · rw [if_pos (by omega), if_neg (by omega)]
    · rw [if_neg (by omega)]
      by_cases hx3 : lo ≤ x ∧ x ≤ hi
      · rw [if_neg (by omega), if_pos hx3]; simp
      · rw [if_pos (by omega), if_neg hx3]

/-- What is missing: "1x" is no number, but is taken for 1; "010" is taken for 8. -/
theorem C70_number_violated :
    parseU32v 1 2 [49, 120] = .ok 1 ∧ parseU32v 1 20 [48, 49, 48] = .ok 8 := by decide +kernel

/-- "0", "1", "false" and "true" mean what they say, all else is refused. -/
theorem C70_bool (s : String) (v : Bool) :
    parseBool (s.toList.map Char.toNat) = .ok v ↔
      (v = false ∧ (s = "0" ∨ s = "false")) ∨ (v = true ∧ (s = "1" ∨ s = "true")) := by
  have inj : ∀ t : String, s.toList.map Char.toNat = t.toList.map Char.toNat ↔ s = t := by
    intro t
    constructor
    · intro h
      have : s.toList = t.toList := by
        have hinj : ∀ a b : List Char, a.map Char.toNat = b.map Char.toNat → a = b := by
          intro a
          induction a with
          | nil => intro b h; cases b with
            | nil => rfl
            | cons _ _ => simp at h
          | cons x xs ih => intro b h; cases b with
            | nil => simp at h
            | cons y ys =>
              simp only [List.map_cons, List.cons.injEq] at h
              rw [ih ys h.2, Char.ext (UInt32.toNat_inj.1 h.1)]
        exact hinj _ _ h
      exact String.ext this
    · rintro rfl; rfl
  have e0 : [48] = "0".toList.map Char.toNat := by decide
  have e1 : [49] = "1".toList.map Char.toNat := by decide
  have ef : [102, 97, 108, 115, 101] = "false".toList.map Char.toNat := by decide
  have et : [116, 114, 117, 101] = "true".toList.map Char.toNat := by decide
  unfold parseBool
  rw [e0, e1, ef, et]
  simp only [inj]
  by_cases h1 : s = "0" ∨ s = "false"
  · rw [if_pos h1]
    have : ¬ (s = "1" ∨ s = "true") := by
      rcases h1 with h | h <;> subst h <;> decide
    simp only [Out.ok.injEq, h1, this, and_true, and_false, or_false]
    exact eq_comm
  · rw [if_neg h1]
    by_cases h2 : s = "1" ∨ s = "true"
    · rw [if_pos h2]
      simp only [Out.ok.injEq, h1, h2, and_true, and_false, false_or]
      exact eq_comm
    · rw [if_neg h2]; simp [h1, h2]

/-! ### Paths -/

theorem rchr_none {c : Nat} : ∀ l, rchr c l = none ↔ c ∉ l
  | [] => by simp [rchr]
  | b :: l => by
    have ih := rchr_none (c := c) l
    unfold rchr
    cases h : rchr c l with
    | none =>
      simp only [h, true_iff] at ih
      by_cases e : b = c
      · simp [e]
      · simp [e, ih, Ne.symm e]
    | some i =>
      simp only [h, reduceCtorEq, false_iff, Decidable.not_not] at ih
      simp [ih]

theorem rchr_some {c : Nat} : ∀ l i, rchr c l = some i → i < l.length ∧ l = l.take i ++ c :: l.drop (i + 1) ∧
    c ∉ l.drop (i + 1)
  | [], _, h => by simp [rchr] at h
  | b :: l, i, h => by
    unfold rchr at h
    cases hr : rchr c l with
    | none =>
      rw [hr] at h
      simp only at h
      by_cases e : b = c
      · rw [if_pos e] at h
        cases h
        refine ⟨by simp, by simp [e], ?_⟩
        simpa using (rchr_none l).1 hr
      · rw [if_neg e] at h; cases h
    | some j =>
      rw [hr] at h
      simp only [Option.some.injEq] at h
      subst h
      obtain ⟨a1, a2, a3⟩ := rchr_some l j hr
      refine ⟨by simp; omega, ?_, by simpa using a3⟩
      simp only [List.take_succ_cons, List.drop_succ_cons, List.cons_append]
      exact congrArg _ a2

theorem joinPath_eq {p t : List Nat} (hp : 0 ∉ p) (ht : 0 ∉ t) : joinPath p t = p ++ 47 :: t := by
  unfold joinPath
  have e : put (put (put (put (List.replicate (p.length + t.length + 2) 0) 0 p) (1 + p.length) t)
      p.length [47]) (p.length + t.length + 1) [0] = (p ++ 47 :: t) ++ [0] := by
    have h1 : put (List.replicate (p.length + t.length + 2) 0) 0 p = p ++ (0 :: (List.replicate t.length 0 ++ [0])) := by
      unfold put
      simp only [List.take_zero, List.nil_append, Nat.zero_add, List.drop_replicate]
      have e1 : p.length + t.length + 2 - p.length = (t.length + 1) + 1 := by omega
      rw [e1, List.replicate_succ, List.replicate_succ']
    have h2 : put (p ++ (0 :: (List.replicate t.length 0 ++ [0]))) (1 + p.length) t = p ++ (0 :: (t ++ [0])) := by
      unfold put
      have a : (p ++ (0 :: (List.replicate t.length 0 ++ [0]))).take (1 + p.length) = p ++ [0] := by
        rw [List.take_append, List.take_of_length_le (by omega)]
        have : 1 + p.length - p.length = 1 := by omega
        rw [this]; simp
      have b : (p ++ (0 :: (List.replicate t.length 0 ++ [0]))).drop (1 + p.length + t.length) = [0] := by
        rw [List.drop_append, List.drop_of_length_le (by omega)]
        have : 1 + p.length + t.length - p.length = t.length + 1 := by omega
        rw [this]; simp
      rw [a, b]; simp
    have h3 : put (p ++ (0 :: (t ++ [0]))) p.length [47] = p ++ (47 :: (t ++ [0])) := by
      unfold put
      rw [List.take_left]
      have : (p ++ (0 :: (t ++ [0]))).drop (p.length + [47].length) = t ++ [0] := by
        rw [List.drop_append, List.drop_of_length_le (by simp)]
        have : p.length + [47].length - p.length = 1 := by simp
        rw [this]; simp
      rw [this]; simp
    rw [h1, h2, h3]
    unfold put
    have a : (p ++ (47 :: (t ++ [0]))).take (p.length + t.length + 1) = p ++ 47 :: t := by
      rw [List.take_append, List.take_of_length_le (by omega)]
      have : p.length + t.length + 1 - p.length = t.length + 1 := by omega
      rw [this]; simp
    have b : (p ++ (47 :: (t ++ [0]))).drop (p.length + t.length + 1 + [0].length) = [] := by
      apply List.drop_of_length_le; simp; omega
    rw [a, b]; simp
  rw [e]
  have : ∀ l : List Nat, 0 ∉ l → (l ++ [0]).takeWhile (· != 0) = l := by
    intro l hl
    induction l with
    | nil => rfl
    | cons a l ih =>
      simp only [List.mem_cons, not_or] at hl
      rw [List.cons_append, List.takeWhile_cons_of_pos (by simpa using Ne.symm hl.1), ih hl.2]
  apply this
  simp [hp, ht]

/-- "dir/name" is cut at the last '/': the name has no '/' and is not empty; putting both together
again gives the path.  A path without '/' is a name in the current directory. -/
theorem C70_path {cwd p h t : List Nat} (hz : 0 ∉ p) (hs : splitPath cwd p = .ok (h, t)) :
    47 ∉ t ∧ ((47 ∈ p ∧ h ≠ [] ∧ t ≠ [] ∧ joinPath h t = p) ∨ (47 ∉ p ∧ h = cwd ∧ t = p)) := by
  unfold splitPath at hs
  cases hr : rchr 47 p with
  | none =>
    rw [hr] at hs
    simp only [Out.ok.injEq, Prod.mk.injEq] at hs
    have := (rchr_none p).1 hr
    refine ⟨by rw [← hs.2]; exact this, .inr ⟨this, hs.1.symm, hs.2.symm⟩⟩
  | some i =>
    rw [hr] at hs
    obtain ⟨a1, a2, a3⟩ := rchr_some p i hr
    simp only at hs
    split at hs
    · simp at hs
    · split at hs
      · simp at hs
      · simp only [Out.ok.injEq, Prod.mk.injEq] at hs
        obtain ⟨rfl, rfl⟩ := hs
        refine ⟨a3, .inl ⟨?_, ?_, ?_, ?_⟩⟩
        · rw [a2]; simp
        · intro e; have := congrArg List.length e; rw [List.length_take, List.length_nil] at this; omega
        · intro e; rename_i h1 _; exact h1 (by rw [e]; rfl)
        · rw [joinPath_eq (fun h => hz (List.mem_of_mem_take h)) (fun h => hz (List.mem_of_mem_drop h))]
          exact a2.symm

/-- Refused are paths which end with '/', and names right below the root. -/
theorem C70_path_refused {cwd p : List Nat} :
    splitPath cwd p = .die ↔ (∃ h, p = h ++ [47]) ∨ (∃ t, p = 47 :: t ∧ 47 ∉ t) := by
  unfold splitPath
  cases hr : rchr 47 p with
  | none =>
    have hn := (rchr_none p).1 hr
    simp only [reduceCtorEq, false_iff, not_or]
    constructor
    · rintro ⟨h, rfl⟩; exact hn (by simp)
    · rintro ⟨t, rfl, _⟩; exact hn (by simp)
  | some i =>
    obtain ⟨a1, a2, a3⟩ := rchr_some p i hr
    simp only
    constructor
    · intro h
      split at h
      · next h1 =>
        left
        refine ⟨p.take i, ?_⟩
        rw [List.length_eq_zero_iff.1 h1] at a2
        exact a2
      · split at h
        · next h2 =>
          right
          subst h2
          exact ⟨p.drop 1, by simpa using a2, a3⟩
        · simp at h
    · rintro (⟨h, rfl⟩ | ⟨t, rfl, ht⟩)
      · rw [if_pos]
        refine Classical.byContradiction fun hc => ?_
        have hi : i + 1 ≤ h.length := by
          simp only [List.length_drop, List.length_append, List.length_cons, List.length_nil] at hc
          omega
        rw [List.drop_append_of_le_length hi] at a3
        exact a3 (by simp)
      · have : i = 0 := by
          refine Classical.byContradiction fun hc => ?_
          obtain ⟨j, rfl⟩ : ∃ j, i = j + 1 := ⟨i - 1, by omega⟩
          simp only [List.take_succ_cons, List.drop_succ_cons, List.cons_append, List.cons.injEq, true_and] at a2
          exact ht (by rw [a2]; simp)
        subst this
        split
        · rfl
        · rfl

example : splitPath [47, 97] [98, 47, 99, 47, 100] = .ok ([98, 47, 99], [100]) ∧
    splitPath [47, 97] [100] = .ok ([47, 97], [100]) ∧ splitPath [] [97, 47] = .die := by decide +kernel

end Silofs.Cv
