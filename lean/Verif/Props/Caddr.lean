import Verif.Model.Caddr
/-!
C27 (content addresses): the archive object name determines the content address.
-/
namespace Silofs.Caddr
open Silofs Silofs.Addr

theorem digitOf_nib (b d : Nat) (hb : b ≤ 16) (hd : d < b) : digitOf b (nibToAscii d) = some d := by
  unfold digitOf
  rw [asciiToNib_nib, Nat.mod_eq_of_lt (by omega)]
  simp [hd]

theorem scanNum_append_digit (b : Nat) (l : List Nat) (acc k : Nat)
    (hl : ∀ c ∈ l, ∃ d, digitOf b c = some d) (r : List Nat) :
    ∃ v, scanNum b (l ++ r) acc k = scanNum b r v (k + l.length) ∧
      scanNum b l acc k = (v, k + l.length, []) := by
  induction l generalizing acc k with
  | nil => exact ⟨acc, by simp, by simp [scanNum]⟩
  | cons c l ih =>
    obtain ⟨d, hd⟩ := hl c (by simp)
    obtain ⟨v, h1, h2⟩ := ih (acc * b + d) (k + 1) (fun x hx => hl x (by simp [hx]))
    refine ⟨v, ?_, ?_⟩
    · simp only [List.cons_append, scanNum, hd, h1, List.length_cons]
      congr 1; omega
    · simp only [scanNum, hd, h2, List.length_cons]
      congr 2; omega

theorem digits_spec (b n : Nat) (hb : 1 < b) (hb16 : b ≤ 16) :
    (∀ c ∈ digits b n, ∃ d, digitOf b c = some d) ∧ (digits b n).length ≠ 0 ∧
    scanNum b (digits b n) 0 0 = (n, (digits b n).length, []) := by
  fun_induction digits b n with
  | case1 n h =>
    have hn : n < b := by omega
    have := digitOf_nib b n hb16 hn
    refine ⟨?_, by simp, ?_⟩
    · intro c hc; simp at hc; subst hc; exact ⟨n, this⟩
    · simp [scanNum, this]
  | case2 n h ih =>
    obtain ⟨h1, h2, h3⟩ := ih
    have hm : n % b < b := Nat.mod_lt _ (by omega)
    have hd := digitOf_nib b (n % b) hb16 hm
    refine ⟨?_, by simp, ?_⟩
    · intro c hc
      rcases List.mem_append.1 hc with hc | hc
      · exact h1 c hc
      · simp at hc; subst hc; exact ⟨_, hd⟩
    · obtain ⟨v, e1, e2⟩ := scanNum_append_digit b (digits b (n / b)) 0 0 h1 [nibToAscii (n % b)]
      rw [e1]
      rw [h3] at e2
      simp only [Prod.mk.injEq] at e2
      rw [← e2.1]
      simp [scanNum, hd]
      rw [Nat.mul_comm]; exact Nat.div_add_mod n b

theorem scanNum_digits (b n : Nat) (hb : 1 < b) (hb16 : b ≤ 16) (c : Nat) (r : List Nat)
    (hc : digitOf b c = none) :
    scanNum b (digits b n ++ (c :: r)) 0 0 = (n, (digits b n).length, c :: r) := by
  obtain ⟨h1, h2, h3⟩ := digits_spec b n hb hb16
  obtain ⟨v, e1, e2⟩ := scanNum_append_digit b (digits b n) 0 0 h1 (c :: r)
  rw [h3] at e2
  simp only [Prod.mk.injEq] at e2
  rw [e1, ← e2.1]
  simp [scanNum, hc]

theorem digits_length_pos (b n : Nat) : (digits b n).length ≠ 0 := by
  unfold digits; split <;> simp

theorem digits_length_le (b n k : Nat) (hb : 1 < b) (hk : 0 < k) (h : n < b ^ k) : (digits b n).length ≤ k := by
  induction k generalizing n with
  | zero => omega
  | succ k ih =>
    unfold digits
    split
    · simp
    · rename_i hh
      have hn : b ≤ n := by omega
      have hk' : 0 < k := by
        rcases Nat.eq_zero_or_pos k with h0 | h0
        · subst h0; simp at h; omega
        · exact h0
      have := ih (n / b) hk' (by
        rw [Nat.div_lt_iff_lt_mul (by omega)]; rw [Nat.pow_succ] at h; exact h)
      simp; omega

theorem scanLit_append (l t : List Nat) : scanLit l (l ++ t) = some t := by
  induction l with
  | nil => rfl
  | cons x l ih => simp [scanLit, ih]

theorem scanLit1 (x : Nat) (t : List Nat) : scanLit [x] (x :: t) = some t := by simp [scanLit]

/-- **C27 (archive names)**: the name of every content address of a legal kind and size
parses back to that content address. -/
theorem C27_caddr_name_roundtrip (c : Caddr) (h : c.Fits) (hc : checkCtypeSize c.ctype c.size = true) :
    byName (toName c) = .ok c := by
  cases c with | mk hash size ctype =>
  obtain ⟨⟨hl, hb⟩, hs, ht⟩ := h
  simp only at hl hb hs ht hc
  have hml : (memToAscii hash 255).length = 64 := by rw [memToAscii_length _ _ (by omega)]; omega
  have hd1 := digits_length_le 10 1 1 (by decide) (by decide) (by decide)
  have hd2 := digits_length_le 10 ctype 3 (by decide) (by decide) (by omega)
  have hd3 := digits_length_le 16 size 8 (by decide) (by decide) (by omega)
  unfold byName toName
  rw [if_neg (by simp [prefix_, hml]; omega), scanLit_append]
  simp only [List.cons_append, List.nil_append]
  rw [scanNum_digits 10 1 (by decide) (by decide) 46 _ (by decide)]
  simp only [digits_length_pos, if_false]
  rw [scanLit1]
  simp only
  rw [scanNum_digits 10 ctype (by decide) (by decide) 46 _ (by decide)]
  simp only [digits_length_pos, if_false]
  rw [scanLit1]
  simp only
  rw [scanNum_digits 16 size (by decide) (by decide) 58 _ (by decide)]
  simp only [digits_length_pos, if_false]
  rw [scanLit1]
  simp only
  rw [List.take_of_length_le (by omega), if_neg (by intro he; rw [he] at hml; simp at hml)]
  rw [asciiToMem_memToAscii hash hb 255 32 (by omega) (by omega)]
  simp [hc, hl]

/-- Whatever name is accepted denotes a content address of legal kind and size with
a full-length hash. -/
theorem C27_caddr_name_valid (t : List Nat) (c : Caddr) (h : byName t = .ok c) :
    checkCtypeSize c.ctype c.size = true ∧ c.hash.length = 32 := by
  unfold byName at h
  split at h
  · cases h
  · split at h
    · cases h
    · simp only at h
      split at h
      · cases h
      · split at h
        · cases h
        · split at h
          · cases h
          · split at h
            · cases h
            · split at h
              · cases h
              · split at h
                · cases h
                · split at h
                  · cases h
                  · split at h
                    · cases h
                    · split at h
                      · cases h
                      · rename_i hck
                        split at h
                        · cases h
                        · split at h
                          · cases h
                          · rename_i hlen
                            cases h
                            exact ⟨by simpa using hck, by simpa using hlen⟩

/-- Distinct content addresses have distinct names. -/
theorem C27_caddr_name_injective (c d : Caddr) (hc : c.Fits) (hd : d.Fits)
    (kc : checkCtypeSize c.ctype c.size = true) (kd : checkCtypeSize d.ctype d.size = true)
    (h : toName c = toName d) : c = d := by
  have e1 := C27_caddr_name_roundtrip c hc kc
  have e2 := C27_caddr_name_roundtrip d hd kd
  rw [h, e2] at e1
  cases e1; rfl

/-! Non-vacuity -/
def sampleCaddr : Caddr := ⟨List.replicate 32 190, 65536, 3⟩
example : sampleCaddr.Fits ∧ checkCtypeSize sampleCaddr.ctype sampleCaddr.size = true :=
  ⟨⟨⟨by decide, by decide⟩, by decide, by decide⟩, by decide⟩

end Silofs.Caddr
