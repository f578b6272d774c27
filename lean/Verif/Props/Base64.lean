import Verif.Model.Base64
/-!
C28: base64 encode/decode round-trips and stays in bounds.
-/
namespace Silofs.Base64

theorem encTbl_dec_all : ∀ s, s < 64 → decSext ((encTbl.getD s 0 : Nat) : Int) = .ok s := by
  decide +kernel

theorem encTbl_not_pad_all : ∀ s, s < 64 → ((encTbl.getD s 0 : Nat) : Int) ≠ pad := by
  decide +kernel

theorem decSext_encSext (s : Nat) : decSext (encSext s) = .ok (s % 64) :=
  encTbl_dec_all _ (Nat.mod_lt _ (by decide))

theorem encSext_ne_pad (s : Nat) : encSext s ≠ pad :=
  encTbl_not_pad_all _ (Nat.mod_lt _ (by decide))

theorem encBody_length (l : List Nat) : (encBody l).length = encLen l.length := by
  fun_induction encBody l <;> simp_all [encHead3, encLen] <;> omega

/-- One non-pad character in the running loop. -/
theorem decLoop_sext (outMax : Nat) (s : Nat) (rest : List Int) (i : Nat) (sx out : List Nat)
    (h : out.length < outMax) (hs : out.length + sx.length ≤ outMax) :
    decLoop outMax (encSext s :: rest) i sx 0 out =
      if sx.length = 3 then
        decLoop outMax rest (i+1) [] 0 (out ++ decSextets (sx ++ [s % 64]) 3)
      else decLoop outMax rest (i+1) (sx ++ [s % 64]) 0 out := by
  rw [decLoop]
  have hn : ¬ (outMax < out.length + sx.length) := by omega
  simp [h, encSext_ne_pad, decSext_encSext, hn]

theorem decLoop_encBody (l : List Nat) (hb : ∀ b ∈ l, b < 256) (outMax i : Nat) (out : List Nat)
    (hm : out.length + l.length ≤ outMax) :
    decLoop outMax (encBody l) i [] 0 out = .ok (out ++ l) (i + encLen l.length) := by
  fun_induction encBody l generalizing i out with
  | case1 a b c rest ih =>
    have ha : a < 256 := hb a (by simp)
    have hb' : b < 256 := hb b (by simp)
    have hc : c < 256 := hb c (by simp)
    simp only [List.length_cons] at hm
    simp only [encHead3, List.cons_append, List.nil_append]
    rw [decLoop_sext _ _ _ _ _ _ (by omega) (by simp; omega)]
    simp only [List.length_nil, List.nil_append]
    rw [if_neg (by simp), decLoop_sext _ _ _ _ _ _ (by omega) (by simp; omega)]
    simp only [List.length_cons, List.length_nil, List.cons_append, List.nil_append]
    rw [if_neg (by simp), decLoop_sext _ _ _ _ _ _ (by omega) (by simp; omega)]
    simp only [List.length_cons, List.length_nil, List.cons_append, List.nil_append]
    rw [if_neg (by simp), decLoop_sext _ _ _ _ _ _ (by omega) (by simp; omega)]
    simp only [List.length_cons, List.length_nil, List.cons_append, List.nil_append]
    rw [if_pos (by simp)]
    have e : decSextets [a / 4 % 64, (a * 16 + b / 16) % 64, (b * 4 + c / 64) % 64, c % 64] 3
        = [a, b, c] := by
      simp [decSextets]
      omega
    rw [e, ih (fun x hx => hb x (by simp [hx])) _ _ (by simp; omega)]
    simp [encLen]
    omega
  | case2 a b =>
    have ha : a < 256 := hb a (by simp)
    have hb' : b < 256 := hb b (by simp)
    simp only [List.length_cons, List.length_nil] at hm
    rw [decLoop_sext _ _ _ _ _ _ (by omega) (by simp; omega)]
    simp only [List.length_nil, List.nil_append]
    rw [if_neg (by simp), decLoop_sext _ _ _ _ _ _ (by omega) (by simp; omega)]
    simp only [List.length_cons, List.length_nil, List.cons_append, List.nil_append]
    rw [if_neg (by simp), decLoop_sext _ _ _ _ _ _ (by omega) (by simp; omega)]
    simp only [List.length_cons, List.length_nil, List.cons_append, List.nil_append]
    rw [if_neg (by simp)]
    have h1 : out.length < outMax := by omega
    have h2 : ¬ (outMax < out.length + 2) := by omega
    simp [decLoop, h1, h2, decFinish, decSextets, encLen]
    omega
  | case3 a =>
    have ha : a < 256 := hb a (by simp)
    simp only [List.length_cons, List.length_nil] at hm
    rw [decLoop_sext _ _ _ _ _ _ (by omega) (by simp; omega)]
    simp only [List.length_nil, List.nil_append]
    rw [if_neg (by simp), decLoop_sext _ _ _ _ _ _ (by omega) (by simp; omega)]
    simp only [List.length_cons, List.length_nil, List.cons_append, List.nil_append]
    rw [if_neg (by simp)]
    have h1 : out.length < outMax := by omega
    have h2 : ¬ (outMax < out.length + 1) := by omega
    simp [decLoop, h1, h2, decFinish, decSextets, encLen]
    omega
  | case4 => simp [decLoop, decFinish, encLen]

/-- **C28 (round trip)**: whatever the output buffers, if the encoder succeeds the
decoder given its text and a buffer that can hold the data returns the
original bytes and reports the whole text as consumed. -/
theorem C28_roundtrip (l : List Nat) (hb : ∀ b ∈ l, b < 256) (encMax decMax : Nat)
    (txt : List Int) (n : Nat) (he : encode l encMax = some (txt, n)) (hd : l.length ≤ decMax) :
    decode (txt.take n) decMax = .ok l n := by
  unfold encode at he
  simp only at he
  split at he
  · simp at he
  · simp only [Option.some.injEq, Prod.mk.injEq] at he
    obtain ⟨rfl, rfl⟩ := he
    have := encBody_length l
    rw [← this, List.take_left, decode, decLoop_encBody l hb _ _ _ (by simpa using hd)]
    simp [this]

/-- The encoder succeeds exactly when the buffer can hold the encoding. -/
theorem C28_encode_iff (l : List Nat) (m : Nat) :
    (encode l m).isSome ↔ (l.length + 2) / 3 * 4 ≤ m := by
  unfold encode encLen
  simp only
  split <;> simp <;> omega

/-- **C28 (encoder bounds)**: the encoder never writes past the given buffer. -/
theorem C28_encode_bounds (l : List Nat) (m : Nat) (txt : List Int) (n : Nat)
    (he : encode l m = some (txt, n)) : txt.length ≤ m ∧ n = (l.length + 2) / 3 * 4 := by
  unfold encode at he
  simp only at he
  split at he
  · simp at he
  · rename_i h
    simp only [Option.some.injEq, Prod.mk.injEq] at he
    obtain ⟨rfl, rfl⟩ := he
    refine ⟨?_, rfl⟩
    rw [List.length_append, encBody_length]
    split <;> simp <;> omega

theorem decSextets_length (s : List Nat) (c : Nat) : (decSextets s c).length ≤ c := by
  simp [decSextets]; omega

/-- Number of bytes stored in the output buffer in a given outcome. -/
def DecRes.written : DecRes → Nat
  | .ok o _ => o.length
  | .einval o _ => o.length
  | .ub => 0

theorem decFinish_bounds (m i : Nat) (sx out : List Nat) (h : out.length ≤ m) :
    (decFinish m i sx out).written ≤ m := by
  unfold decFinish
  split
  · split
    · simpa [DecRes.written]
    · have := decSextets_length sx (sx.length - 1)
      simp only [DecRes.written, List.length_append]; omega
  · simpa [DecRes.written]

theorem decLoop_bounds (m : Nat) (inp : List Int) (i : Nat) (sx : List Nat) (np : Nat)
    (out : List Nat) (h : out.length ≤ m) :
    (decLoop m inp i sx np out).written ≤ m := by
  induction inp generalizing i sx np out with
  | nil => rw [decLoop]; exact decFinish_bounds _ _ _ _ h
  | cons c rest ih =>
    rw [decLoop]
    split
    · split
      · exact ih _ _ _ _ h
      · split
        · exact decFinish_bounds _ _ _ _ h
        · cases decSext c with
          | ub => simp [DecRes.written]
          | einval => simpa [DecRes.written]
          | ok s =>
            simp only
            split
            · simpa [DecRes.written]
            · split
              · rename_i h1 h2
                apply ih
                have := decSextets_length (sx ++ [s]) 3
                simp only [List.length_append, List.length_cons, List.length_nil] at *
                omega
              · exact ih _ _ _ _ h
    · exact decFinish_bounds _ _ _ _ h

/-- **C28 (decoder bounds)**: for every text and every buffer size the decoder
never writes past the buffer, whether it succeeds or reports an error. -/
theorem C28_decode_bounds (txt : List Int) (m : Nat) :
    (decode txt m).written ≤ m :=
  decLoop_bounds m txt 0 [] 0 [] (by simp)

theorem decLoop_no_ub (m : Nat) (inp : List Int) (hi : ∀ c ∈ inp, 0 ≤ c) (i : Nat) (sx : List Nat)
    (np : Nat) (out : List Nat) : decLoop m inp i sx np out ≠ .ub := by
  have hf : ∀ m i sx out, decFinish m i sx out ≠ .ub := by
    intro m i sx out; unfold decFinish; repeat' split <;> simp
  induction inp generalizing i sx np out with
  | nil => rw [decLoop]; exact hf _ _ _ _
  | cons c rest ih =>
    have ihr := ih (fun x hx => hi x (by simp [hx]))
    have hc : 0 ≤ c := hi c (by simp)
    have hd : decSext c ≠ .ub := by
      unfold decSext; repeat' split <;> simp <;> try omega
    rw [decLoop]
    split
    · split
      · exact ihr _ _ _ _
      · split
        · exact hf _ _ _ _
        · cases hh : decSext c with
          | ub => exact absurd hh hd
          | einval => simp
          | ok s =>
            simp only
            split
            · simp
            · split
              · exact ihr _ _ _ _
              · exact ihr _ _ _ _
    · exact hf _ _ _ _

/-- **C28 (definedness, partial)**: decoding is free of undefined behaviour for
every text whose characters are all ASCII (non-negative `char`s).
Full statement: for every text.  It is false, see `C28_decode_ub_violated`. -/
theorem C28_decode_defined_partial (txt : List Int) (h : ∀ c ∈ txt, 0 ≤ c) (m : Nat) :
    decode txt m ≠ .ub := decLoop_no_ub m txt h 0 [] 0 []

/-- The full definedness claim is violated: one text byte 0x80 (char -128) makes
the decoder read its table out of bounds. -/
theorem C28_decode_ub_violated : ¬ ∀ (txt : List Int) (m : Nat), decode txt m ≠ .ub := by
  intro h
  exact h [-128] 1 (by decide)

/-- A text with a character outside the alphabet at a position that is actually
inspected is rejected. -/
theorem C28_reject (c : Int) (rest : List Int) (m : Nat) (hm : 0 < m) (hc : 0 ≤ c) (hp : c ≠ pad)
    (ha : ∀ s < 64, ((encTbl.getD s 0 : Nat) : Int) ≠ c) :
    decode (c :: rest) m = .einval [] 0 := by
  have hs : decSext c = .einval := by
    unfold decSext
    split
    · rfl
    · rename_i h123
      have hcn : (c.toNat : Int) = c := Int.toNat_of_nonneg hc
      rw [if_neg (by omega)]
      have key : ∀ n, n < 123 → (∀ s < 64, encTbl.getD s 0 ≠ n) → decTbl n < 0 := by
        decide +kernel
      have := key c.toNat (by omega) (fun s hs e => ha s hs (by rw [e]; exact hcn))
      simp only
      rw [if_pos (Or.inl this)]
  simp [decode, decLoop, hm, hp, hs]

/-! Non-vacuity: concrete instances of the hypotheses. -/
example : encode [0, 255, 16, 131, 7] 20 = some (encBody [0, 255, 16, 131, 7] ++ [0], 8) := by decide
example : decode ((encBody [0, 255, 16, 131, 7])) 5 = .ok [0, 255, 16, 131, 7] 8 := by decide
example : ∃ c : Int, 0 ≤ c ∧ c ≠ pad ∧ ∀ s < 64, ((encTbl.getD s 0 : Nat) : Int) ≠ c :=
  ⟨33, by decide +kernel⟩

end Silofs.Base64
