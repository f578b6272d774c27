import Verif.Model.Mntconf
/-
C47: the configuration of the mount service means what its documentation says.
-/
set_option linter.unusedSimpArgs false
set_option linter.unusedVariables false
namespace Silofs.Mnt

/-! ### Specification: the language of the file -/

/-- Decimal digits. -/
def dec (n : Nat) : List Nat := if _h : n < 10 then [48 + n] else dec (n / 10) ++ [48 + n % 10]
termination_by n

/-- An argument; truth values in digit or word form. -/
inductive Arg
  | uid (n : Nat)
  | recursive (b word : Bool)

def Arg.text : Arg → List Nat
  | .uid n => [117, 105, 100, 61] ++ dec n
  | .recursive b w => [114, 101, 99, 117, 114, 115, 105, 118, 101, 61] ++
      (match b, w with
       | true, false => [49]
       | true, true => [116, 114, 117, 101]
       | false, false => [48]
       | false, true => [102, 97, 108, 115, 101])

def Arg.Valid : Arg → Prop
  | .uid n => n ≤ 1073741823
  | .recursive _ _ => True

/-- What an argument says about a rule; the last one of a kind counts. -/
def Arg.apply (r : Rule) : Arg → Rule
  | .uid n => ⟨r.path, n, r.recursive⟩
  | .recursive b _ => ⟨r.path, r.uid, b⟩

/-- Arguments, each after some blanks. -/
def argsText (l : List (List Nat × Arg)) : List Nat := (l.map fun x => x.1 ++ x.2.text).flatten

structure Line where
  lead : List Nat
  body : Option (Path × List (List Nat × Arg))
  trail : List Nat
  comment : Option (List Nat)

def blank (b : Nat) : Prop := b = 32 ∨ b = 9
/-- White space other than newline. -/
def space (b : Nat) : Prop := b = 32 ∨ b = 9 ∨ b = 13 ∨ b = 11 ∨ b = 12

def Line.bodyText (l : Line) : List Nat :=
  match l.body with
  | none => []
  | some (p, as) => p ++ argsText as

def Line.text (l : Line) : List Nat :=
  l.lead ++ l.bodyText ++ l.trail ++ (match l.comment with | none => [] | some c => 35 :: c)

structure Line.Valid (l : Line) : Prop where
  lead : ∀ b ∈ l.lead, space b
  trail : ∀ b ∈ l.trail, space b
  comment : ∀ c, l.comment = some c → ∀ b ∈ c, b ≠ 10 ∧ b ≠ 0
  path : ∀ p as, l.body = some (p, as) → p ≠ [] ∧ ∀ b ∈ p, ¬ space b ∧ b ≠ 10 ∧ b ≠ 35 ∧ b ≠ 0
  args : ∀ p as, l.body = some (p, as) → ∀ x ∈ as, x.1 ≠ [] ∧ (∀ b ∈ x.1, blank b) ∧ x.2.Valid

/-- The rule of a line: for all users and not recursive unless it says so. -/
def Line.rule (rp : Path → Path) (l : Line) : Option Rule :=
  l.body.map fun x => (x.2.map (·.2)).foldl Arg.apply ⟨rp x.1, 4294967295, false⟩

def confText (ls : List Line) : List Nat := (ls.map fun l => l.text ++ [10]).flatten

/-! ### Lists -/

theorem takeWhile_app (f : Nat → Bool) (x y : List Nat) (hx : ∀ b ∈ x, f b = true)
    (hy : ∀ b, y.head? = some b → f b = false) : (x ++ y).takeWhile f = x := by
  induction x with
  | nil =>
    cases y with
    | nil => rfl
    | cons b y => rw [List.nil_append, List.takeWhile_cons, if_neg (by rw [hy b rfl]; decide)]
  | cons b x ih =>
    rw [List.cons_append, List.takeWhile_cons, if_pos (hx b (by simp)), ih (fun c hc => hx c (by simp [hc]))]

theorem dropWhile_app (f : Nat → Bool) (x y : List Nat) (hx : ∀ b ∈ x, f b = true)
    (hy : ∀ b, y.head? = some b → f b = false) : (x ++ y).dropWhile f = y := by
  induction x with
  | nil =>
    cases y with
    | nil => rfl
    | cons b y => rw [List.nil_append, List.dropWhile_cons, if_neg (by rw [hy b rfl]; decide)]
  | cons b x ih =>
    rw [List.cons_append, List.dropWhile_cons, if_pos (hx b (by simp)), ih (fun c hc => hx c (by simp [hc]))]

theorem stripWs_app (a x b : List Nat) (ha : ∀ c ∈ a, isWs c = true) (hb : ∀ c ∈ b, isWs c = true)
    (h1 : ∀ c, x.head? = some c → isWs c = false) (h2 : ∀ c, x.getLast? = some c → isWs c = false) :
    stripWs (a ++ x ++ b) = x := by
  unfold stripWs
  cases x with
  | nil =>
    have : (a ++ [] ++ b).dropWhile isWs = [] := by
      have := dropWhile_app isWs (a ++ b) [] (by
        intro c hc; rcases List.mem_append.1 hc with hc | hc
        · exact ha c hc
        · exact hb c hc) (by simp)
      simpa using this
    rw [this]; rfl
  | cons y ys =>
    rw [List.append_assoc, dropWhile_app isWs a ((y :: ys) ++ b) ha (by
      intro c hc; exact h1 c (by simpa using hc)), List.reverse_append,
      dropWhile_app isWs b.reverse (y :: ys).reverse (by intro c hc; exact hb c (by simpa using hc)) (by
        intro c hc; rw [List.head?_reverse] at hc; exact h2 c hc), List.reverse_reverse]

/-! ### Numbers -/

theorem digits_app (base : Nat) (xs ys : List Nat) (acc : Nat) (hx : ∀ b ∈ xs, digitVal b < base)
    (hy : ∀ b, ys.head? = some b → ¬ digitVal b < base) :
    digits base acc (xs ++ ys) = (xs.foldl (fun a b => a * base + digitVal b) acc, xs.length, ys) := by
  induction xs generalizing acc with
  | nil =>
    cases ys with
    | nil => rfl
    | cons b ys => rw [List.nil_append]; unfold digits; rw [if_neg (hy b rfl)]; rfl
  | cons b xs ih =>
    rw [List.cons_append]
    unfold digits
    rw [if_pos (hx b (by simp)), ih _ (fun c hc => hx c (by simp [hc]))]
    rfl

theorem digitVal_dec (d : Nat) (h : d < 10) : digitVal (48 + d) = d := by
  unfold digitVal; rw [if_pos (by omega)]; omega

theorem dec_spec (n : Nat) : (∀ b ∈ dec n, 48 ≤ b ∧ b ≤ 57) ∧
    (dec n).foldl (fun a b => a * 10 + digitVal b) 0 = n ∧ dec n ≠ [] ∧
    ((dec n).head? = some 48 → n = 0) ∧ (n < 10 → dec n = [48 + n]) := by
  induction n using Nat.strongRecOn with
  | _ n ih =>
    rw [dec]
    by_cases h : n < 10
    · rw [dif_pos h]
      refine ⟨by simp; omega, ?_, by simp, by simp, fun _ => rfl⟩
      simp only [List.foldl_cons, List.foldl_nil]
      rw [digitVal_dec n h]; omega
    · rw [dif_neg h]
      obtain ⟨h1, h2, h3, h4, h5⟩ := ih (n / 10) (by omega)
      refine ⟨?_, ?_, by simp, ?_, fun hh => absurd hh h⟩
      · intro b hb
        rcases List.mem_append.1 hb with hb | hb
        · exact h1 b hb
        · simp only [List.mem_singleton] at hb; omega
      · rw [List.foldl_append, h2]
        simp only [List.foldl_cons, List.foldl_nil]
        rw [digitVal_dec _ (by omega)]; omega
      · intro hh
        rw [List.head?_append] at hh
        cases hd : (dec (n / 10)).head? with
        | none => exact absurd (List.head?_eq_none_iff.1 hd) h3
        | some c =>
          rw [hd] at hh
          have : c = 48 := by simpa using hh
          have := h4 (by rw [hd, this])
          omega

theorem dec_len (n : Nat) (h : n < 10 ^ k) (hk : 0 < k) : (dec n).length ≤ k := by
  induction k generalizing n with
  | zero => omega
  | succ k ih =>
    rw [dec]
    by_cases hc : n < 10
    · rw [dif_pos hc]; simp
    · rw [dif_neg hc, List.length_append]
      have hk2 : 0 < k := by
        cases k with
        | zero => simp at h; omega
        | succ k => omega
      have := ih (n / 10) (by rw [Nat.pow_succ] at h; omega) hk2
      simp only [List.length_singleton]; omega

theorem strtoulBody_dec (n : Nat) : strtoulBody (dec n) = some (n, []) := by
  obtain ⟨h1, h2, h3, h4, h5⟩ := dec_spec n
  have hd : ∀ b ∈ dec n, digitVal b < 10 := by
    intro b hb
    have := h1 b hb
    unfold digitVal; rw [if_pos this]; omega
  have key := digits_app 10 (dec n) [] 0 hd (by simp)
  rw [List.append_nil, h2] at key
  have fin : (if (digits 10 0 (dec n)).2.1 = 0 then none else
      some ((digits 10 0 (dec n)).1, (digits 10 0 (dec n)).2.2)) = some (n, []) := by
    rw [key]
    simp only
    rw [if_neg (by simpa using h3)]
  cases hdn : dec n with
  | nil => exact absurd hdn h3
  | cons b l =>
    rw [hdn] at fin h4
    by_cases hb : b = 48
    · have hz := h4 (by rw [hb]; rfl)
      have := h5 (by omega)
      rw [hz] at this hdn
      rw [this] at hdn
      obtain ⟨rfl, rfl⟩ := List.cons.inj hdn
      rw [hz]
      rfl
    · unfold strtoulBody
      split
      · rename_i x l' heq
        exact absurd (List.cons.inj heq).1 hb
      · exact fin

theorem strtol_dec (n : Nat) (h : n ≤ 1073741823) : strtol (dec n) = some ((n : Int), []) := by
  obtain ⟨h1, h2, h3, h4, h5⟩ := dec_spec n
  have hb := strtoulBody_dec n
  unfold strtol
  cases hdn : dec n with
  | nil => exact absurd hdn h3
  | cons b l =>
    have hb0 := h1 b (by rw [hdn]; simp)
    have hw : isWs b = false := by
      unfold isWs; simp only [Bool.or_eq_false_iff, beq_eq_false_iff_ne]; omega
    rw [List.dropWhile_cons, if_neg (by rw [hw]; decide)]
    rw [hdn] at hb
    split
    · rename_i heq; have := (List.cons.inj heq).1; omega
    · rename_i heq; have := (List.cons.inj heq).1; omega
    · rw [hb]
      simp only
      rw [if_neg (by omega)]

theorem parseUid_dec (n : Nat) (h : n ≤ 1073741823) : parseUid (dec n) = some n := by
  have hl := dec_len (k := 10) n (by omega) (by decide)
  unfold parseUid parseLong
  rw [if_neg (by omega), strtol_dec n h]
  simp only [List.length_nil]
  rw [if_neg (by omega)]
  simp only
  rw [if_neg (by omega), if_neg (by omega)]
  simp

/-! ### One line -/

theorem splitChr_app (c : Nat) (x y : List Nat) (hx : ∀ b ∈ x, b ≠ c) : splitChr c (x ++ c :: y) = (x, y) := by
  unfold splitChr
  rw [takeWhile_app _ x (c :: y) (fun b hb => by simpa using hx b hb) (by simp),
    dropWhile_app _ x (c :: y) (fun b hb => by simpa using hx b hb) (by simp)]
  rfl

theorem splitChr_none (c : Nat) (x : List Nat) (hx : ∀ b ∈ x, b ≠ c) : splitChr c x = (x, []) := by
  have h1 := takeWhile_app (· != c) x [] (fun b hb => by simpa using hx b hb) (by simp)
  have h2 := dropWhile_app (· != c) x [] (fun b hb => by simpa using hx b hb) (by simp)
  rw [List.append_nil] at h1 h2
  unfold splitChr
  rw [h1, h2]; rfl

theorem Arg.val_ne (a : Arg) : ∃ k v, a.text = k ++ 61 :: v ∧ (∀ b ∈ k, b ≠ 61) ∧ k ≠ [] ∧ v ≠ [] ∧
    splitChr 61 a.text = (k, v) ∧
    (match a with
     | .uid n => k = kwUid ∧ v = dec n
     | .recursive b w => k = kwRecursive ∧ parseBool v = some b) := by
  cases a with
  | uid n =>
    refine ⟨kwUid, dec n, rfl, by decide, by decide, (dec_spec n).2.2.1, ?_, rfl, rfl⟩
    exact splitChr_app 61 kwUid (dec n) (by decide)
  | recursive b w =>
    cases b <;> cases w <;>
      exact ⟨kwRecursive, _, rfl, by decide, by decide, by decide, rfl, rfl, rfl⟩

theorem parseArg_text (a : Arg) (ha : a.Valid) (r : Rule) : parseArg a.text r = some (a.apply r) := by
  obtain ⟨k, v, _, _, hk, hv, hs, hm⟩ := a.val_ne
  unfold parseArg
  rw [hs]
  simp only
  rw [if_neg (by rintro (h | h); exact hk h; exact hv h)]
  cases a with
  | uid n =>
    obtain ⟨rfl, rfl⟩ := hm
    rw [if_neg (by decide), if_pos rfl, parseUid_dec n ha]
    rfl
  | recursive b w =>
    obtain ⟨rfl, hb⟩ := hm
    rw [if_pos rfl, hb]
    rfl

/-- All bytes of an argument are printable, in particular no blanks. -/
theorem Arg.text_bytes (a : Arg) : ∀ b ∈ a.text, 48 ≤ b ∧ b ≤ 122 := by
  intro b hb
  cases a with
  | uid n =>
    unfold Arg.text at hb
    rcases List.mem_append.1 hb with h | h
    · clear hb; revert b; decide
    · have := (dec_spec n).1 b h; omega
  | recursive x w =>
    revert b
    cases x <;> cases w <;> decide

theorem Arg.text_ne (a : Arg) : a.text ≠ [] := by
  cases a <;> simp [Arg.text]

theorem isSep_blank {b : Nat} (h : blank b) : isSep b = true := by
  rcases h with rfl | rfl <;> rfl

theorem notSep_of {b : Nat} (h : ¬ blank b) : isSep b = false := by
  unfold blank at h; unfold isSep
  simp only [Bool.or_eq_false_iff, beq_eq_false_iff_ne]; omega

theorem isWs_of {b : Nat} (h : space b) : isWs b = true := by
  rcases h with rfl | rfl | rfl | rfl | rfl <;> rfl

theorem notWs_of {b : Nat} (h : ¬ space b) (h2 : b ≠ 10) : isWs b = false := by
  unfold space at h; unfold isWs
  simp only [Bool.or_eq_false_iff, beq_eq_false_iff_ne]; omega

def ArgsValid (as : List (List Nat × Arg)) : Prop := ∀ x ∈ as, x.1 ≠ [] ∧ (∀ b ∈ x.1, blank b) ∧ x.2.Valid

theorem argsText_cons (s : List Nat) (a : Arg) (l : List (List Nat × Arg)) :
    argsText ((s, a) :: l) = s ++ (a.text ++ argsText l) := by
  unfold argsText; simp [List.append_assoc]

theorem argsText_head (as : List (List Nat × Arg)) (h : ArgsValid as) (b : Nat)
    (hb : (argsText as).head? = some b) : blank b := by
  cases as with
  | nil => simp [argsText] at hb
  | cons x l =>
    obtain ⟨s, a⟩ := x
    obtain ⟨h1, h2, _⟩ := h (s, a) (by simp)
    rw [argsText_cons] at hb
    cases s with
    | nil => exact absurd rfl h1
    | cons c s =>
      have : c = b := by simpa using hb
      subst this
      exact h2 c (by simp)

/-- A word followed by arguments splits after the word. -/
theorem splitSep_word (x : List Nat) (hx : ∀ b ∈ x, ¬ blank b) (as : List (List Nat × Arg)) (h : ArgsValid as) :
    splitSep (x ++ argsText as) = (x, match as with
      | [] => []
      | (_, a) :: l => a.text ++ argsText l) := by
  have hx' : ∀ b ∈ x, (!isSep b) = true := fun b hb => by rw [notSep_of (hx b hb)]; rfl
  have hh : ∀ b, (argsText as).head? = some b → (!isSep b) = false := fun b hb => by
    rw [isSep_blank (argsText_head as h b hb)]; rfl
  unfold splitSep
  rw [takeWhile_app _ x _ hx' hh, dropWhile_app _ x _ hx' hh]
  cases as with
  | nil => rfl
  | cons y l =>
    obtain ⟨s, a⟩ := y
    rw [argsText_cons, dropWhile_app isSep s _ (fun b hb => isSep_blank ((h (s, a) (by simp)).2.1 b hb))]
    intro b hb
    cases ht : a.text with
    | nil => exact absurd ht a.text_ne
    | cons c t =>
      rw [ht] at hb
      have : c = b := by simpa using hb
      subst this
      have := a.text_bytes c (by rw [ht]; simp)
      apply notSep_of
      unfold blank; omega

theorem parseArgs_text (s0 : List Nat) (a : Arg) (l : List (List Nat × Arg)) (h : ArgsValid ((s0, a) :: l)) (n : Nat)
    (hn : l.length + 2 ≤ n) (r : Rule) :
    parseArgs n (a.text ++ argsText l) r = some ((((s0, a) :: l).map (·.2)).foldl Arg.apply r) := by
  induction l generalizing s0 a n r with
  | nil =>
    cases n with
    | zero => omega
    | succ n =>
      unfold parseArgs
      have hs := splitSep_word a.text (fun b hb => by have := a.text_bytes b hb; unfold blank; omega) [] (by
        intro x hx; simp at hx)
      rw [hs]
      simp only
      rw [if_neg (fun hh => a.text_ne hh.1), parseArg_text a (h (s0, a) (by simp)).2.2]
      simp only
      cases n with
      | zero => simp at hn
      | succ n =>
        unfold parseArgs
        rw [if_pos ⟨rfl, rfl⟩]
        rfl
  | cons y l ih =>
    obtain ⟨s, a'⟩ := y
    cases n with
    | zero => omega
    | succ n =>
      have hv : ArgsValid ((s, a') :: l) := fun x hx => h x (by simp [List.mem_cons.1 hx])
      unfold parseArgs
      rw [splitSep_word a.text (fun b hb => by have := a.text_bytes b hb; unfold blank; omega) _ hv]
      simp only
      rw [if_neg (fun hh => a.text_ne hh.1), parseArg_text a (h (s0, a) (by simp)).2.2]
      simp only
      rw [ih s a' hv n (by simp only [List.length_cons] at hn; omega)]
      rfl

theorem argsText_bytes (as : List (List Nat × Arg)) (h : ArgsValid as) :
    ∀ b ∈ argsText as, blank b ∨ (48 ≤ b ∧ b ≤ 122) := by
  intro b hb
  unfold argsText at hb
  simp only [List.mem_flatten, List.mem_map] at hb
  obtain ⟨t, ⟨x, hx, rfl⟩, hb⟩ := hb
  rcases List.mem_append.1 hb with hb | hb
  · exact Or.inl ((h x hx).2.1 b hb)
  · exact Or.inr (x.2.text_bytes b hb)

theorem argsText_last (as : List (List Nat × Arg)) (hne : as ≠ []) :
    ∃ b, (argsText as).getLast? = some b ∧ 48 ≤ b ∧ b ≤ 122 := by
  rw [← List.dropLast_concat_getLast hne]
  generalize as.getLast hne = x
  generalize as.dropLast = l
  have : argsText (l ++ [x]) = argsText l ++ x.1 ++ x.2.text := by
    unfold argsText; simp [List.append_assoc]
  rw [this, List.getLast?_append]
  cases hl : x.2.text.getLast? with
  | none => exact absurd (List.getLast?_eq_none_iff.1 hl) x.2.text_ne
  | some b =>
    refine ⟨b, by simp, ?_⟩
    exact x.2.text_bytes b (List.mem_of_getLast? hl)

theorem argsText_len (as : List (List Nat × Arg)) (h : ArgsValid as) : as.length ≤ (argsText as).length := by
  induction as with
  | nil => simp
  | cons x l ih =>
    obtain ⟨s, a⟩ := x
    have := ih (fun y hy => h y (by simp [hy]))
    have h1 : 0 < a.text.length := List.length_pos_iff.2 a.text_ne
    rw [argsText_cons]
    simp only [List.length_cons, List.length_append]; omega

theorem Line.body_bytes {l : Line} (h : l.Valid) : ∀ b ∈ l.bodyText, b ≠ 10 ∧ b ≠ 35 ∧ b ≠ 0 := by
  intro b hb
  unfold Line.bodyText at hb
  cases hbo : l.body with
  | none => rw [hbo] at hb; simp at hb
  | some x =>
    obtain ⟨p, as⟩ := x
    rw [hbo] at hb
    simp only at hb
    rcases List.mem_append.1 hb with hb | hb
    · exact ((h.path p as hbo).2 b hb).2
    · rcases argsText_bytes as (h.args p as hbo) b hb with hb | hb
      · rcases hb with rfl | rfl <;> decide
      · omega

theorem Line.strip {l : Line} (h : l.Valid) : stripWs (splitChr 35 l.text).1 = l.bodyText := by
  have hne : ∀ b ∈ l.lead ++ l.bodyText ++ l.trail, b ≠ 35 := by
    intro b hb
    rcases List.mem_append.1 hb with hb | hb
    · rcases List.mem_append.1 hb with hb | hb
      · have := h.lead b hb; unfold space at this; omega
      · exact (Line.body_bytes h b hb).2.1
    · have := h.trail b hb; unfold space at this; omega
  have hsp : (splitChr 35 l.text).1 = l.lead ++ l.bodyText ++ l.trail := by
    unfold Line.text
    cases l.comment with
    | none =>
      simp only [List.append_nil]
      rw [splitChr_none 35 _ hne]
    | some c =>
      simp only
      rw [splitChr_app 35 _ c hne]
  rw [hsp]
  apply stripWs_app
  · exact fun c hc => isWs_of (h.lead c hc)
  · exact fun c hc => isWs_of (h.trail c hc)
  · intro c hc
    unfold Line.bodyText at hc
    cases hbo : l.body with
    | none => rw [hbo] at hc; simp at hc
    | some x =>
      obtain ⟨p, as⟩ := x
      rw [hbo] at hc
      simp only at hc
      obtain ⟨h1, h2⟩ := h.path p as hbo
      cases p with
      | nil => exact absurd rfl h1
      | cons b p =>
        have : b = c := by simpa using hc
        subst this
        have := h2 b (by simp)
        exact notWs_of this.1 this.2.1
  · intro c hc
    unfold Line.bodyText at hc
    cases hbo : l.body with
    | none => rw [hbo] at hc; simp at hc
    | some x =>
      obtain ⟨p, as⟩ := x
      rw [hbo] at hc
      simp only at hc
      obtain ⟨h1, h2⟩ := h.path p as hbo
      rw [List.getLast?_append] at hc
      cases as with
      | nil =>
        have hc' : p.getLast? = some c := by simpa [argsText] using hc
        have := h2 c (List.mem_of_getLast? hc')
        exact notWs_of this.1 this.2.1
      | cons y as =>
        obtain ⟨b, hb, h3⟩ := argsText_last (y :: as) (by simp)
        rw [hb] at hc
        have : b = c := by simpa using hc
        subst this
        apply notWs_of
        · unfold space; omega
        · omega

theorem parseLine_text (rp : Path → Path) (l : Line) (h : l.Valid) (rules : List Rule)
    (hr : rules.length + (l.rule rp).toList.length ≤ 1024) :
    parseLine rp l.text rules = some (rules ++ (l.rule rp).toList) := by
  unfold parseLine
  rw [Line.strip h]
  cases hbo : l.body with
  | none =>
    have h1 : l.bodyText = [] := by unfold Line.bodyText; rw [hbo]
    have h2 : l.rule rp = none := by unfold Line.rule; rw [hbo]; rfl
    rw [if_pos h1, h2]; simp
  | some x =>
    obtain ⟨p, as⟩ := x
    have h1 : l.bodyText = p ++ argsText as := by unfold Line.bodyText; rw [hbo]
    have h2 : l.rule rp = some ((as.map (·.2)).foldl Arg.apply ⟨rp p, 4294967295, false⟩) := by
      unfold Line.rule; rw [hbo]; rfl
    obtain ⟨hp1, hp2⟩ := h.path p as hbo
    have hav : ArgsValid as := h.args p as hbo
    rw [h2] at hr
    rw [h1, h2]
    simp only [Option.toList_some, List.length_singleton] at hr
    have hnb : ∀ b ∈ p, ¬ blank b := by
      intro b hb hbl
      apply (hp2 b hb).1
      unfold blank at hbl; unfold space; omega
    rw [if_neg (by simp [hp1]), if_neg (by omega), splitSep_word p hnb as hav]
    simp only
    cases as with
    | nil =>
      simp only
      unfold parseArgs
      rw [if_pos ⟨rfl, rfl⟩]
      rfl
    | cons y l' =>
      obtain ⟨s, a⟩ := y
      simp only
      have hl := argsText_len ((s, a) :: l') hav
      have hpl : 0 < p.length := List.length_pos_iff.2 hp1
      rw [parseArgs_text s a l' hav _ (by simp only [List.length_append, List.length_cons] at *; omega)]
      rfl

/-! ### The file -/

theorem Line.text_bytes {l : Line} (h : l.Valid) : ∀ b ∈ l.text, b ≠ 10 ∧ b ≠ 0 := by
  intro b hb
  unfold Line.text at hb
  rcases List.mem_append.1 hb with hb | hb
  · rcases List.mem_append.1 hb with hb | hb
    · rcases List.mem_append.1 hb with hb | hb
      · have := h.lead b hb; unfold space at this; omega
      · have := Line.body_bytes h b hb; exact ⟨this.1, this.2.2⟩
    · have := h.trail b hb; unfold space at this; omega
  · cases hc : l.comment with
    | none => rw [hc] at hb; simp at hb
    | some c =>
      rw [hc] at hb
      rcases List.mem_cons.1 hb with rfl | hb
      · decide
      · exact h.comment c hc b hb

theorem confText_cons (l : Line) (ls : List Line) : confText (l :: ls) = l.text ++ 10 :: confText ls := by
  unfold confText; simp [List.append_assoc]

theorem parseLine_nil (rp : Path → Path) (rules : List Rule) : parseLine rp [] rules = some rules := rfl

theorem parseLines_text (rp : Path → Path) (ls : List Line) (h : ∀ l ∈ ls, l.Valid) (n : Nat) (hn : ls.length + 1 ≤ n)
    (rules : List Rule) (hr : rules.length + (ls.filterMap (Line.rule rp)).length ≤ 1024) :
    parseLines rp n (confText ls) rules = some (rules ++ ls.filterMap (Line.rule rp)) := by
  induction ls generalizing n rules with
  | nil =>
    cases n with
    | zero => omega
    | succ n =>
      unfold parseLines
      rw [if_pos ⟨rfl, rfl⟩]; simp
  | cons l ls ih =>
    cases n with
    | zero => omega
    | succ n =>
      have hv := h l (by simp)
      have hfm : (l :: ls).filterMap (Line.rule rp) = (l.rule rp).toList ++ ls.filterMap (Line.rule rp) := by
        rw [List.filterMap_cons]
        cases l.rule rp <;> rfl
      rw [hfm] at hr ⊢
      rw [List.length_append] at hr
      have hpl := parseLine_text rp l hv rules (by omega)
      unfold parseLines
      rw [confText_cons, splitChr_app 10 l.text _ (fun b hb => (Line.text_bytes hv b hb).1)]
      simp only
      by_cases hz : l.text = [] ∧ confText ls = []
      · rw [if_pos hz]
        have hls : ls = [] := by
          cases ls with
          | nil => rfl
          | cons a b => rw [confText_cons] at hz; simp at hz
        subst hls
        rw [hz.1, parseLine_nil] at hpl
        simp only [List.filterMap_nil, List.append_nil]
        exact hpl
      · rw [if_neg hz, hpl]
        simp only
        rw [ih (fun x hx => h x (by simp [hx])) n (by simp only [List.length_cons] at hn; omega) _ (by
          rw [List.length_append]; omega), List.append_assoc]

theorem confText_len (ls : List Line) : ls.length ≤ (confText ls).length := by
  induction ls with
  | nil => simp
  | cons l ls ih => rw [confText_cons]; simp only [List.length_cons, List.length_append]; omega

/-- **C47**: a file of lines written by the grammar (blank lines, comments,
paths, user numbers, truth values, any white space) with at most 1024 rules is
read as exactly the rules of its lines, in their order. -/
theorem C47_rules (rp : Path → Path) (ls : List Line) (h : ∀ l ∈ ls, l.Valid)
    (hr : (ls.filterMap (Line.rule rp)).length ≤ 1024) :
    parseConf rp (confText ls) = some (ls.filterMap (Line.rule rp)) := by
  unfold parseConf
  have hz : (confText ls).takeWhile (· != 0) = confText ls := by
    have := takeWhile_app (· != 0) (confText ls) [] (by
      intro b hb
      unfold confText at hb
      simp only [List.mem_flatten, List.mem_map] at hb
      obtain ⟨t, ⟨l, hl, rfl⟩, hb⟩ := hb
      rcases List.mem_append.1 hb with hb | hb
      · simpa using (Line.text_bytes (h l hl) b hb).2
      · simp only [List.mem_singleton] at hb; subst hb; decide) (by simp)
    rwa [List.append_nil] at this
  rw [hz]
  have := parseLines_text rp ls h ((confText ls).length + 1) (by have := confText_len ls; omega) [] (by simpa using hr)
  simpa using this

end Silofs.Mnt
