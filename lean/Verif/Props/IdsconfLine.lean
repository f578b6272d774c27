import Verif.Spec.Idsconf
set_option linter.unusedSimpArgs false
set_option linter.unusedVariables false
/-
Lines of a file of mappings: white space, numbers, headers and entries.
-/
namespace Silofs.Idsconf

open Silofs.Mnt (splitChr stripWs strtol isWs digits digitVal strtoulBody)
open Silofs.Ids (Ent)

/-! ### White space and separators -/

/-- No white space at the ends. -/
def Tight (u : List Nat) : Prop := (∀ x ∈ u.head?, isWs x = false) ∧ (∀ x ∈ u.getLast?, isWs x = false)

theorem blank_ws {w : List Nat} (h : Blank w) : ∀ x ∈ w, isWs x = true := by
  intro x hx
  rcases h x hx with rfl | rfl | rfl | rfl | rfl <;> rfl

theorem dropWhile_pre {p : Nat → Bool} {w u : List Nat} (h : ∀ x ∈ w, p x = true) :
    (w ++ u).dropWhile p = u.dropWhile p := by
  induction w with
  | nil => rfl
  | cons x w ih =>
    rw [List.cons_append, List.dropWhile_cons, if_pos (h x (List.mem_cons_self))]
    exact ih (fun y hy => h y (List.mem_cons_of_mem _ hy))

theorem dropWhile_head {p : Nat → Bool} {u : List Nat} (h : ∀ x ∈ u.head?, p x = false) : u.dropWhile p = u := by
  cases u with
  | nil => rfl
  | cons x u => rw [List.dropWhile_cons, if_neg (by rw [h x rfl]; exact Bool.noConfusion)]

theorem strip_gen (p : Nat → Bool) {w1 u w2 : List Nat} (h1 : ∀ x ∈ w1, p x = true) (h2 : ∀ x ∈ w2, p x = true)
    (hh : ∀ x ∈ u.head?, p x = false) (hl : ∀ x ∈ u.getLast?, p x = false) :
    (((w1 ++ u ++ w2).dropWhile p).reverse.dropWhile p).reverse = u := by
  rw [List.append_assoc, dropWhile_pre h1]
  cases u with
  | nil =>
    have : ([] ++ w2).dropWhile p = [] := by
      have := dropWhile_pre (u := []) h2
      rw [List.append_nil] at this
      exact this
    rw [this]
    rfl
  | cons x u =>
    rw [List.cons_append, List.dropWhile_cons, if_neg (by rw [hh x rfl]; exact Bool.noConfusion), ← List.cons_append,
      List.reverse_append, dropWhile_pre (by intro y hy; exact h2 y (List.mem_reverse.mp hy)), dropWhile_head, List.reverse_reverse]
    intro y hy
    rw [List.head?_reverse] at hy
    exact hl y hy

theorem stripWs_pad {w1 u w2 : List Nat} (h1 : Blank w1) (h2 : Blank w2) (hu : Tight u) : stripWs (w1 ++ u ++ w2) = u :=
  strip_gen isWs (blank_ws h1) (blank_ws h2) hu.1 hu.2

theorem blank_nil : Blank [] := fun _ h => nomatch h

theorem stripWs_tight {u : List Nat} (hu : Tight u) : stripWs u = u := by
  have := stripWs_pad blank_nil blank_nil hu
  rwa [List.nil_append, List.append_nil] at this

theorem tight_nil : Tight [] := ⟨(fun _ h => nomatch h), (fun _ h => nomatch h)⟩

theorem splitChr_at {c : Nat} {x y : List Nat} (h : c ∉ x) : splitChr c (x ++ c :: y) = (x, y) := by
  have : ∀ x : List Nat, c ∉ x → (x ++ c :: y).takeWhile (· != c) = x ∧ (x ++ c :: y).dropWhile (· != c) = c :: y := by
    intro x
    induction x with
    | nil =>
      intro _
      simp [List.takeWhile_cons, List.dropWhile_cons]
    | cons a x ih =>
      intro h
      have ha : (a != c) = true := by
        have : a ≠ c := fun e => h (by rw [e]; exact List.mem_cons_self)
        simpa using this
      obtain ⟨e1, e2⟩ := ih (fun m => h (List.mem_cons_of_mem _ m))
      simp only [List.cons_append, List.takeWhile_cons, List.dropWhile_cons, ha, if_true, e1, e2]
      exact ⟨trivial, trivial⟩
  unfold splitChr
  rw [(this x h).1, (this x h).2]
  rfl

theorem splitChr_none {c : Nat} {x : List Nat} (h : c ∉ x) : splitChr c x = (x, []) := by
  have : ∀ x : List Nat, c ∉ x → x.takeWhile (· != c) = x ∧ x.dropWhile (· != c) = [] := by
    intro x
    induction x with
    | nil => exact fun _ => ⟨rfl, rfl⟩
    | cons a x ih =>
      intro h
      have ha : (a != c) = true := by
        have : a ≠ c := fun e => h (by rw [e]; exact List.mem_cons_self)
        simpa using this
      obtain ⟨e1, e2⟩ := ih (fun m => h (List.mem_cons_of_mem _ m))
      simp only [List.takeWhile_cons, List.dropWhile_cons, ha, if_true, e1, e2]
      exact ⟨trivial, trivial⟩
  unfold splitChr
  rw [(this x h).1, (this x h).2]
  rfl

theorem splitChr_comment {x c : List Nat} (h : 35 ∉ x) (hc : Comment c) : (splitChr 35 (x ++ c)).1 = x := by
  rcases hc with rfl | ⟨t, rfl, _⟩
  · rw [List.append_nil, splitChr_none h]
  · rw [splitChr_at h]

/-! ### Numbers -/

/-- Decimal digits. -/
def Digits (s : List Nat) : Prop := ∀ x ∈ s, 48 ≤ x ∧ x ≤ 57

/-- The number some digits stand for. -/
def value (acc : Nat) (s : List Nat) : Nat := s.foldl (fun a x => a * 10 + (x - 48)) acc

theorem digitVal_dec {x : Nat} (h : 48 ≤ x ∧ x ≤ 57) : digitVal x = x - 48 := by
  unfold digitVal
  rw [if_pos h]

theorem digits_all (s : List Nat) (acc : Nat) (h : Digits s) : digits 10 acc s = (value acc s, s.length, []) := by
  induction s generalizing acc with
  | nil => rfl
  | cons x s ih =>
    have hx := h x (List.mem_cons_self)
    have hv := digitVal_dec hx
    rw [digits, hv, if_pos (by omega), ih _ (fun y hy => h y (List.mem_cons_of_mem _ hy))]
    rfl

theorem decN_digits (n v : Nat) : Digits (decN n v) := by
  induction n generalizing v with
  | zero => exact fun _ h => nomatch h
  | succ n ih =>
    rw [decN]
    by_cases h : v < 10
    · rw [if_pos h]
      intro x hx
      rcases List.mem_singleton.mp hx with rfl
      omega
    · rw [if_neg h]
      intro x hx
      rcases List.mem_append.mp hx with hx | hx
      · exact ih _ x hx
      · rcases List.mem_singleton.mp hx with rfl
        have := Nat.mod_lt v (show 0 < 10 by omega)
        omega

theorem value_append (acc : Nat) (a b : List Nat) : value acc (a ++ b) = value (value acc a) b :=
  List.foldl_append

theorem decN_value (n v : Nat) (h : v < 10 ^ n) : value 0 (decN n v) = v := by
  induction n generalizing v with
  | zero =>
    have : v = 0 := by simpa using h
    rw [this]
    rfl
  | succ n ih =>
    rw [decN]
    by_cases hv : v < 10
    · rw [if_pos hv]
      show 0 * 10 + (48 + v - 48) = v
      omega
    · rw [if_neg hv, value_append, ih (v / 10) (by
        rw [Nat.pow_succ] at h
        exact Nat.div_lt_of_lt_mul (by omega))]
      show v / 10 * 10 + (48 + v % 10 - 48) = v
      omega

theorem decN_length (n v : Nat) : (decN n v).length ≤ n := by
  induction n generalizing v with
  | zero => exact Nat.le_refl _
  | succ n ih =>
    rw [decN]
    by_cases hv : v < 10
    · rw [if_pos hv]
      simp
    · rw [if_neg hv]
      have := ih (v / 10)
      simp
      omega

/-- The first digit of a number of several digits is not zero. -/
theorem decN_ge (n v : Nat) (hv : v < 10 ^ (n + 1)) : ∃ x r, decN (n + 1) v = x :: r ∧ (x = 48 → r = []) := by
  by_cases h10 : v < 10
  · rw [decN, if_pos h10]
    exact ⟨48 + v, [], rfl, fun _ => rfl⟩
  · rw [decN, if_neg h10]
    cases n with
    | zero =>
      rw [Nat.zero_add, Nat.pow_one] at hv
      omega
    | succ n =>
      have key : ∀ m w, 0 < w → w < 10 ^ (m + 1) → ∃ x r, decN (m + 1) w = x :: r ∧ x ≠ 48 := by
        intro m
        induction m with
        | zero =>
          intro w h0 hw
          rw [Nat.zero_add, Nat.pow_one] at hw
          rw [decN, if_pos hw]
          exact ⟨48 + w, [], rfl, by omega⟩
        | succ m ih =>
          intro w h0 hw
          by_cases hw10 : w < 10
          · rw [decN, if_pos hw10]
            exact ⟨48 + w, [], rfl, by omega⟩
          · rw [decN, if_neg hw10]
            obtain ⟨x, r, he, hx⟩ := ih (w / 10) (by omega) (by
              rw [Nat.pow_succ] at hw
              exact Nat.div_lt_of_lt_mul (by omega))
            exact ⟨x, r ++ [48 + w % 10], by rw [he]; rfl, hx⟩
      obtain ⟨x, r, he, hx⟩ := key n (v / 10) (by omega) (by
        rw [Nat.pow_succ] at hv
        exact Nat.div_lt_of_lt_mul (by omega))
      exact ⟨x, r ++ [48 + v % 10], by rw [he]; rfl, fun e => absurd e hx⟩

theorem dec_lead (v : Nat) (hv : v < 10000000000) : ∃ x r, dec v = x :: r ∧ (x = 48 → r = []) :=
  decN_ge 9 v hv

theorem dec_ne (v : Nat) (hv : v < 10000000000) : dec v ≠ [] := by
  obtain ⟨x, r, he, _⟩ := dec_lead v hv
  rw [he]
  exact List.cons_ne_nil _ _

theorem digit_not_ws {x : Nat} (h : 48 ≤ x ∧ x ≤ 57) : isWs x = false := by
  unfold isWs
  simp
  omega

theorem dec_tight (v : Nat) : Tight (dec v) := by
  have hd := decN_digits 10 v
  refine ⟨fun x hx => digit_not_ws (hd x ?_), fun x hx => digit_not_ws (hd x ?_)⟩
  · exact List.mem_of_mem_head? hx
  · exact List.mem_of_getLast? hx

theorem parseLong_dec (v : Nat) (hv : v ≤ 1073741823) : parseLong (dec v) = some (v : Int) := by
  obtain ⟨x, r, he, hx⟩ := dec_lead v (by omega)
  have hd : Digits (dec v) := decN_digits 10 v
  have hval : value 0 (dec v) = v := decN_value 10 v (by omega)
  have hx1 : 48 ≤ x ∧ x ≤ 57 := hd x (by rw [he]; exact List.mem_cons_self)
  have hbody : strtoulBody (dec v) = some (v, []) := by
    have h10 : digits 10 0 (dec v) = (v, (dec v).length, []) := by rw [digits_all _ _ hd, hval]
    have hl : (dec v).length ≠ 0 := by rw [he]; exact Nat.succ_ne_zero _
    rw [he] at h10 hl ⊢
    unfold strtoulBody
    split
    · rename_i y l heq
      rw [(List.cons.inj heq).1] at hx
      have := hx rfl
      rw [this] at heq
      cases (List.cons.inj heq).2
    · rw [h10]
      simp only
      rw [if_neg hl]
  have hws : (dec v).dropWhile isWs = dec v := dropWhile_head (dec_tight v).1
  unfold parseLong strtol
  rw [hws]
  rw [he] at hbody ⊢
  split
  · rename_i heq
    split at heq
    · rename_i l heq2
      have := (List.cons.inj heq2).1
      omega
    · rename_i l heq2
      have := (List.cons.inj heq2).1
      omega
    · rw [hbody] at heq
      simp only at heq
      rw [if_neg (by omega)] at heq
      cases heq
  · rename_i w q heq
    split at heq
    · rename_i l heq2
      have := (List.cons.inj heq2).1
      omega
    · rename_i l heq2
      have := (List.cons.inj heq2).1
      omega
    · rw [hbody] at heq
      simp only at heq
      rw [if_neg (by omega)] at heq
      cases heq
      rw [if_neg (by decide)]

/-- A number in decimal digits is read as that number. -/
theorem parseId_dec (v : Nat) (hv : v ≤ 1073741823) : parseId (dec v) = some v := by
  unfold parseId
  have := decN_length 10 v
  rw [if_neg (by unfold dec; omega), parseLong_dec v hv]
  simp only
  rw [if_neg (by omega)]
  rfl

/-! ### Lines -/

theorem blank_not_mem {w : List Nat} (h : Blank w) {x : Nat} (hx : isWs x = false) : x ∉ w := by
  intro hm
  rw [blank_ws h x hm] at hx
  cases hx

theorem blank_no_nl {w : List Nat} (h : Blank w) : 10 ∉ w := by
  intro hm
  rcases h 10 hm with e | e | e | e | e <;> cases e

theorem secName_facts (s : Sec) (hs : s ≠ .nil) :
    secName s ≠ [] ∧ Tight (secName s) ∧ (∀ x ∈ secName s, 97 ≤ x ∧ x ≤ 122) ∧ secByName (secName s) = s := by
  cases s with
  | nil => exact (hs rfl).elim
  | users =>
    refine ⟨by decide, ⟨?_, ?_⟩, by decide, by decide⟩
    · intro x hx
      cases hx
      rfl
    · intro x hx
      cases hx
      rfl
  | groups =>
    refine ⟨by decide, ⟨?_, ?_⟩, by decide, by decide⟩
    · intro x hx
      cases hx
      rfl
    · intro x hx
      cases hx
      rfl

theorem head_append {a b : List Nat} {x : Nat} (h : x ∈ (a ++ b).head?) : x ∈ a ∨ x ∈ b.head? := by
  cases a with
  | nil => exact Or.inr h
  | cons y a =>
    cases h
    exact Or.inl (List.mem_cons_self)

theorem last_append {a b : List Nat} {x : Nat} (h : x ∈ (a ++ b).getLast?) : x ∈ b ∨ x ∈ a.getLast? := by
  rw [List.getLast?_append] at h
  cases hb : b.getLast? with
  | none =>
    rw [hb] at h
    exact Or.inr h
  | some y =>
    rw [hb] at h
    cases h
    exact Or.inl (List.mem_of_getLast? hb)

theorem header_core {s : Sec} {w2 w3 : List Nat} (hs : s ≠ .nil) (h2 : Blank w2) (h3 : Blank w3) :
    Tight (91 :: (w2 ++ secName s ++ w3 ++ [93])) ∧ parseSec (91 :: (w2 ++ secName s ++ w3 ++ [93])) = s := by
  obtain ⟨hne, ht, hr, hb⟩ := secName_facts s hs
  have hcons : 91 :: (w2 ++ secName s ++ w3 ++ [93]) = [91] ++ (w2 ++ secName s ++ w3) ++ [93] := by
    rw [List.singleton_append, List.cons_append]
  have hlast : (91 :: (w2 ++ secName s ++ w3 ++ [93])).getLast? = some 93 := by
    rw [hcons, List.getLast?_append]
    rfl
  have htight : Tight (91 :: (w2 ++ secName s ++ w3 ++ [93])) := by
    refine ⟨fun x hx => ?_, fun x hx => ?_⟩
    · cases hx
      rfl
    · rw [hlast] at hx
      cases hx
      rfl
  refine ⟨htight, ?_⟩
  unfold parseSec
  rw [stripWs_tight htight, if_pos ⟨rfl, hlast⟩]
  have hbr : ∀ x ∈ w2 ++ secName s ++ w3, (x == 91 || x == 93) = false := by
    intro x hx
    rcases List.mem_append.mp hx with hx | hx
    · rcases List.mem_append.mp hx with hx | hx
      · rcases h2 x hx with rfl | rfl | rfl | rfl | rfl <;> rfl
      · have := hr x hx
        simp
        omega
    · rcases h3 x hx with rfl | rfl | rfl | rfl | rfl <;> rfl
  have hstrip : stripBrackets (91 :: (w2 ++ secName s ++ w3 ++ [93])) = w2 ++ secName s ++ w3 := by
    rw [hcons]
    exact strip_gen (fun x => x == 91 || x == 93)
      (by intro x hx; cases List.mem_singleton.mp hx; rfl) (by intro x hx; cases List.mem_singleton.mp hx; rfl)
      (fun x hx => hbr x (List.mem_of_mem_head? hx)) (fun x hx => hbr x (List.mem_of_getLast? hx))
  rw [hstrip, stripWs_pad h2 h3 ht, hb]

theorem word_tight {s : List Nat} (h : Word s) : Tight s := ⟨h.2.2.1, h.2.2.2⟩

theorem word_not {s : List Nat} (h : Word s) {c : Nat} (hc : c = 0 ∨ c = 10 ∨ c = 35 ∨ c = 61) : c ∉ s := by
  intro hm
  have := h.2.1 c hm
  omega

theorem digits_not {v c : Nat} (hc : c < 48 ∨ 57 < c) : c ∉ dec v := by
  intro hm
  have : 48 ≤ c ∧ c ≤ 57 := decN_digits 10 v c hm
  omega

theorem entry_core {name w2 w3 : List Nat} {v : Nat} (hn : Word name) (hv : v ≤ 1073741823) (h2 : Blank w2) (h3 : Blank w3) :
    Tight (name ++ w2 ++ 61 :: (w3 ++ dec v)) ∧ parseSec (name ++ w2 ++ 61 :: (w3 ++ dec v)) = .nil ∧
    name ++ w2 ++ 61 :: (w3 ++ dec v) ≠ [] ∧
    stripWs (splitChr 61 (name ++ w2 ++ 61 :: (w3 ++ dec v))).1 = name ∧
    stripWs (splitChr 61 (name ++ w2 ++ 61 :: (w3 ++ dec v))).2 = dec v := by
  have hne := dec_ne v (by omega)
  have hlast : ∀ x ∈ (name ++ w2 ++ 61 :: (w3 ++ dec v)).getLast?, 48 ≤ x ∧ x ≤ 57 := by
    intro x hx
    have : (name ++ w2 ++ 61 :: (w3 ++ dec v)).getLast? = (dec v).getLast? := by
      rw [show name ++ w2 ++ 61 :: (w3 ++ dec v) = (name ++ w2 ++ 61 :: w3) ++ dec v by simp, List.getLast?_append]
      cases hd : (dec v).getLast? with
      | none => exact (hne (List.getLast?_eq_none_iff.mp hd)).elim
      | some y => rfl
    rw [this] at hx
    exact decN_digits 10 v x (List.mem_of_getLast? hx)
  have htight : Tight (name ++ w2 ++ 61 :: (w3 ++ dec v)) := by
    refine ⟨fun x hx => ?_, fun x hx => digit_not_ws (hlast x hx)⟩
    cases name with
    | nil => exact (hn.1 rfl).elim
    | cons y name => exact hn.2.2.1 x hx
  have h61 : 61 ∉ name ++ w2 := by
    intro hm
    rcases List.mem_append.mp hm with hm | hm
    · exact word_not hn (by omega) hm
    · exact blank_not_mem h2 rfl hm
  refine ⟨htight, ?_, by simp, ?_, ?_⟩
  · unfold parseSec
    rw [stripWs_tight htight, if_neg]
    rintro ⟨_, hl⟩
    have := hlast 93 (by rw [hl]; rfl)
    omega
  · rw [splitChr_at h61]
    have := stripWs_pad blank_nil h2 (word_tight hn)
    rwa [List.nil_append] at this
  · rw [splitChr_at h61]
    have := stripWs_pad h3 blank_nil (dec_tight v)
    rwa [List.append_nil] at this

theorem strip_line {w1 u w4 c : List Nat} (h1 : Blank w1) (h4 : Blank w4) (hu : Tight u) (hn : 35 ∉ u) (hc : Comment c) :
    stripWs (splitChr 35 (w1 ++ u ++ w4 ++ c)).1 = u := by
  rw [splitChr_comment _ hc, stripWs_pad h1 h4 hu]
  intro hm
  rcases List.mem_append.mp hm with hm | hm
  · rcases List.mem_append.mp hm with hm | hm
    · exact blank_not_mem h1 rfl hm
    · exact hn hm
  · exact blank_not_mem h4 rfl hm

/-- A blank line changes nothing. -/
theorem line_blank (db : Db) (sec : Sec) (ids : FsIds) {w c : List Nat} (hw : Blank w) (hc : Comment c) :
    parseLine db sec ids (w ++ c) = some (sec, ids) := by
  have e : stripWs (splitChr 35 (w ++ c)).1 = [] := by
    have := strip_line hw blank_nil tight_nil (fun h => nomatch h) hc
    rwa [List.append_nil, List.append_nil] at this
  unfold parseLine
  rw [e, if_neg, if_neg (by simp)]
  rintro ⟨h, _⟩
  exact h (by decide)

/-- A header opens its section; that of the open section is an error. -/
theorem line_header (db : Db) (sec : Sec) (ids : FsIds) {s : Sec} {w1 w2 w3 w4 c : List Nat}
    (hok : (Line.header s w1 w2 w3 w4 c).Ok) :
    parseLine db sec ids (Line.header s w1 w2 w3 w4 c).text = if s = sec then none else some (s, ids) := by
  obtain ⟨hs, h1, h2, h3, h4, hc⟩ := hok
  obtain ⟨ht, hp⟩ := header_core hs h2 h3
  obtain ⟨hne, _, hr, _⟩ := secName_facts s hs
  have hin : ∀ x ∈ 91 :: (w2 ++ secName s ++ w3 ++ [93]), x ≠ 35 ∧ x ≠ 61 := by
    intro x hx
    rcases List.mem_cons.mp hx with rfl | hx
    · decide
    · rcases List.mem_append.mp hx with hx | hx
      · rcases List.mem_append.mp hx with hx | hx
        · rcases List.mem_append.mp hx with hx | hx
          · rcases h2 x hx with rfl | rfl | rfl | rfl | rfl <;> decide
          · have := hr x hx
            omega
        · rcases h3 x hx with rfl | rfl | rfl | rfl | rfl <;> decide
      · cases List.mem_singleton.mp hx
        decide
  have e := strip_line h1 h4 ht (fun hm => (hin 35 hm).1 rfl) hc
  unfold parseLine Line.text
  rw [e, hp]
  by_cases hsec : s = sec
  · rw [if_neg (by simp [hsec]), if_pos (by simp), if_pos hsec]
    have hsplit := splitChr_none (x := 91 :: (w2 ++ secName s ++ w3 ++ [93])) (fun hm => (hin 61 hm).2 rfl)
    have : parseIn db sec ids (91 :: (w2 ++ secName s ++ w3 ++ [93])) = none := by
      rw [← hsec]
      cases s with
      | nil => exact (hs rfl).elim
      | users =>
        show parseUser _ _ _ = none
        unfold parseUser
        rw [hsplit]
        exact if_pos (Or.inr rfl)
      | groups =>
        show parseGroup _ _ _ = none
        unfold parseGroup
        rw [hsplit]
        exact if_pos (Or.inr rfl)
    rw [this]
  · rw [if_pos ⟨hs, hsec⟩, if_neg hsec]

/-- An entry. -/
theorem line_entry (db : Db) (sec : Sec) (ids : FsIds) {name : List Nat} {v : Nat} {w1 w2 w3 w4 c : List Nat}
    (hok : (Line.entry name v w1 w2 w3 w4 c).Ok) :
    parseLine db sec ids (Line.entry name v w1 w2 w3 w4 c).text =
      match sec with
      | .nil => some (.nil, ids)
      | .users => match uidByName db name with
        | none => none
        | some u => some (.users, { ids with users := ids.users ++ [⟨v, u⟩] })
      | .groups => match gidByName db name with
        | none => none
        | some g => some (.groups, { ids with groups := ids.groups ++ [⟨g, v⟩] }) := by
  obtain ⟨hn, hlen, hv, h1, h2, h3, h4, hc⟩ := hok
  obtain ⟨ht, hp, hne, e1, e2⟩ := entry_core hn hv h2 h3
  have h35 : 35 ∉ name ++ w2 ++ 61 :: (w3 ++ dec v) := by
    intro hm
    rcases List.mem_append.mp hm with hm | hm
    · rcases List.mem_append.mp hm with hm | hm
      · exact word_not hn (by omega) hm
      · exact blank_not_mem h2 rfl hm
    · rcases List.mem_cons.mp hm with hm | hm
      · cases hm
      · rcases List.mem_append.mp hm with hm | hm
        · exact blank_not_mem h3 rfl hm
        · exact digits_not (by omega) hm
  have e := strip_line h1 h4 ht h35 hc
  have hd := dec_ne v (by omega)
  unfold parseLine Line.text
  rw [e, hp, if_neg (by simp), if_pos hne]
  cases sec with
  | nil => rfl
  | users =>
    simp only [parseIn, parseUser, e1, e2]
    rw [if_neg (by simp [hn.1, hd])]
    simp only [parseUids, parseUidName]
    rw [if_neg (by omega), parseId_dec v hv]
    cases uidByName db name <;> rfl
  | groups =>
    simp only [parseIn, parseGroup, e1, e2]
    rw [if_neg (by simp [hn.1, hd])]
    simp only [parseGids, parseGidName]
    rw [if_neg (by omega), parseId_dec v hv]
    cases gidByName db name <;> rfl

end Silofs.Idsconf
