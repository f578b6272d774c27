import Verif.Model.Report
import Verif.Props.Caddr
/- Lemmas about memory written field by field. -/
namespace Silofs.Rep
open Silofs Silofs.Addr

theorem put_length (b : List Nat) (off : Nat) (v : List Nat) (h : off + v.length ≤ b.length) :
    (put b off v).length = b.length := by
  unfold put
  simp only [List.length_append, List.length_take, List.length_drop]
  omega

theorem put_get? (b : List Nat) (off : Nat) (v : List Nat) (h : off + v.length ≤ b.length) (k : Nat) :
    (put b off v)[k]? = if off ≤ k ∧ k < off + v.length then v[k - off]? else b[k]? := by
  unfold put
  have ht : (b.take off).length = off := by rw [List.length_take]; omega
  by_cases h1 : k < off
  · rw [if_neg (by omega), List.append_assoc, List.getElem?_append_left (by omega),
      List.getElem?_take_of_lt h1]
  · by_cases h2 : k < off + v.length
    · rw [if_pos (by omega), List.getElem?_append_left (by rw [List.length_append]; omega),
        List.getElem?_append_right (by omega), ht]
    · rw [if_neg (by omega), List.getElem?_append_right (by rw [List.length_append]; omega),
        List.length_append, ht, List.getElem?_drop]
      congr 1; omega

theorem get_get? (b : List Nat) (off n k : Nat) :
    (get b off n)[k]? = if k < n then b[off + k]? else none := by
  unfold get
  by_cases h : k < n
  · rw [if_pos h, List.getElem?_take_of_lt h, List.getElem?_drop]
  · rw [if_neg h, List.getElem?_eq_none]
    rw [List.length_take]; omega

theorem get_put_same (b : List Nat) (off : Nat) (v : List Nat) (h : off + v.length ≤ b.length) :
    get (put b off v) off v.length = v := by
  apply List.ext_getElem?
  intro k
  rw [get_get?, put_get? b off v h]
  by_cases hk : k < v.length
  · rw [if_pos hk, if_pos (by omega)]; congr 1; omega
  · rw [if_neg hk, List.getElem?_eq_none (by omega)]

theorem get_put_ne (b : List Nat) (off : Nat) (v : List Nat) (h : off + v.length ≤ b.length) (o n : Nat)
    (hd : o + n ≤ off ∨ off + v.length ≤ o) : get (put b off v) o n = get b o n := by
  apply List.ext_getElem?
  intro k
  rw [get_get?, get_get?, put_get? b off v h]
  by_cases hk : k < n
  · rw [if_pos hk, if_pos hk, if_neg (by omega)]
  · rw [if_neg hk, if_neg hk]

/-- Place and length of every field. -/
def spans (l : List (Nat × List Nat)) : List (Nat × Nat) := l.map fun f => (f.1, f.2.length)

/-- Fields inside memory of `n` bytes, no two overlapping. -/
def apart : Nat → List (Nat × Nat) → Bool
  | _, [] => true
  | n, (o, k) :: r => decide (o + k ≤ n) && r.all (fun f => decide (f.1 + f.2 ≤ o ∨ o + k ≤ f.1)) && apart n r

theorem puts_length (l : List (Nat × List Nat)) : ∀ b : List Nat, apart b.length (spans l) = true →
    (puts b l).length = b.length := by
  induction l with
  | nil => intro b _; rfl
  | cons f l ih =>
    intro b h
    simp only [spans, List.map_cons, apart, Bool.and_eq_true, decide_eq_true_eq] at h
    have hl := put_length b f.1 f.2 h.1.1
    show (puts (put b f.1 f.2) l).length = _
    rw [ih _ (by rw [hl]; exact h.2), hl]

theorem get_puts_ne (l : List (Nat × List Nat)) : ∀ b : List Nat, apart b.length (spans l) = true →
    ∀ o n, (spans l).all (fun f => decide (f.1 + f.2 ≤ o ∨ o + n ≤ f.1)) = true →
    get (puts b l) o n = get b o n := by
  induction l with
  | nil => intro b _ o n _; rfl
  | cons f l ih =>
    intro b h o n hd
    simp only [spans, List.map_cons, apart, Bool.and_eq_true, decide_eq_true_eq, List.all_cons] at h hd
    have hl := put_length b f.1 f.2 h.1.1
    show get (puts (put b f.1 f.2) l) o n = _
    rw [ih _ (by rw [hl]; exact h.2) o n hd.2, get_put_ne b f.1 f.2 h.1.1 o n (by omega)]

/-- Each of several disjoint fields holds what was assigned to it. -/
theorem get_puts (l : List (Nat × List Nat)) : ∀ b : List Nat, apart b.length (spans l) = true →
    ∀ o v, (o, v) ∈ l → get (puts b l) o v.length = v := by
  induction l with
  | nil => intro b _ o v h; cases h
  | cons f l ih =>
    intro b h o v hm
    simp only [spans, List.map_cons, apart, Bool.and_eq_true, decide_eq_true_eq] at h
    have hl := put_length b f.1 f.2 h.1.1
    show get (puts (put b f.1 f.2) l) o v.length = _
    rcases List.mem_cons.mp hm with e | e
    · subst e
      rw [get_puts_ne l _ (by rw [hl]; exact h.2) _ _ ?_]
      · exact get_put_same b o v h.1.1
      · have := h.1.2
        rw [List.all_eq_true] at this ⊢
        intro x hx
        have := this x hx
        simp only [decide_eq_true_eq] at this ⊢
        omega
    · exact ih _ (by rw [hl]; exact h.2) o v e

/-- Memory which agrees behind the first `k` bytes. -/
def SameFrom (k : Nat) (b b' : List Nat) : Prop := b.length = b'.length ∧ ∀ j, k ≤ j → b[j]? = b'[j]?

theorem SameFrom.put {k : Nat} {b b' : List Nat} (h : SameFrom k b b') (o : Nat) (v : List Nat)
    (hb : o + v.length ≤ b.length) : SameFrom k (put b o v) (put b' o v) := by
  refine ⟨by rw [put_length b o v hb, put_length b' o v (by rw [← h.1]; exact hb), h.1], fun j hj => ?_⟩
  rw [put_get? b o v hb, put_get? b' o v (by rw [← h.1]; exact hb), h.2 j hj]

theorem SameFrom.puts {k : Nat} (l : List (Nat × List Nat)) : ∀ {b b' : List Nat}, SameFrom k b b' →
    (spans l).all (fun f => decide (f.1 + f.2 ≤ b.length)) = true → SameFrom k (puts b l) (puts b' l) := by
  induction l with
  | nil => intro b b' h _; exact h
  | cons f l ih =>
    intro b b' h hs
    simp only [spans, List.map_cons, List.all_cons, Bool.and_eq_true, decide_eq_true_eq] at hs
    exact ih (h.put f.1 f.2 hs.1) (by rw [put_length b f.1 f.2 hs.1]; exact hs.2)

theorem puts_length' (l : List (Nat × List Nat)) : ∀ b : List Nat,
    (spans l).all (fun f => decide (f.1 + f.2 ≤ b.length)) = true → (puts b l).length = b.length := by
  induction l with
  | nil => intro b _; rfl
  | cons f l ih =>
    intro b hs
    simp only [spans, List.map_cons, List.all_cons, Bool.and_eq_true, decide_eq_true_eq] at hs
    have hl := put_length b f.1 f.2 hs.1
    show (puts (Rep.put b f.1 f.2) l).length = _
    rw [ih _ (by rw [hl]; exact hs.2), hl]

/-! ### Texts -/

theorem strToBuf_length (b : List Nat) (off bsz : Nat) (s : List Nat) (h0 : 0 < bsz)
    (h : off + bsz ≤ b.length) : (strToBuf b off bsz s).length = b.length := by
  have h1 : (put b off (s.take bsz)).length = b.length :=
    put_length b off _ (by rw [List.length_take]; omega)
  unfold strToBuf
  split
  · rw [put_length _ _ _ (by rw [put_length _ _ _ (by rw [h1, List.length_singleton]; omega), h1, List.length_singleton]; omega),
      put_length _ _ _ (by rw [h1, List.length_singleton]; omega), h1]
  · rw [put_length _ _ _ (by rw [h1, List.length_singleton]; omega), h1]

/-- What str_to_buf leaves at every place. -/
theorem strToBuf_get? (b : List Nat) (off bsz : Nat) (s : List Nat) (h0 : 0 < bsz)
    (h : off + bsz ≤ b.length) (k : Nat) :
    (strToBuf b off bsz s)[k]? =
      if off ≤ k ∧ k < off + min s.length (bsz - 1) then s[k - off]?
      else if k = off + min s.length (bsz - 1) ∨ k = off + bsz - 1 then some 0 else b[k]? := by
  have h1 : (put b off (s.take bsz)).length = b.length :=
    put_length b off _ (by rw [List.length_take]; omega)
  have hlt : (s.take bsz).length = min bsz s.length := List.length_take
  unfold strToBuf
  by_cases hs : s.length < bsz
  · rw [if_pos hs, put_get? _ _ _ (by rw [put_length _ _ _ (by rw [h1, List.length_singleton]; omega), h1, List.length_singleton]; omega),
      put_get? _ _ _ (by rw [h1, List.length_singleton]; omega),
      put_get? _ _ _ (by rw [hlt]; omega), List.length_singleton, hlt]
    by_cases c1 : k = off + bsz - 1
    · rw [if_pos (by omega), if_neg (by omega), if_pos (by omega)]
      rw [show k - (off + bsz - 1) = 0 from by omega]; rfl
    · rw [if_neg (by omega)]
      by_cases c2 : k = off + s.length
      · rw [if_pos (by omega), if_neg (by omega), if_pos (by omega)]
        rw [show k - (off + s.length) = 0 from by omega]; rfl
      · rw [if_neg (by omega)]
        by_cases c3 : off ≤ k ∧ k < off + s.length
        · rw [if_pos (by omega), if_pos (by omega), List.getElem?_take_of_lt (by omega)]
        · rw [if_neg (by omega), if_neg (by omega), if_neg (by omega)]
  · rw [if_neg hs, put_get? _ _ _ (by rw [h1, List.length_singleton]; omega),
      put_get? _ _ _ (by rw [hlt]; omega), List.length_singleton, hlt]
    by_cases c1 : k = off + bsz - 1
    · rw [if_pos (by omega), if_neg (by omega), if_pos (by omega)]
      rw [show k - (off + bsz - 1) = 0 from by omega]; rfl
    · rw [if_neg (by omega)]
      by_cases c3 : off ≤ k ∧ k < off + bsz
      · rw [if_pos (by omega), if_pos (by omega), List.getElem?_take_of_lt (by omega)]
      · rw [if_neg (by omega), if_neg (by omega), if_neg (by omega)]

theorem takeWhile_stop (s r : List Nat) (hs : ∀ c ∈ s, c ≠ 0) :
    (s ++ 0 :: r).takeWhile (· ≠ 0) = s := by
  induction s with
  | nil => simp
  | cons x s ih =>
    have hx := hs x List.mem_cons_self
    simp only [List.cons_append, List.takeWhile_cons]
    rw [if_pos (by simpa using hx), ih (fun c hc => hs c (List.mem_cons_of_mem _ hc))]

/-- Text followed by a zero is read back. -/
theorem cstr_of (b : List Nat) (off : Nat) (s : List Nat) (hs : ∀ c ∈ s, c ≠ 0)
    (hc : ∀ k, k < s.length → b[off + k]? = s[k]?) (hz : b[off + s.length]? = some 0) : cstr b off = s := by
  unfold cstr
  have he : b.drop off = s ++ 0 :: b.drop (off + s.length + 1) := by
    apply List.ext_getElem?
    intro k
    rw [List.getElem?_drop]
    by_cases h1 : k < s.length
    · rw [List.getElem?_append_left h1]; exact hc k h1
    · rw [List.getElem?_append_right (by omega)]
      by_cases h2 : k = s.length
      · subst h2; rw [hz]; simp
      · rw [show k - s.length = (k - s.length - 1) + 1 from by omega, List.getElem?_cons_succ,
          List.getElem?_drop]
        congr 1; omega
  rw [he, takeWhile_stop s _ hs]

theorem cstr_strToBuf (b : List Nat) (off bsz : Nat) (s : List Nat) (h0 : 0 < bsz)
    (h : off + bsz ≤ b.length) (hs : ∀ c ∈ s, c ≠ 0) :
    cstr (strToBuf b off bsz s) off = s.take (bsz - 1) := by
  have hlt : (s.take (bsz - 1)).length = min (bsz - 1) s.length := List.length_take
  apply cstr_of
  · intro c hc; exact hs c (List.mem_of_mem_take hc)
  · intro k hk
    rw [strToBuf_get? b off bsz s h0 h, if_pos (by omega), List.getElem?_take_of_lt (by omega)]
    congr 1; omega
  · rw [strToBuf_get? b off bsz s h0 h, if_neg (by omega), if_pos (by omega)]

theorem nib_ne (n : Nat) : nibToAscii n ≠ 0 := by
  unfold nibToAscii; split <;> omega

theorem digits_ne (b n : Nat) : ∀ c ∈ Caddr.digits b n, c ≠ 0 := by
  induction n using Nat.strongRecOn with
  | ind n ih =>
    intro c hc
    unfold Caddr.digits at hc
    split at hc
    · rw [List.mem_singleton] at hc; subst hc; exact nib_ne _
    · rename_i hh
      rcases List.mem_append.mp hc with h | h
      · exact ih (n / b) (Nat.div_lt_self (by omega) (by omega)) c h
      · rw [List.mem_singleton] at h; subst h; exact nib_ne _

end Silofs.Rep
