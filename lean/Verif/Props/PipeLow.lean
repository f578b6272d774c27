import Verif.Spec.Pipe
set_option linter.unusedSimpArgs false
namespace Silofs.Pp
open Silofs.Fuse (Buf)

theorem dropB_flatten (n : Nat) (l : List Buf) : (dropB n l).flatten = l.flatten.drop n := by
  induction l generalizing n with
  | nil => simp [dropB]
  | cons x xs ih =>
    rw [dropB]
    by_cases h : n = 0
    · rw [if_pos h, h, List.drop_zero]
    · rw [if_neg h]
      by_cases h2 : n < x.length
      · rw [if_pos h2, List.flatten_cons, List.flatten_cons, List.drop_append_of_le_length (Nat.le_of_lt h2)]
      · have hx : x.drop n = [] := List.drop_eq_nil_of_le (by omega)
        rw [if_neg h2, ih, List.flatten_cons, List.drop_append, hx, List.nil_append]

theorem cut_flatten (r : Nat) (l : Buf) : (cut r l).flatten = l := by
  fun_induction cut r l with
  | case1 r h => rfl
  | case2 r l h h2 => simp
  | case3 r l h ih => rw [List.flatten_cons, ih, List.take_append_drop]

theorem cut_ne (r : Nat) (l : Buf) : ∀ x ∈ cut r l, x ≠ [] := by
  fun_induction cut r l with
  | case1 r h => intro x hx; cases hx
  | case2 r l h h2 => intro x hx; rw [List.mem_singleton] at hx; rw [hx]; exact h2
  | case3 r l h ih =>
    intro x hx
    rcases List.mem_cons.mp hx with rfl | hx
    · intro hc
      have := congrArg List.length hc
      simp only [List.length_take, List.length_nil] at this
      omega
    · exact ih x hx

theorem cut_length (r : Nat) (l : Buf) (hr : r < 4096) (hl : l ≠ []) :
    (cut r l).length = (4095 - r + l.length - 1) / 4096 + 1 := by
  fun_induction cut r l with
  | case1 r h => exact absurd rfl hl
  | case2 r l h h2 =>
    have : l.length ≠ 0 := fun h => h2 (List.length_eq_zero_iff.mp h)
    simp only [List.length_cons, List.length_nil]
    omega
  | case3 r l h ih =>
    have hd : l.drop (r + 1) ≠ [] := by
      intro hc
      have := congrArg List.length hc
      simp only [List.length_drop, List.length_nil] at this
      omega
    rw [List.length_cons, ih (by decide) hd, List.length_drop]
    omega

theorem load_length (m : Nat → Nat) (v : Iov) : (load m v).length = v.len := by simp [load]

theorem load_get (m : Nat → Nat) (v : Iov) (i : Nat) (h : i < v.len) : (load m v)[i]? = some (m (v.base + i)) := by
  simp [load, h]

theorem slotsOf_flatten (m : Nat → Nat) (v : Iov) : (slotsOf m v).flatten = load m v := cut_flatten _ _

theorem slotsOf_length (m : Nat → Nat) (v : Iov) : (slotsOf m v).length = pages v := by
  unfold slotsOf pages
  by_cases h : v.len = 0
  · have : load m v = [] := List.length_eq_zero_iff.mp (by rw [load_length, h])
    rw [if_pos h, this, cut]
    simp
  · rw [if_neg h, cut_length _ _ (by omega), load_length]
    · omega
    · intro hc
      have := congrArg List.length hc
      rw [load_length] at this
      exact h this

theorem slots_flatten (m : Nat → Nat) (l : List Iov) :
    (((l.map (slotsOf m)).flatten).flatten) = (l.map (load m)).flatten := by
  induction l with
  | nil => rfl
  | cons v l ih => simp only [List.map_cons, List.flatten_cons, List.flatten_append, ih, slotsOf_flatten]

theorem slots_length (m : Nat → Nat) (l : List Iov) :
    ((l.map (slotsOf m)).flatten).length = (l.map pages).sum := by
  induction l with
  | nil => rfl
  | cons v l ih => simp only [List.map_cons, List.flatten_cons, List.length_append, ih, slotsOf_length, List.sum_cons]

theorem slots_ne (m : Nat → Nat) (l : List Iov) : ∀ x ∈ (l.map (slotsOf m)).flatten, x ≠ [] := by
  intro x hx
  rw [List.mem_flatten] at hx
  obtain ⟨y, hy, hxy⟩ := hx
  rw [List.mem_map] at hy
  obtain ⟨v, _, rfl⟩ := hy
  exact cut_ne _ _ x hxy

theorem loads_length (m : Nat → Nat) (l : List Iov) : ((l.map (load m)).flatten).length = total l := by
  unfold total
  induction l with
  | nil => rfl
  | cons v l ih => simp only [List.map_cons, List.flatten_cons, List.length_append, ih, load_length, List.sum_cons]

/-! ### Memory -/

theorem store_in (m : Nat → Nat) (b : Nat) (l : Buf) (i : Nat) (h : i < l.length) :
    some (store m b l (b + i)) = l[i]? := by
  unfold store
  rw [if_pos ⟨by omega, by omega⟩, Nat.add_sub_cancel_left, List.getD_eq_getElem?_getD, List.getElem?_eq_getElem h]
  rfl

theorem store_out (m : Nat → Nat) (b : Nat) (l : Buf) (a : Nat) (h : ¬ (b ≤ a ∧ a < b + l.length)) :
    store m b l a = m a := if_neg h

theorem holds_congr {m m' : Nat → Nat} : ∀ {l : List Iov} {data : Buf},
    (∀ a, Inside l a → m' a = m a) → Holds m l data → Holds m' l data := by
  intro l
  induction l with
  | nil => intro data _ h; exact h
  | cons v l ih =>
    intro data hc h
    refine ⟨fun i hi => ?_, ih (fun a ha => hc a ?_) h.2⟩
    · rw [h.1 i hi, hc _ ⟨v, List.mem_cons_self, by omega, by omega⟩]
    · obtain ⟨w, hw, h1⟩ := ha
      exact ⟨w, List.mem_cons_of_mem _ hw, h1⟩

theorem holds_append (m : Nat → Nat) : ∀ (l l2 : List Iov) (data : Buf),
    Holds m l (data.take (total l)) → Holds m l2 (data.drop (total l)) → Holds m (l ++ l2) data := by
  intro l
  induction l with
  | nil => intro l2 data _ h; simpa [total] using h
  | cons v l ih =>
    intro l2 data h1 h2
    have ht : total (v :: l) = v.len + total l := by simp [total]
    refine ⟨fun i hi => ?_, ?_⟩
    · have := h1.1 i hi
      rw [List.getElem?_take_of_lt (by omega)] at this
      exact this
    · apply ih
      · have := h1.2
        rw [ht, List.drop_take, Nat.add_sub_cancel_left] at this
        exact this
      · rw [List.drop_drop, ← ht]
        exact h2

theorem holds_load (m : Nat → Nat) (l : List Iov) : Holds m l ((l.map (load m)).flatten) := by
  induction l with
  | nil => rfl
  | cons v l ih =>
    refine ⟨fun i hi => ?_, ?_⟩
    · rw [List.map_cons, List.flatten_cons, List.getElem?_append_left (by rw [load_length]; exact hi),
        load_get m v i hi]
    · rw [List.map_cons, List.flatten_cons, List.drop_append_of_le_length (by rw [load_length]; omega),
        List.drop_eq_nil_of_le (by rw [load_length]; omega), List.nil_append]
      exact ih

end Silofs.Pp
