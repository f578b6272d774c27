import Verif.Props.QallocPool
set_option linter.unusedSimpArgs false
set_option linter.unusedVariables false
/-
Sizes and elements of the slabs; lists.
-/
namespace Silofs.Qalloc

theorem elemsz_eq (k : Nat) : elemsz k = 16 * 2 ^ k := by unfold elemsz; rw [Nat.pow_add]

theorem step_eq (k : Nat) : step k = 2 ^ k := by
  unfold step; rw [elemsz_eq]
  generalize 2 ^ k = e
  omega

/-- The twelve slabs. -/
theorem slab_cases {P : Nat → Prop} {k : Nat} (hk : k < 12) (h : P 0 ∧ P 1 ∧ P 2 ∧ P 3 ∧ P 4 ∧ P 5 ∧ P 6 ∧ P 7 ∧ P 8 ∧ P 9 ∧ P 10 ∧ P 11) :
    P k := by
  obtain ⟨h0, h1, h2, h3, h4, h5, h6, h7, h8, h9, h10, h11⟩ := h
  rcases k with _ | _ | _ | _ | _ | _ | _ | _ | _ | _ | _ | _ | k <;> first | assumption | omega

theorem sindex_some {nb k : Nat} (h : sindex nb = some k) :
    0 < nb ∧ nb ≤ 32768 ∧ k < 12 ∧ nb ≤ elemsz k ∧ (k = 0 ∨ elemsz (k - 1) < nb) := by
  unfold sindex at h
  unfold SLABMAX NSLABS clz32 at h
  by_cases h1 : ¬(0 < nb ∧ nb ≤ 32768)
  · rw [if_pos h1] at h; exact nomatch h
  · rw [if_neg h1] at h
    have hb : 0 < nb ∧ nb ≤ 32768 := Classical.not_not.mp h1
    by_cases hx : (nb - 1) / 16 = 0
    · simp only [hx, if_true] at h
      have : k = 0 := by
        simp at h; omega
      subst this
      refine ⟨hb.1, hb.2, by omega, ?_, .inl rfl⟩
      rw [elemsz_eq]; omega
    · have hl : Nat.log2 ((nb - 1) / 16) < 11 := (Nat.log2_lt hx).mpr (by omega)
      have ha := Nat.log2_self_le hx
      have hc := @Nat.lt_log2_self ((nb - 1) / 16)
      simp only [hx, if_false] at h
      generalize hg : Nat.log2 ((nb - 1) / 16) = l at h hl ha hc
      have hne : ¬(31 - l = 0 ∨ 32 < 31 - l) := by omega
      have hne2 : ¬(12 ≤ 32 - (31 - l)) := by omega
      rw [if_neg hne, if_neg hne2] at h
      have hk : k = l + 1 := by
        have := Option.some.inj h; omega
      subst hk
      refine ⟨hb.1, hb.2, by omega, ?_, .inr ?_⟩
      · rw [elemsz_eq]; omega
      · rw [elemsz_eq, Nat.add_sub_cancel]; omega

theorem sindex_total {nb : Nat} (h0 : 0 < nb) (h1 : nb ≤ 32768) : ∃ k, sindex nb = some k := by
  unfold sindex
  unfold SLABMAX NSLABS clz32
  rw [if_neg (by omega)]
  by_cases hx : (nb - 1) / 16 = 0
  · simp only [hx, if_true]
    exact ⟨0, rfl⟩
  · have hl : Nat.log2 ((nb - 1) / 16) < 11 := (Nat.log2_lt hx).mpr (by omega)
    simp only [hx, if_false]
    rw [if_neg (by omega), if_neg (by omega)]
    exact ⟨_, rfl⟩

theorem sindex_none_of_big {nb : Nat} (h : 32768 < nb) : sindex nb = none := by
  unfold sindex SLABMAX
  rw [if_pos (by omega)]

theorem mem_segsOf {k p g : Nat} (hk : k < 12) : g ∈ segsOf k p ↔ g / 4096 = p ∧ g % 2 ^ k = 0 := by
  unfold segsOf NSEGS
  rw [step_eq]
  simp only [List.mem_map, List.mem_range]
  revert hk
  intro hk
  refine slab_cases (P := fun k => (∃ a, a < 4096 / 2 ^ k ∧ p * 4096 + a * 2 ^ k = g) ↔ g / 4096 = p ∧ g % 2 ^ k = 0) hk ?_
  refine ⟨?_, ?_, ?_, ?_, ?_, ?_, ?_, ?_, ?_, ?_, ?_, ?_⟩
  all_goals
    constructor
    · rintro ⟨a, h1, h2⟩
      simp only [Nat.reducePow] at *
      omega
    · rintro ⟨h1, h2⟩
      simp only [Nat.reducePow] at *
      first
        | exact ⟨g - p * 4096, by omega, by omega⟩
        | exact ⟨(g - p * 4096) / 2, by omega, by omega⟩
        | exact ⟨(g - p * 4096) / 4, by omega, by omega⟩
        | exact ⟨(g - p * 4096) / 8, by omega, by omega⟩
        | exact ⟨(g - p * 4096) / 16, by omega, by omega⟩
        | exact ⟨(g - p * 4096) / 32, by omega, by omega⟩
        | exact ⟨(g - p * 4096) / 64, by omega, by omega⟩
        | exact ⟨(g - p * 4096) / 128, by omega, by omega⟩
        | exact ⟨(g - p * 4096) / 256, by omega, by omega⟩
        | exact ⟨(g - p * 4096) / 512, by omega, by omega⟩
        | exact ⟨(g - p * 4096) / 1024, by omega, by omega⟩
        | exact ⟨(g - p * 4096) / 2048, by omega, by omega⟩

theorem length_segsOf {k p : Nat} (hk : k < 12) : (segsOf k p).length = PGSZ / elemsz k := by
  unfold segsOf
  rw [List.length_map, List.length_range, step_eq, elemsz_eq]
  refine slab_cases (P := fun k => NSEGS / 2 ^ k = PGSZ / (16 * 2 ^ k)) hk ?_
  decide

theorem nodup_segsOf (k p : Nat) : (segsOf k p).Nodup := by
  unfold segsOf
  rw [List.nodup_iff_pairwise_ne, List.pairwise_map]
  refine List.Pairwise.imp ?_ List.pairwise_lt_range
  intro a b hab
  rw [step_eq]
  have : 0 < 2 ^ k := Nat.two_pow_pos k
  have h2 : a * 2 ^ k < b * 2 ^ k := Nat.mul_lt_mul_of_pos_right hab this
  omega

theorem head_segsOf {k p : Nat} (hk : k < 12) : ∃ r, segsOf k p = p * 4096 :: r := by
  unfold segsOf NSEGS
  have : 0 < 4096 / step k := by
    rw [step_eq]
    refine slab_cases (P := fun k => 0 < 4096 / 2 ^ k) hk ?_
    decide
  obtain ⟨m, hm⟩ : ∃ m, 4096 / step k = m + 1 := ⟨_, (Nat.succ_pred_eq_of_pos this).symm⟩
  rw [hm, List.range_succ_eq_map]
  rw [List.map_cons, Nat.zero_mul, Nat.add_zero]
  exact ⟨_, rfl⟩

/-! ### Lists -/

theorem eraseAll_eq {l ds : List Nat} (h : l.Nodup) : eraseAll l ds = l.filter (fun x => decide (x ∉ ds)) := by
  induction ds generalizing l with
  | nil =>
    show l = _
    rw [List.filter_eq_self.mpr]
    intro a _
    simp
  | cons d ds ih =>
    show eraseAll (l.erase d) ds = _
    rw [ih (h.erase d), h.erase_eq_filter, List.filter_filter]
    apply List.filter_congr
    intro x _
    simp only [List.mem_cons, not_or]
    by_cases h1 : x = d <;> by_cases h2 : x ∈ ds <;> simp [h1, h2]

theorem countP_erase' (f : Nat × Nat → Bool) {l : Held} {x : Nat × Nat} (h : x ∈ l) :
    l.countP f = (if f x then 1 else 0) + (l.erase x).countP f := by
  induction l with
  | nil => exact nomatch h
  | cons a r ih =>
    by_cases e : a = x
    · subst e; rw [List.erase_cons_head, List.countP_cons]; omega
    · rw [List.erase_cons_tail (by simpa using e)]
      have := ih (by
        rcases List.mem_cons.mp h with h | h
        · exact absurd h.symm e
        · exact h)
      rw [List.countP_cons, List.countP_cons, this]
      omega

theorem sum_erase' (f : Nat × Nat → Nat) {l : Held} {x : Nat × Nat} (h : x ∈ l) :
    (l.map f).sum = f x + ((l.erase x).map f).sum := by
  induction l with
  | nil => exact nomatch h
  | cons a r ih =>
    by_cases e : a = x
    · subst e; rw [List.erase_cons_head]; rfl
    · rw [List.erase_cons_tail (by simpa using e)]
      have := ih (by
        rcases List.mem_cons.mp h with h | h
        · exact absurd h.symm e
        · exact h)
      simp only [List.map_cons, List.sum_cons]
      omega

theorem nodup_of_fst {L : Held} (h : (L.map Prod.fst).Nodup) : L.Nodup :=
  List.Pairwise.of_map Prod.fst (fun a b hab e => hab (by rw [e])) h

theorem mem_erase_fst {L : Held} (h : (L.map Prod.fst).Nodup) {x : Nat × Nat} (hx : x ∈ L) (o : Nat) :
    o ∈ (L.erase x).map Prod.fst ↔ o ∈ L.map Prod.fst ∧ o ≠ x.1 := by
  induction L with
  | nil => exact nomatch hx
  | cons a r ih =>
    rw [List.map_cons, List.nodup_cons] at h
    by_cases e : a = x
    · subst e
      rw [List.erase_cons_head, List.map_cons, List.mem_cons]
      constructor
      · intro hm; exact ⟨.inr hm, fun he => h.1 (he ▸ hm)⟩
      · rintro ⟨h1 | h1, h2⟩
        · exact absurd h1 h2
        · exact h1
    · have hxr : x ∈ r := by
        rcases List.mem_cons.mp hx with h1 | h1
        · exact absurd h1.symm e
        · exact h1
      rw [List.erase_cons_tail (by simpa using e), List.map_cons, List.mem_cons, ih h.2 hxr, List.map_cons, List.mem_cons]
      constructor
      · rintro (h1 | h1)
        · exact ⟨.inl h1, fun he => h.1 (by rw [← h1, he]; exact List.mem_map_of_mem hxr)⟩
        · exact ⟨.inr h1.1, h1.2⟩
      · rintro ⟨h1 | h1, h2⟩
        · exact .inl h1
        · exact .inr ⟨h1, h2⟩

theorem nodup_erase_fst {L : Held} (h : (L.map Prod.fst).Nodup) (x : Nat × Nat) : ((L.erase x).map Prod.fst).Nodup :=
  h.sublist (List.erase_sublist.map _)

theorem mem_erase_held {L : Held} (h : (L.map Prod.fst).Nodup) (x y : Nat × Nat) : y ∈ L.erase x ↔ y ∈ L ∧ y ≠ x := by
  rw [(nodup_of_fst h).mem_erase_iff]; exact And.comm

/-- Two held objects with the same start are the same. -/
theorem held_eq {L : Held} (h : (L.map Prod.fst).Nodup) {x y : Nat × Nat} (hx : x ∈ L) (hy : y ∈ L) (he : x.1 = y.1) :
    x = y := by
  induction L with
  | nil => exact nomatch hx
  | cons a r ih =>
    rw [List.map_cons, List.nodup_cons] at h
    rcases List.mem_cons.mp hx with h1 | h1 <;> rcases List.mem_cons.mp hy with h2 | h2
    · rw [h1, h2]
    · exact absurd (List.mem_map_of_mem (f := Prod.fst) h2) (by rw [← he, h1]; exact h.1)
    · exact absurd (List.mem_map_of_mem (f := Prod.fst) h1) (by rw [he, h2]; exact h.1)
    · exact ih h.2 h1 h2

/-- Counting over the pages, when one record changes. -/
theorem countP_range_set {f g : Nat → Bool} {m p : Nat} (hp : p < m) (h : ∀ i, i ≠ p → g i = f i) :
    (List.range m).countP g + (if f p then 1 else 0) = (List.range m).countP f + (if g p then 1 else 0) := by
  induction m with
  | zero => omega
  | succ m ih =>
    rw [List.range_succ, List.countP_append, List.countP_append, List.countP_singleton, List.countP_singleton]
    by_cases e : p = m
    · subst e
      have : (List.range p).countP g = (List.range p).countP f := by
        apply List.countP_congr
        intro i hi
        rw [h i (by have := List.mem_range.mp hi; omega)]
      omega
    · have := ih (by omega)
      rw [h m (fun e' => e e'.symm)]
      omega

theorem countP_range_congr {f g : Nat → Bool} {m : Nat} (h : ∀ i, g i = f i) :
    (List.range m).countP g = (List.range m).countP f := by
  apply List.countP_congr
  intro i _
  rw [h i]

end Silofs.Qalloc
