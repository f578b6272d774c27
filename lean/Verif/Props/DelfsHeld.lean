import Verif.Props.DelfsAll
import Verif.Props.SnapLive
/-
C44: everything stored in a volume is reached from its super block, in every history; so what the traversal
removes is everything.
-/
set_option linter.unusedSimpArgs false
set_option linter.unusedVariables false
namespace Silofs.Snap

/-- Every leaf of the mounted volume has all its blocks. -/
def FullC (s : St) : Prop := ∀ i c, c < 256 → s.loc s.cur 4 i ≠ none → s.loc s.cur 5 (i * 256 + c) ≠ none

/-- Every space-map node stored in the mounted volume is reached. -/
def UnC (s : St) : Prop := ∀ k i, s.un s.cur k i ≠ {} → k ≤ 4 ∧ s.loc s.cur k i = some s.cur

/-- The maps of the mounted volume only grow. -/
structure Grow (s s' : St) : Prop where
  cur : s'.cur = s.cur
  keep : ∀ k i, k ≤ 5 → s.loc s.cur k i ≠ none → s'.loc s.cur k i ≠ none
  own : ∀ k i, k ≤ 5 → s.loc s.cur k i = some s.cur → s'.loc s.cur k i = some s.cur
  full : FullC s → FullC s'
  un : UnC s → UnC s'

theorem Grow.refl (s : St) : Grow s s := ⟨rfl, fun _ _ _ h => h, fun _ _ _ h => h, id, id⟩

theorem Grow.trans {s s' s'' : St} (a : Grow s s') (b : Grow s' s'') : Grow s s'' where
  cur := b.cur.trans a.cur
  keep k i hk h := by
    have := b.keep k i hk
    rw [a.cur] at this
    exact this (a.keep k i hk h)
  own k i hk h := by
    have := b.own k i hk
    rw [a.cur] at this
    exact this (a.own k i hk h)
  full h := b.full (a.full h)
  un h := b.un (a.un h)

/-- Nothing but the cache changes. -/
theorem grow_same {s s' : St} (hv : s'.vol = s.vol) (hu : s'.un = s.un) (hc : s'.cur = s.cur) : Grow s s' := by
  have hl : ∀ k i, s'.loc s.cur k i = s.loc s.cur k i := fun k i => by
    simp only [loc_walk, hu, St.root, hv]
  refine ⟨hc, fun k i _ h => by rw [hl]; exact h, fun k i _ h => by rw [hl]; exact h, fun h => ?_, fun h => ?_⟩
  · unfold FullC at *
    rw [hc]
    simpa only [hl] using h
  · unfold UnC at *
    rw [hc, hu]
    simpa only [hl] using h

theorem putRoot_grow {s : St} {n : UNode} (hm : (s.vol s.cur).isSome = true)
    (hn : (∃ w, s.root s.cur = some w ∧ n = s.un w 0 0) ∨ (s.root s.cur = none ∧ n = freshNode s.cur 0)) :
    Grow s (putRoot s n) := by
  have l0 := putRoot_loc (n := n) hm
  have deep := putRoot_deep (n := n) hm (by
    intro c
    rcases hn with ⟨w, h1, h2⟩ | ⟨h1, h2⟩
    · rw [h1, h2]
    · rw [h1, h2]; rfl)
  have own : ∀ k i, k ≤ 5 → s.loc s.cur k i = some s.cur → (putRoot s n).loc s.cur k i = some s.cur := by
    intro k i _ h
    cases k with
    | zero =>
      rw [l0]
      by_cases e : i = 0
      · rw [if_pos e]
      · simp [St.loc, walk, e] at h
    | succ k => rw [deep]; exact h
  refine ⟨rfl, fun k i hk h => ?_, own, fun h i c hc h4 => ?_, fun h k i hk => ?_⟩
  · cases k with
    | zero =>
      rw [l0]
      by_cases e : i = 0
      · rw [if_pos e]; exact fun z => (nomatch z)
      · simp [St.loc, walk, e] at h
    | succ k => rw [deep]; exact h
  · show (putRoot s n).loc s.cur 5 _ ≠ none
    rw [deep 4]
    refine h i c hc ?_
    have : (putRoot s n).loc s.cur 4 i ≠ none := h4
    rwa [deep 3] at this
  · show k ≤ 4 ∧ (putRoot s n).loc s.cur k i = some s.cur
    by_cases e : (s.cur, k, i) = (s.cur, 0, 0)
    · cases e
      exact ⟨by omega, by rw [l0, if_pos rfl]⟩
    · have hk' : (putRoot s n).un s.cur k i ≠ {} := hk
      rw [putRoot_un s n s.cur k i e] at hk'
      obtain ⟨h1, h2⟩ := h k i hk'
      exact ⟨h1, own k i (by omega) h2⟩

theorem put_grow {s : St} {k i : Nat} {n : UNode} (hk : k + 1 ≤ 4)
    (hp : s.loc s.cur k (i / 256) = some s.cur)
    (hn : (∃ w, s.loc s.cur (k + 1) i = some w ∧ n = s.un w (k + 1) i) ∨
      (s.loc s.cur (k + 1) i = none ∧ n = freshNode s.cur (k + 1))) :
    Grow s (put s k i n) := by
  obtain ⟨low, mid, deep⟩ := put_loc (n := n) hp
  have hi : i / 256 * 256 + i % 256 = i := by omega
  have deep' : k + 1 < 4 ∨ (∃ w, s.loc s.cur (k + 1) i = some w ∧ n = s.un w (k + 1) i) →
      ∀ d i', (put s k i n).loc s.cur (k + 2 + d) i' = s.loc s.cur (k + 2 + d) i' := by
    intro h
    refine deep (fun c => ?_)
    rcases hn with ⟨w, h1, h2⟩ | ⟨h1, h2⟩
    · rw [h1, h2]
    · rw [h1, h2]
      simp only [freshNode]
      rcases h with h | ⟨w, h3, _⟩
      · rw [if_neg (by omega)]
      · rw [h1] at h3; cases h3
  -- level 5 when a new leaf is put
  have five : k = 3 → s.loc s.cur 4 i = none → n = freshNode s.cur 4 → ∀ b,
      (put s k i n).loc s.cur 5 b = if b / 256 = i then some s.cur else s.loc s.cur 5 b := by
    intro e h1 h2 b
    subst e
    have m4 := mid (b / 256)
    simp only [loc_walk] at m4 ⊢
    rw [walk_succ, m4]
    by_cases h3 : b / 256 = i
    · rw [if_pos h3, if_pos h3, h3]
      show ((put s 3 i n).un s.cur 4 i).child (b % 256) = _
      rw [put_node s 3 i n, h2]
      simp [freshNode]
    · rw [if_neg h3, if_neg h3, walk_succ _ _ 4]
      cases hw : walk s.un (s.root s.cur) 4 (b / 256) with
      | none => rfl
      | some w =>
        show ((put s 3 i n).un w 4 (b / 256)).child _ = _
        rw [put_un s 3 i n w 4 (b / 256) (by simp only [Ne, Prod.mk.injEq]; omega)
          (by simp only [Ne, Prod.mk.injEq]; exact fun h => h3 h.2.2)]
  have cases5 : ∀ k' i', k + 2 ≤ k' → k' ≤ 5 → (put s k i n).loc s.cur k' i' = s.loc s.cur k' i' ∨
      (k' = 5 ∧ i' / 256 = i ∧ (put s k i n).loc s.cur k' i' = some s.cur ∧ s.loc s.cur 4 i = none) := by
    intro k' i' h1 h2
    obtain ⟨d, rfl⟩ : ∃ d, k' = k + 2 + d := ⟨k' - (k + 2), by omega⟩
    by_cases hl : k + 1 < 4
    · exact Or.inl (deep' (Or.inl hl) d i')
    · have e : k = 3 := by omega
      have ed : d = 0 := by omega
      subst ed
      rcases hn with hn | ⟨h3, h4⟩
      · exact Or.inl (deep' (Or.inr hn) 0 i')
      · subst e
        have := five rfl h3 h4 i'
        by_cases h5 : i' / 256 = i
        · rw [if_pos h5] at this
          exact Or.inr ⟨rfl, h5, this, h3⟩
        · rw [if_neg h5] at this
          exact Or.inl this
  have own : ∀ k' i', k' ≤ 5 → s.loc s.cur k' i' = some s.cur → (put s k i n).loc s.cur k' i' = some s.cur := by
    intro k' i' hk' h
    by_cases h1 : k' ≤ k
    · rw [low k' h1]; exact h
    · by_cases h2 : k' = k + 1
      · subst h2
        rw [mid]
        split
        · rfl
        · exact h
      · rcases cases5 k' i' (by omega) hk' with e | e
        · rw [e]; exact h
        · exact e.2.2.1
  have keep : ∀ k' i', k' ≤ 5 → s.loc s.cur k' i' ≠ none → (put s k i n).loc s.cur k' i' ≠ none := by
    intro k' i' hk' h
    by_cases h1 : k' ≤ k
    · rw [low k' h1]; exact h
    · by_cases h2 : k' = k + 1
      · subst h2
        rw [mid]
        split
        · exact fun z => (nomatch z)
        · exact h
      · rcases cases5 k' i' (by omega) hk' with e | e
        · rw [e]; exact h
        · rw [e.2.2.1]; exact fun z => (nomatch z)
  refine ⟨rfl, keep, own, fun h i' c hc h4 => ?_, fun h k' i' hk' => ?_⟩
  · show (put s k i n).loc s.cur 5 _ ≠ none
    replace h4 : (put s k i n).loc s.cur 4 i' ≠ none := h4
    by_cases hs : s.loc s.cur 4 i' = none
    · -- the leaf is the new one
      by_cases hl : k + 1 < 4
      · obtain ⟨d, e⟩ : ∃ d, 4 = k + 2 + d := ⟨4 - (k + 2), by omega⟩
        rw [e, deep' (Or.inl hl) d i', ← e] at h4
        exact absurd hs h4
      · have e : k = 3 := by omega
        subst e
        have m := mid i'
        by_cases ei : i' = i
        · rcases hn with ⟨w, h1, _⟩ | ⟨h1, h2⟩
          · rw [ei] at hs
            rw [show s.loc s.cur (3 + 1) i = s.loc s.cur 4 i from rfl, hs] at h1
            cases h1
          · rw [five rfl h1 h2, if_pos (by omega)]
            exact fun z => (nomatch z)
        · rw [if_neg ei] at m
          exact absurd (m.trans hs) h4
    · exact keep 5 _ (by omega) (h i' c hc hs)
  · show k' ≤ 4 ∧ (put s k i n).loc s.cur k' i' = some s.cur
    by_cases e1 : (s.cur, k', i') = (s.cur, k, i / 256)
    · cases e1
      exact ⟨by omega, own _ _ (by omega) hp⟩
    · by_cases e2 : (s.cur, k', i') = (s.cur, k + 1, i)
      · cases e2
        exact ⟨by omega, by rw [mid, if_pos rfl]⟩
      · have hk2 : (put s k i n).un s.cur k' i' ≠ {} := hk'
        rw [put_un s k i n s.cur k' i' e1 e2] at hk2
        obtain ⟨h1, h2⟩ := h k' i' hk2
        exact ⟨h1, own k' i' (by omega) h2⟩

theorem cow_grow (mk : Bool) (k : Nat) : ∀ i s, k ≤ 4 → (s.vol s.cur).isSome = true →
    Grow s (cow mk k i s).1 := by
  induction k with
  | zero =>
    intro i s hk hm
    simp only [cow]
    split
    · rename_i h0
      subst h0
      split
      · rename_i w hr
        split
        · exact Grow.refl s
        · exact putRoot_grow hm (Or.inl ⟨w, hr, rfl⟩)
      · rename_i hr
        split
        · exact putRoot_grow hm (Or.inr ⟨hr, rfl⟩)
        · exact Grow.refl s
    · exact Grow.refl s
  | succ k ih =>
    intro i s hk hm
    have h1 := ih (i / 256) s (by omega) hm
    have h2 := (cow_maps mk k (i / 256) s (by omega) hm).2
    simp only [cow]
    split
    · rename_i s' e
      rw [e] at h1
      exact h1
    · rename_i s' e
      rw [e] at h1 h2
      have hp : s'.loc s'.cur k (i / 256) = some s'.cur := by
        rw [h1.cur]; exact h2 rfl
      have hl : s'.loc s'.cur (k + 1) i = (s'.un s'.cur k (i / 256)).child (i % 256) := by
        simp only [loc_walk] at hp ⊢
        rw [walk_succ, hp]
      split
      · rename_i w hw
        split
        · exact h1
        · exact h1.trans (put_grow hk hp (Or.inl ⟨w, hl.trans hw, rfl⟩))
      · rename_i hw
        split
        · exact h1.trans (put_grow hk hp (Or.inr ⟨hl.trans hw, rfl⟩))
        · exact h1

theorem bind_grow {s : St} {b : Nat} (hp : s.loc s.cur 4 (b / 256) = some s.cur) :
    Grow s (s.bind 4 (b / 256) (b % 256)) := by
  obtain ⟨low, five⟩ := bind_loc hp
  have own : ∀ k i, k ≤ 5 → s.loc s.cur k i = some s.cur → (s.bind 4 (b / 256) (b % 256)).loc s.cur k i = some s.cur := by
    intro k i hk h
    by_cases h1 : k ≤ 4
    · rw [low k h1]; exact h
    · have e : k = 5 := by omega
      subst e
      rw [five]
      split
      · rfl
      · exact h
  have keep : ∀ k i, k ≤ 5 → s.loc s.cur k i ≠ none → (s.bind 4 (b / 256) (b % 256)).loc s.cur k i ≠ none := by
    intro k i hk h
    by_cases h1 : k ≤ 4
    · rw [low k h1]; exact h
    · have e : k = 5 := by omega
      subst e
      rw [five]
      split
      · exact fun z => (nomatch z)
      · exact h
  refine ⟨rfl, keep, own, fun h i c hc h4 => ?_, fun h k i hk => ?_⟩
  · refine keep 5 _ (by omega) (h i c hc ?_)
    have : (s.bind 4 (b / 256) (b % 256)).loc s.cur 4 i ≠ none := h4
    rwa [low 4 (by omega)] at this
  · show k ≤ 4 ∧ (s.bind 4 (b / 256) (b % 256)).loc s.cur k i = some s.cur
    by_cases e : k = 4 ∧ i = b / 256
    · obtain ⟨e1, e2⟩ := e
      subst e1; subst e2
      exact ⟨by omega, own _ _ (by omega) hp⟩
    · have hk2 : (s.bind 4 (b / 256) (b % 256)).un s.cur k i ≠ {} := hk
      simp only [St.bind, St.setUn] at hk2
      rw [if_neg (fun z => e z.2)] at hk2
      obtain ⟨h1, h2⟩ := h k i hk2
      exact ⟨h1, own k i (by omega) h2⟩

theorem setUsed_grow {s : St} {b j : Nat} {x : Bool} (hp : s.loc s.cur 4 (b / 256) = some s.cur) :
    Grow s (setUsed b j x s) := by
  have hl : ∀ k i, (setUsed b j x s).loc s.cur k i = s.loc s.cur k i := setUsed_loc
  refine ⟨rfl, fun k i _ h => by rw [hl]; exact h, fun k i _ h => by rw [hl]; exact h, fun h i c hc h4 => ?_, fun h k i hk => ?_⟩
  · show (setUsed b j x s).loc s.cur 5 _ ≠ none
    rw [hl]
    refine h i c hc ?_
    have : (setUsed b j x s).loc s.cur 4 i ≠ none := h4
    rwa [hl] at this
  · show k ≤ 4 ∧ (setUsed b j x s).loc s.cur k i = some s.cur
    rw [hl]
    by_cases e : k = 4 ∧ i = b / 256
    · obtain ⟨e1, e2⟩ := e
      subst e1; subst e2
      exact ⟨by omega, hp⟩
    · have hk2 : (setUsed b j x s).un s.cur k i ≠ {} := hk
      simp only [setUsed, St.setUn] at hk2
      rw [if_neg (fun z => e z.2)] at hk2
      exact h k i hk2

end Silofs.Snap
