import Verif.Spec.Qalloc
set_option linter.unusedSimpArgs false
set_option linter.unusedVariables false
/-
The page pool: its runs tile the region, no two free runs are neighbours, and the list holds exactly the free
ones; taking and giving back runs preserves this.
-/
namespace Silofs.Qalloc

/-- `i` is the first page of a run. -/
def Hd (p : Pool) (i : Nat) : Prop := i < p.max ∧ 0 < (p.pg i).count

structure PInv (p : Pool) : Prop where
  h0 : Hd p 0 ∧ (p.pg 0).prev = none
  fit : ∀ i, Hd p i → i + (p.pg i).count ≤ p.max
  nxt : ∀ i, Hd p i → i + (p.pg i).count < p.max →
    0 < (p.pg (i + (p.pg i).count)).count ∧ (p.pg (i + (p.pg i).count)).prev = some i
  prv : ∀ i, Hd p i → i ≠ 0 → ∃ j, (p.pg i).prev = some j ∧ Hd p j ∧ j + (p.pg j).count = i
  inn : ∀ i, Hd p i → ∀ j, i < j → j < i + (p.pg i).count → (p.pg j).count = 0 ∧ (p.pg j).free = true
  coal : ∀ i, Hd p i → (p.pg i).free = true → i + (p.pg i).count < p.max →
    (p.pg (i + (p.pg i).count)).free = false
  nodup : p.fl.Nodup
  fl : ∀ i, i ∈ p.fl ↔ Hd p i ∧ (p.pg i).free = true

/-- Runs do not overlap. -/
theorem PInv.sep {p : Pool} (h : PInv p) {i j : Nat} (hi : Hd p i) (hj : Hd p j) (hij : i < j) :
    i + (p.pg i).count ≤ j := by
  apply Classical.byContradiction
  intro hc
  have := (h.inn i hi j hij (by omega)).1
  have := hj.2
  omega

/-- Every page is in a run. -/
theorem PInv.cover {p : Pool} (h : PInv p) : ∀ q, q < p.max → ∃ i, Hd p i ∧ i ≤ q ∧ q < i + (p.pg i).count := by
  intro q
  induction q with
  | zero => intro _; exact ⟨0, h.h0.1, Nat.le_refl _, by have := h.h0.1.2; omega⟩
  | succ q ih =>
    intro hq
    obtain ⟨i, hi, h1, h2⟩ := ih (by omega)
    by_cases hc : q + 1 < i + (p.pg i).count
    · exact ⟨i, hi, by omega, hc⟩
    · have he : i + (p.pg i).count = q + 1 := by omega
      have hn := h.nxt i hi (by omega)
      rw [he] at hn
      exact ⟨q + 1, ⟨hq, hn.1⟩, Nat.le_refl _, by omega⟩

theorem nodup_erase {l : List Nat} (h : l.Nodup) (i j : Nat) : j ∈ l.erase i ↔ j ∈ l ∧ j ≠ i := by
  rw [h.mem_erase_iff]; exact And.comm

/-- `fl` after `addFree` -/
def pushFl (l : List Nat) (i n : Nat) : List Nat := if 2 ≤ n then i :: l else l ++ [i]

theorem mem_pushFl {l : List Nat} {i n j : Nat} : j ∈ pushFl l i n ↔ j = i ∨ j ∈ l := by
  unfold pushFl
  split <;> simp [or_comm]

theorem nodup_pushFl {l : List Nat} {i n : Nat} (h : l.Nodup) (hi : i ∉ l) : (pushFl l i n).Nodup := by
  unfold pushFl
  split
  · exact List.nodup_cons.mpr ⟨hi, h⟩
  · rw [List.nodup_append]
    exact ⟨h, by simp, by intro a ha b hb; simp at hb; subst hb; intro e; subst e; exact hi ha⟩

theorem addFree_max (p : Pool) (i : Nat) (pr : Option Nat) (n : Nat) : (p.addFree i pr n).max = p.max := by
  unfold Pool.addFree Pool.update Pool.set
  dsimp only
  split <;> rfl

theorem addFree_fl (p : Pool) (i : Nat) (pr : Option Nat) (n : Nat) : (p.addFree i pr n).fl = pushFl p.fl i n := rfl

theorem addFree_use (p : Pool) (i : Nat) (pr : Option Nat) (n : Nat) : (p.addFree i pr n).use = p.use := by
  unfold Pool.addFree Pool.update Pool.set
  dsimp only
  split <;> rfl

theorem addFree_pg (p : Pool) (i : Nat) (pr : Option Nat) (n j : Nat) (hn : 0 < n) :
    (p.addFree i pr n).pg j =
      if j = i then { p.pg i with prev := pr, count := n, free := true }
      else if j = i + n ∧ i + n < p.max then { p.pg j with prev := some i }
      else p.pg j := by
  unfold Pool.addFree Pool.update Pool.next Pool.set
  dsimp only
  by_cases h : i + n < p.max
  · rw [if_pos h]
    dsimp only
    by_cases h1 : j = i
    · subst h1
      rw [if_neg (by omega), if_pos rfl, if_pos rfl]
    · rw [if_neg h1]
      by_cases h2 : j = i + n
      · subst h2
        have h3 : ¬(n = 0) := by omega
        simp [h3, h]
      · simp [h2, h1]
  · rw [if_neg h]
    dsimp only
    by_cases h1 : j = i
    · subst h1
      rw [if_pos rfl, if_pos rfl]
    · rw [if_neg h1, if_neg h1, if_neg (fun x => h x.2)]

/-- Total length of the free runs. -/
def fsum (p : Pool) : Nat := (p.fl.map (fun i => (p.pg i).count)).sum

theorem sum_erase (f : Nat → Nat) {l : List Nat} {x : Nat} (h : x ∈ l) :
    (l.map f).sum = f x + ((l.erase x).map f).sum := by
  induction l with
  | nil => exact nomatch h
  | cons a r ih =>
    by_cases e : a = x
    · subst e; rw [List.erase_cons_head]; rfl
    · rw [List.erase_cons_tail (by simpa using e)]
      have := ih (by
        rcases List.mem_cons.mp h with h | h
        · exact absurd h.symm e
        · exact h)
      simp only [List.map_cons, List.sum_cons]
      omega

theorem sum_pushFl (f : Nat → Nat) (l : List Nat) (x n : Nat) : ((pushFl l x n).map f).sum = f x + (l.map f).sum := by
  unfold pushFl
  split
  · rfl
  · simp; omega

theorem sum_congr {f g : Nat → Nat} {l : List Nat} (h : ∀ i ∈ l, f i = g i) : (l.map f).sum = (l.map g).sum := by
  rw [List.map_congr_left h]

/-- How `q` arises from `p` when the run `x` becomes a used run of `n` pages and, maybe, a free rest. -/
structure Taken (p q : Pool) (x n : Nat) : Prop where
  max : q.max = p.max
  count : ∀ i, (q.pg i).count =
    if i = x then n else if n < (p.pg x).count ∧ i = x + n then (p.pg x).count - n else (p.pg i).count
  free : ∀ i, (q.pg i).free = if i = x then false else (p.pg i).free
  prev : ∀ i, (q.pg i).prev =
    if n < (p.pg x).count ∧ i = x + n then some x
    else if n < (p.pg x).count ∧ i = x + (p.pg x).count then (if i < p.max then some (x + n) else (p.pg i).prev)
    else (p.pg i).prev
  slab : ∀ i, (q.pg i).sidx = (p.pg i).sidx ∧ (q.pg i).nused = (p.pg i).nused ∧ (q.pg i).nelems = (p.pg i).nelems
  nodup : q.fl.Nodup
  fl : ∀ i, i ∈ q.fl ↔ (i ∈ p.fl ∧ i ≠ x) ∨ (n < (p.pg x).count ∧ i = x + n)
  use : q.use = p.use
  sum : fsum q + n = fsum p

theorem take_taken {p : Pool} (h : PInv p) {x n : Nat} (hx : x ∈ p.fl) (hn : 0 < n) (hc : n ≤ (p.pg x).count) :
    Taken p (p.take x n) x n := by
  have hX := (h.fl x).mp hx
  have hfit := h.fit x hX.1
  unfold Pool.take
  by_cases hlt : n < (p.pg x).count
  · rw [if_pos hlt]
    have hnx : (p.unlink x).next x n = some (x + n) := by
      unfold Pool.next; rw [if_pos]; show x + n < p.max; omega
    have hsp : (p.unlink x).splitOff x n = (p.unlink x).addFree (x + n) (some x) ((p.pg x).count - n) := by
      unfold Pool.splitOff; rw [hnx]; rfl
    rw [hsp]
    have hpg : ∀ j, ((p.unlink x).addFree (x + n) (some x) ((p.pg x).count - n)).pg j =
        if j = x + n then { p.pg (x + n) with prev := some x, count := (p.pg x).count - n, free := true }
        else if j = x + (p.pg x).count ∧ x + (p.pg x).count < p.max then { p.pg j with prev := some (x + n) }
        else p.pg j := by
      intro j
      rw [addFree_pg _ _ _ _ _ (by omega)]
      have e : x + n + ((p.pg x).count - n) = x + (p.pg x).count := by omega
      rw [e]; rfl
    have hin : (p.pg (x + n)).free = true := (h.inn x hX.1 (x + n) (by omega) (by omega)).2
    have hxx : x ≠ x + n := by omega
    have hxc : x ≠ x + (p.pg x).count := by omega
    have hnc : x + n ≠ x + (p.pg x).count := by omega
    have hnot : x + n ∉ p.fl := by
      intro hm
      have := (h.inn x hX.1 (x + n) (by omega) (by omega)).1
      have := ((h.fl _).mp hm).1.2
      omega
    refine ⟨?_, ?_, ?_, ?_, ?_, ?_, ?_, ?_, ?_⟩
    · show ((p.unlink x).addFree _ _ _).max = _
      rw [addFree_max]; rfl
    · intro i
      show (if i = x then _ else _ : Pg).count = _
      by_cases h1 : i = x
      · rw [if_pos h1, if_pos h1]
      · rw [if_neg h1, if_neg h1, hpg]
        by_cases h2 : i = x + n
        · rw [if_pos h2, if_pos ⟨hlt, h2⟩]
        · rw [if_neg h2, if_neg (c := n < (p.pg x).count ∧ i = x + n) (fun y => h2 y.2)]
          split <;> rfl
    · intro i
      show (if i = x then _ else _ : Pg).free = _
      by_cases h1 : i = x
      · rw [if_pos h1, if_pos h1]
      · rw [if_neg h1, if_neg h1, hpg]
        by_cases h2 : i = x + n
        · rw [if_pos h2, h2, hin]
        · rw [if_neg h2]
          split <;> rfl
    · intro i
      show (if i = x then _ else _ : Pg).prev = _
      by_cases h1 : i = x
      · subst h1
        rw [if_pos rfl]
        show (Pool.pg _ i).prev = _
        rw [hpg, if_neg hxx, if_neg (fun y => hxc y.1), if_neg (fun y => hxx y.2), if_neg (fun y => hxc y.2)]
      · rw [if_neg h1, hpg]
        by_cases h2 : i = x + n
        · rw [if_pos h2, if_pos ⟨hlt, h2⟩]
        · rw [if_neg h2, if_neg (c := n < (p.pg x).count ∧ i = x + n) (fun y => h2 y.2)]
          by_cases h3 : i = x + (p.pg x).count
          · rw [if_pos (c := n < (p.pg x).count ∧ i = x + (p.pg x).count) ⟨hlt, h3⟩]
            by_cases h4 : i < p.max
            · rw [if_pos ⟨h3, by omega⟩, if_pos h4]
            · rw [if_neg (fun y => h4 (by omega)), if_neg h4]
          · rw [if_neg (fun y => h3 y.1), if_neg (fun y => h3 y.2)]
    · intro i
      have : ∀ P : Pg → Prop, P (p.pg i) → (∀ a b c (d : Pg), P d → P { d with prev := a, count := b, free := c }) →
          P ((((p.unlink x).addFree (x + n) (some x) ((p.pg x).count - n)).set x
            { ((p.unlink x).addFree (x + n) (some x) ((p.pg x).count - n)).pg x with count := n, free := false }).pg i) := by
        intro P h1 h2
        show P (if i = x then _ else _)
        by_cases e : i = x
        · subst e
          rw [if_pos rfl, hpg, if_neg hxx, if_neg (fun y => hxc y.1)]
          exact h2 _ _ _ _ h1
        · rw [if_neg e, hpg]
          by_cases e2 : i = x + n
          · subst e2
            rw [if_pos rfl]; exact h2 _ _ _ _ h1
          · rw [if_neg e2]
            split
            · exact h2 _ _ _ _ h1
            · exact h1
      exact this (fun g => g.sidx = (p.pg i).sidx ∧ g.nused = (p.pg i).nused ∧ g.nelems = (p.pg i).nelems)
        ⟨rfl, rfl, rfl⟩ (fun _ _ _ d hd => hd)
    · show (pushFl (p.fl.erase x) (x + n) _).Nodup
      exact nodup_pushFl (h.nodup.erase x) (fun hm => hnot (List.mem_of_mem_erase hm))
    · intro i
      show i ∈ pushFl (p.fl.erase x) (x + n) _ ↔ _
      rw [mem_pushFl, nodup_erase h.nodup]
      constructor
      · rintro (e | e)
        · exact .inr ⟨hlt, e⟩
        · exact .inl e
      · rintro (e | e)
        · exact .inr e
        · exact .inl e.2
    · show ((p.unlink x).addFree _ _ _).use = _
      rw [addFree_use]; rfl
    · show ((pushFl (p.fl.erase x) (x + n) _).map _).sum + n = _
      rw [sum_pushFl]
      show (if x + n = x then _ else _ : Pg).count + _ + n = _
      rw [if_neg (by omega), hpg, if_pos rfl]
      unfold fsum
      rw [sum_erase _ hx]
      have : ∀ i ∈ p.fl.erase x, ((((p.unlink x).addFree (x + n) (some x) ((p.pg x).count - n)).set x
            { ((p.unlink x).addFree (x + n) (some x) ((p.pg x).count - n)).pg x with count := n, free := false }).pg
            i).count = (p.pg i).count := by
        intro i hi
        have hi2 := (nodup_erase h.nodup x i).mp hi
        show (if i = x then _ else _ : Pg).count = _
        rw [if_neg hi2.2, hpg, if_neg (fun e : i = x + n => hnot (e ▸ hi2.1))]
        split <;> rfl
      rw [sum_congr this]
      show (p.pg x).count - n + _ + n = _
      omega
  · rw [if_neg hlt]
    have hcn : (p.pg x).count = n := by omega
    constructor
    · rfl
    · intro i
      show (if i = x then _ else _ : Pg).count = _
      by_cases h1 : i = x
      · rw [if_pos h1, if_pos h1]; exact hcn
      · rw [if_neg h1, if_neg h1, if_neg (fun y => hlt y.1)]; rfl
    · intro i
      show (if i = x then _ else _ : Pg).free = _
      by_cases h1 : i = x
      · rw [if_pos h1, if_pos h1]
      · rw [if_neg h1, if_neg h1]; rfl
    · intro i
      show (if i = x then _ else _ : Pg).prev = _
      simp only [hlt, false_and, if_false]
      by_cases h1 : i = x
      · rw [if_pos h1, h1]
      · rw [if_neg h1]; rfl
    · intro i
      by_cases h1 : i = x
      · subst h1
        refine ⟨?_, ?_, ?_⟩
        · show (if i = i then _ else _ : Pg).sidx = _
          rw [if_pos rfl]
        · show (if i = i then _ else _ : Pg).nused = _
          rw [if_pos rfl]
        · show (if i = i then _ else _ : Pg).nelems = _
          rw [if_pos rfl]
      · have : ((p.unlink x).set x { p.pg x with free := false }).pg i = p.pg i := by
          show (if i = x then _ else _ : Pg) = _
          rw [if_neg h1]; rfl
        rw [this]; exact ⟨rfl, rfl, rfl⟩
    · exact h.nodup.erase x
    · intro i
      show i ∈ p.fl.erase x ↔ _
      rw [nodup_erase h.nodup]
      constructor
      · exact .inl
      · rintro (e | e)
        · exact e
        · exact absurd e.1 hlt
    · rfl
    · show ((p.fl.erase x).map _).sum + n = _
      unfold fsum
      rw [sum_erase _ hx]
      have : ∀ i ∈ p.fl.erase x, (((p.unlink x).set x { p.pg x with free := false }).pg i).count = (p.pg i).count := by
        intro i hi
        have hi2 := (nodup_erase h.nodup x i).mp hi
        show (if i = x then _ else _ : Pg).count = _
        rw [if_neg hi2.2]; rfl
      rw [sum_congr this]
      omega

theorem taken_inv {p q : Pool} (h : PInv p) {x n : Nat} (hx : x ∈ p.fl) (hn : 0 < n) (hc : n ≤ (p.pg x).count)
    (t : Taken p q x n) : PInv q := by
  have hX := (h.fl x).mp hx
  have hfit := h.fit x hX.1
  have hxm := hX.1.1
  -- first pages of `q`
  have hd : ∀ i, Hd q i ↔ Hd p i ∨ (n < (p.pg x).count ∧ i = x + n) := by
    intro i
    unfold Hd
    rw [t.max, t.count]
    by_cases h1 : i = x
    · subst h1; rw [if_pos rfl]
      have := hX.1
      unfold Hd at this
      constructor
      · intro y; exact .inl this
      · intro _; exact ⟨this.1, hn⟩
    · rw [if_neg h1]
      by_cases h2 : n < (p.pg x).count ∧ i = x + n
      · rw [if_pos h2]
        constructor
        · intro _; exact .inr h2
        · intro _; exact ⟨by omega, by omega⟩
      · rw [if_neg h2]
        constructor
        · exact .inl
        · rintro (e | e)
          · exact e
          · exact absurd e h2
  -- the others are far from `x`
  have far : ∀ i, Hd p i → i ≠ x → i + (p.pg i).count ≤ x ∨ x + (p.pg x).count ≤ i := by
    intro i hi hne
    rcases Nat.lt_or_gt_of_ne hne with h1 | h1
    · exact .inl (h.sep hi hX.1 h1)
    · exact .inr (h.sep hX.1 hi h1)
  have cother : ∀ i, Hd p i → i ≠ x → (q.pg i).count = (p.pg i).count := by
    intro i hi hne
    rw [t.count, if_neg hne, if_neg]
    rintro ⟨h1, h2⟩
    have := hi.2
    rcases far i hi hne with h3 | h3 <;> omega
  have cx : (q.pg x).count = n := by rw [t.count, if_pos rfl]
  have cr : n < (p.pg x).count → (q.pg (x + n)).count = (p.pg x).count - n := by
    intro hlt; rw [t.count, if_neg (by omega), if_pos ⟨hlt, rfl⟩]
  have fr : n < (p.pg x).count → (q.pg (x + n)).free = true := by
    intro hlt; rw [t.free, if_neg (by omega)]
    exact (h.inn x hX.1 (x + n) (by omega) (by omega)).2
  -- what follows `x`
  have after : x + (p.pg x).count < p.max → (p.pg (x + (p.pg x).count)).free = false ∧
      Hd p (x + (p.pg x).count) := by
    intro hm
    exact ⟨h.coal x hX.1 hX.2 hm, hm, (h.nxt x hX.1 hm).1⟩
  constructor
  · refine ⟨(hd 0).mpr (.inl h.h0.1), ?_⟩
    rw [t.prev, if_neg (fun y => by omega), if_neg (fun y => by omega)]
    exact h.h0.2
  · intro i hi
    rw [t.max]
    by_cases h1 : i = x
    · subst h1; rw [cx]; omega
    · rcases (hd i).mp hi with h2 | h2
      · rw [cother i h2 h1]; exact h.fit i h2
      · rw [h2.2, cr h2.1]; omega
  · intro i hi hm
    rw [t.max] at hm
    by_cases h1 : i = x
    · subst h1
      rw [cx] at hm ⊢
      by_cases hlt : n < (p.pg i).count
      · refine ⟨by rw [cr hlt]; omega, ?_⟩
        rw [t.prev, if_pos ⟨hlt, rfl⟩]
      · have e : n = (p.pg i).count := by omega
        have := h.nxt i hX.1 (by omega)
        rw [e]
        refine ⟨?_, ?_⟩
        · rw [cother _ ⟨by omega, this.1⟩ (by omega)]; exact this.1
        · rw [t.prev, if_neg (fun y => hlt y.1), if_neg (fun y => hlt y.1)]; exact this.2
    · rcases (hd i).mp hi with h2 | h2
      · rw [cother i h2 h1] at hm ⊢
        have := h.nxt i h2 hm
        have hpos := h2.2
        refine ⟨?_, ?_⟩
        · by_cases h3 : i + (p.pg i).count = x
          · rw [h3, cx]; exact hn
          · rw [cother _ ⟨hm, this.1⟩ h3]; exact this.1
        · have hfar := far i h2 h1
          rw [t.prev, if_neg (fun y => by omega), if_neg (fun y => by omega)]
          exact this.2
      · obtain ⟨hlt, rfl⟩ := h2
        rw [cr hlt] at hm ⊢
        have e : x + n + ((p.pg x).count - n) = x + (p.pg x).count := by omega
        rw [e] at hm ⊢
        have ha := after hm
        refine ⟨?_, ?_⟩
        · rw [cother _ ha.2 (by omega)]; exact ha.2.2
        · rw [t.prev, if_neg (by omega), if_pos ⟨hlt, rfl⟩, if_pos hm]
  · intro i hi hne
    by_cases h1 : i = x
    · subst h1
      obtain ⟨j, e1, e2, e3⟩ := h.prv i hX.1 hne
      have hji : j ≠ i := by have := e2.2; omega
      refine ⟨j, ?_, (hd j).mpr (.inl e2), ?_⟩
      · rw [t.prev, if_neg (fun y => by omega), if_neg (fun y => by omega)]; exact e1
      · rw [cother j e2 hji]; exact e3
    · rcases (hd i).mp hi with h2 | h2
      · obtain ⟨j, e1, e2, e3⟩ := h.prv i h2 hne
        have hfar := far i h2 h1
        have hp2 := h2.2
        by_cases hj : j = x
        · subst hj
          by_cases hlt : n < (p.pg j).count
          · refine ⟨j + n, ?_, (hd _).mpr (.inr ⟨hlt, rfl⟩), ?_⟩
            · rw [t.prev, if_neg (fun y => by omega), if_pos ⟨hlt, e3.symm⟩, if_pos h2.1]
            · rw [cr hlt]; omega
          · refine ⟨j, ?_, (hd _).mpr (.inl e2), ?_⟩
            · rw [t.prev, if_neg (fun y => hlt y.1), if_neg (fun y => hlt y.1)]; exact e1
            · rw [cx]; omega
        · refine ⟨j, ?_, (hd _).mpr (.inl e2), ?_⟩
          · rw [t.prev, if_neg (fun y => by omega), if_neg]; exact e1
            rintro ⟨h5, h6⟩
            have hb := (h.nxt x hX.1 (by have := h2.1; omega)).2
            rw [← h6, e1] at hb
            exact hj (Option.some.inj hb)
          · rw [cother j e2 hj]; exact e3
      · obtain ⟨hlt, rfl⟩ := h2
        exact ⟨x, by rw [t.prev, if_pos ⟨hlt, rfl⟩], (hd x).mpr (.inl hX.1), by rw [cx]⟩
  · intro i hi j hij hj
    by_cases h1 : i = x
    · subst h1
      rw [cx] at hj
      have := h.inn i hX.1 j hij (by omega)
      rw [t.count, if_neg (by omega), if_neg (fun y => by omega), t.free, if_neg (by omega)]
      exact this
    · rcases (hd i).mp hi with h2 | h2
      · rw [cother i h2 h1] at hj
        have := h.inn i h2 j hij hj
        have hfar := far i h2 h1
        rw [t.count, if_neg (by omega), if_neg (fun y => by omega), t.free, if_neg (by omega)]
        exact this
      · obtain ⟨hlt, rfl⟩ := h2
        rw [cr hlt] at hj
        have := h.inn x hX.1 j (by omega) (by omega)
        rw [t.count, if_neg (by omega), if_neg (fun y => by omega), t.free, if_neg (by omega)]
        exact this
  · intro i hi hf hm
    rw [t.max] at hm
    by_cases h1 : i = x
    · subst h1
      rw [t.free, if_pos rfl] at hf
      exact nomatch hf
    · rcases (hd i).mp hi with h2 | h2
      · rw [cother i h2 h1] at hm ⊢
        rw [t.free, if_neg h1] at hf
        rw [t.free]
        split
        · rfl
        · exact h.coal i h2 hf hm
      · obtain ⟨hlt, rfl⟩ := h2
        rw [cr hlt] at hm ⊢
        have e : x + n + ((p.pg x).count - n) = x + (p.pg x).count := by omega
        rw [e] at hm ⊢
        rw [t.free, if_neg (by omega)]
        exact (after hm).1
  · exact t.nodup
  · intro i
    rw [t.fl, hd, h.fl, t.free]
    by_cases h1 : i = x
    · subst h1
      rw [if_pos rfl]
      constructor
      · rintro (e | e)
        · exact absurd rfl e.2
        · omega
      · rintro ⟨_, e⟩; exact nomatch e
    · rw [if_neg h1]
      constructor
      · rintro (e | e)
        · exact ⟨.inl e.1.1, e.1.2⟩
        · refine ⟨.inr e, ?_⟩
          rw [e.2]
          exact (h.inn x hX.1 (x + n) (by omega) (by omega)).2
      · rintro ⟨e | e, hf⟩
        · exact .inl ⟨⟨e, hf⟩, h1⟩
        · exact .inr e

/-- How `q` arises from `p` when the used run `x` of `n` pages is given back: it is now within the free run of
`t` pages from `s`. -/
structure Freed (p q : Pool) (x n s t : Nat) : Prop where
  max : q.max = p.max
  inside : s ≤ x ∧ x + n ≤ s + t
  first : Hd p s
  last : s + t = p.max ∨ (Hd p (s + t) ∧ (p.pg (s + t)).free = false)
  before : ∀ i, Hd p i → i + (p.pg i).count = s → (p.pg i).free = false
  within : ∀ i, Hd p i → s ≤ i → i < s + t → i ≠ x → (p.pg i).free = true
  count : ∀ i, (q.pg i).count = if i = s then t else if s < i ∧ i < s + t then 0 else (p.pg i).count
  free : ∀ i, (q.pg i).free = if s ≤ i ∧ i < s + t then true else (p.pg i).free
  prev : ∀ i, i ≤ s ∨ s + t < i → (q.pg i).prev = (p.pg i).prev
  prevEnd : s + t < p.max → (q.pg (s + t)).prev = some s
  slab : ∀ i, (q.pg i).sidx = (p.pg i).sidx ∧ (q.pg i).nused = (p.pg i).nused ∧ (q.pg i).nelems = (p.pg i).nelems
  nodup : q.fl.Nodup
  fl : ∀ i, i ∈ q.fl ↔ i = s ∨ (i ∈ p.fl ∧ ¬(s ≤ i ∧ i < s + t))
  use : q.use = p.use
  sum : fsum q = fsum p + n

theorem freed_inv {p q : Pool} (h : PInv p) {x n s t : Nat} (hn : 0 < n) (r : Freed p q x n s t) : PInv q := by
  have hin := r.inside
  have hsm := r.first.1
  have hlast : s + t ≤ p.max := by
    rcases r.last with e | e
    · omega
    · have := e.1.1; omega
  -- runs which are not inside lie outside
  have out : ∀ i, Hd p i → ¬(s ≤ i ∧ i < s + t) → i + (p.pg i).count ≤ s ∨ s + t ≤ i := by
    intro i hi hne
    by_cases h1 : i < s
    · exact .inl (h.sep hi r.first h1)
    · exact .inr (by omega)
  have hd : ∀ i, Hd q i ↔ i = s ∨ (Hd p i ∧ ¬(s ≤ i ∧ i < s + t)) := by
    intro i
    unfold Hd
    rw [r.max, r.count]
    by_cases h1 : i = s
    · subst h1; rw [if_pos rfl]
      exact ⟨fun _ => .inl rfl, fun _ => ⟨hsm, by omega⟩⟩
    · rw [if_neg h1]
      by_cases h2 : s < i ∧ i < s + t
      · rw [if_pos h2]
        constructor
        · intro y; omega
        · rintro (e | e)
          · exact absurd e h1
          · exact absurd ⟨by omega, h2.2⟩ e.2
      · rw [if_neg h2]
        constructor
        · intro y; exact .inr ⟨y, by omega⟩
        · rintro (e | e)
          · exact absurd e h1
          · exact e.1
  have cs : (q.pg s).count = t := by rw [r.count, if_pos rfl]
  have co : ∀ i, ¬(s ≤ i ∧ i < s + t) → (q.pg i).count = (p.pg i).count := by
    intro i hne
    by_cases h1 : i = s
    · subst h1; omega
    · rw [r.count, if_neg h1, if_neg (by omega)]
  have fo : ∀ i, ¬(s ≤ i ∧ i < s + t) → (q.pg i).free = (p.pg i).free := by
    intro i hne; rw [r.free, if_neg hne]
  have hps : ∀ i, Hd p i → i < s → i + (p.pg i).count ≤ s := fun i hi hlt => h.sep hi r.first hlt
  constructor
  · by_cases h1 : s = 0
    · refine ⟨(hd 0).mpr (.inl h1.symm), ?_⟩
      rw [r.prev 0 (by omega)]; exact h.h0.2
    · refine ⟨(hd 0).mpr (.inr ⟨h.h0.1, by omega⟩), ?_⟩
      rw [r.prev 0 (by omega)]; exact h.h0.2
  · intro i hi
    rw [r.max]
    rcases (hd i).mp hi with e | e
    · subst e; rw [cs]; exact hlast
    · rw [co i e.2]; exact h.fit i e.1
  · intro i hi hm
    rw [r.max] at hm
    rcases (hd i).mp hi with e | e
    · subst e
      rw [cs] at hm ⊢
      rcases r.last with e | e
      · omega
      · rw [co _ (by omega)]
        exact ⟨e.1.2, r.prevEnd hm⟩
    · have hi2 := e.1.2
      rw [co i e.2] at hm ⊢
      have hn2 := h.nxt i e.1 hm
      rcases out i e.1 e.2 with h1 | h1
      · by_cases h2 : i + (p.pg i).count = s
        · rw [h2, cs]
          rw [h2] at hn2
          exact ⟨by omega, by rw [r.prev s (by omega)]; exact hn2.2⟩
        · rw [co _ (by omega), r.prev _ (by omega)]; exact hn2
      · rw [co _ (by omega), r.prev _ (by omega)]; exact hn2
  · intro i hi hne
    rcases (hd i).mp hi with e | e
    · subst e
      obtain ⟨j, e1, e2, e3⟩ := h.prv i r.first hne
      have := e2.2
      refine ⟨j, by rw [r.prev i (by omega)]; exact e1, (hd j).mpr (.inr ⟨e2, by omega⟩), ?_⟩
      rw [co j (by omega)]; exact e3
    · obtain ⟨j, e1, e2, e3⟩ := h.prv i e.1 hne
      have hj := e2.2
      rcases out i e.1 e.2 with h1 | h1
      · have := e.1.2
        refine ⟨j, by rw [r.prev i (by omega)]; exact e1, (hd j).mpr (.inr ⟨e2, by omega⟩), ?_⟩
        rw [co j (by omega)]; exact e3
      · by_cases h2 : i = s + t
        · subst h2
          exact ⟨s, r.prevEnd e.1.1, (hd s).mpr (.inl rfl), by rw [cs]⟩
        · have hjo : ¬(s ≤ j ∧ j < s + t) := by
            intro hc
            rcases r.last with e4 | e4
            · have := e.1.1; omega
            · have := h.sep e2 e4.1 hc.2; omega
          refine ⟨j, by rw [r.prev i (by omega)]; exact e1, (hd j).mpr (.inr ⟨e2, hjo⟩), ?_⟩
          rw [co j hjo]; exact e3
  · intro i hi j hij hj
    rcases (hd i).mp hi with e | e
    · subst e
      rw [cs] at hj
      rw [r.count, if_neg (by omega), if_pos ⟨hij, hj⟩, r.free, if_pos ⟨by omega, hj⟩]
      exact ⟨rfl, rfl⟩
    · rw [co i e.2] at hj
      have := h.inn i e.1 j hij hj
      have ho := out i e.1 e.2
      rw [co j (by omega), fo j (by omega)]; exact this
  · intro i hi hf hm
    rw [r.max] at hm
    rcases (hd i).mp hi with e | e
    · subst e
      rw [cs] at hm ⊢
      rcases r.last with e | e
      · omega
      · rw [fo _ (by omega)]; exact e.2
    · rw [co i e.2] at hm ⊢
      rw [fo i e.2] at hf
      have hi2 := e.1.2
      have hc := h.coal i e.1 hf hm
      rcases out i e.1 e.2 with h1 | h1
      · by_cases h2 : i + (p.pg i).count = s
        · rw [r.before i e.1 h2] at hf; exact nomatch hf
        · rw [fo _ (by omega)]; exact hc
      · rw [fo _ (by omega)]; exact hc
  · exact r.nodup
  · intro i
    rw [r.fl, hd]
    constructor
    · rintro (e | e)
      · subst e
        exact ⟨.inl rfl, by rw [r.free, if_pos ⟨Nat.le_refl _, by omega⟩]⟩
      · have := (h.fl i).mp e.1
        exact ⟨.inr ⟨this.1, e.2⟩, by rw [fo i e.2]; exact this.2⟩
    · rintro ⟨e | e, hf⟩
      · exact .inl e
      · rw [fo i e.2] at hf
        exact .inr ⟨(h.fl i).mpr ⟨e.1, hf⟩, e.2⟩

/-- After the merge with the successor. -/
structure MN (p q : Pool) (x n m : Nat) : Prop where
  max : q.max = p.max
  ge : n ≤ m
  last : x + m = p.max ∨ (Hd p (x + m) ∧ (p.pg (x + m)).free = false)
  within : ∀ i, Hd p i → x < i → i < x + m → (p.pg i).free = true
  count : ∀ i, (q.pg i).count = if x < i ∧ i < x + m then 0 else (p.pg i).count
  free : ∀ i, (q.pg i).free = if x < i ∧ i < x + m then true else (p.pg i).free
  prev : ∀ i, i ≤ x ∨ x + m ≤ i → (q.pg i).prev = (p.pg i).prev
  slab : ∀ i, (q.pg i).sidx = (p.pg i).sidx ∧ (q.pg i).nused = (p.pg i).nused ∧ (q.pg i).nelems = (p.pg i).nelems
  nodup : q.fl.Nodup
  fl : ∀ i, i ∈ q.fl ↔ i ∈ p.fl ∧ ¬(x < i ∧ i < x + m)
  use : q.use = p.use
  sum : (q.fl.map (fun i => (p.pg i).count)).sum + m = fsum p + n

theorem mn_refl {p : Pool} (h : PInv p) {x n : Nat} (hx : Hd p x) (hn : (p.pg x).count = n)
    (hl : x + n = p.max ∨ (Hd p (x + n) ∧ (p.pg (x + n)).free = false)) : MN p p x n n := by
  have hne : ∀ i, Hd p i → ¬(x < i ∧ i < x + n) := by
    intro i hi hc
    have := (h.inn x hx i hc.1 (by omega)).1
    have := hi.2
    omega
  refine ⟨rfl, Nat.le_refl _, hl, fun i hi h1 h2 => absurd ⟨h1, h2⟩ (hne i hi), ?_, ?_, fun _ _ => rfl,
    fun _ => ⟨rfl, rfl, rfl⟩, h.nodup, ?_, rfl, rfl⟩
  · intro i
    split
    · next hc => exact (h.inn x hx i hc.1 (by omega)).1
    · rfl
  · intro i
    split
    · next hc => exact (h.inn x hx i hc.1 (by omega)).2
    · rfl
  · intro i
    exact ⟨fun e => ⟨e, hne i ((h.fl i).mp e).1⟩, fun e => e.1⟩

theorem mergeNext_spec {p : Pool} (h : PInv p) {x n : Nat} (hx : Hd p x) (hn : (p.pg x).count = n) :
    MN p (p.mergeNext x n).1 x n (p.mergeNext x n).2 := by
  have hn0 := hx.2
  have hfit := h.fit x hx
  unfold Pool.mergeNext Pool.next
  by_cases h1 : x + n < p.max
  · rw [if_pos h1]
    dsimp only
    have hnx := h.nxt x hx (by omega)
    rw [hn] at hnx
    have hj : Hd p (x + n) := ⟨h1, hnx.1⟩
    by_cases h2 : (p.pg (x + n)).free = true
    · rw [if_pos h2]
      have hjf := h.fit _ hj
      have hjl : x + n ∈ p.fl := (h.fl _).mpr ⟨hj, h2⟩
      have hin : ∀ i, Hd p i → x < i → i < x + (n + (p.pg (x + n)).count) → i = x + n := by
        intro i hi a b
        apply Classical.byContradiction
        intro hc
        by_cases hlt : i < x + n
        · have := (h.inn x hx i a (by omega)).1
          have := hi.2; omega
        · have := (h.inn _ hj i (by omega) (by omega)).1
          have := hi.2; omega
      have hpg : ∀ i, ((p.unlink (x + n)).mute (x + n)).pg i =
          if i = x + n then { p.pg (x + n) with prev := none, count := 0, free := true } else p.pg i := fun i => rfl
      dsimp only
      refine ⟨rfl, by omega, ?_, ?_, ?_, ?_, ?_, ?_, h.nodup.erase _, ?_, rfl, ?_⟩
      · by_cases e : x + (n + (p.pg (x + n)).count) = p.max
        · exact .inl e
        · have hlt : x + n + (p.pg (x + n)).count < p.max := by omega
          have a := h.nxt _ hj hlt
          have b := h.coal _ hj h2 hlt
          have e2 : x + (n + (p.pg (x + n)).count) = x + n + (p.pg (x + n)).count := by omega
          rw [e2]
          exact .inr ⟨⟨hlt, a.1⟩, b⟩
      · intro i hi a b
        rw [hin i hi a b]; exact h2
      · intro i
        rw [hpg]
        by_cases e : i = x + n
        · rw [if_pos e, if_pos (by omega)]
        · rw [if_neg e]
          split
          · next hc =>
            by_cases hlt : i < x + n
            · exact (h.inn x hx i hc.1 (by omega)).1
            · exact (h.inn _ hj i (by omega) (by omega)).1
          · rfl
      · intro i
        rw [hpg]
        by_cases e : i = x + n
        · rw [if_pos e, if_pos (by omega)]
        · rw [if_neg e]
          split
          · next hc =>
            by_cases hlt : i < x + n
            · exact (h.inn x hx i hc.1 (by omega)).2
            · exact (h.inn _ hj i (by omega) (by omega)).2
          · rfl
      · intro i hi
        have := hj.2
        rw [hpg, if_neg (by omega)]
      · intro i
        rw [hpg]
        split
        · next e => rw [e]; exact ⟨rfl, rfl, rfl⟩
        · exact ⟨rfl, rfl, rfl⟩
      · intro i
        show i ∈ p.fl.erase (x + n) ↔ _
        rw [nodup_erase h.nodup]
        constructor
        · rintro ⟨a, b⟩
          exact ⟨a, fun hc => b (hin i ((h.fl i).mp a).1 hc.1 hc.2)⟩
        · rintro ⟨a, b⟩
          have := hj.2
          exact ⟨a, fun e => b (by omega)⟩
      · show ((p.fl.erase (x + n)).map _).sum + _ = _
        unfold fsum
        rw [sum_erase (fun i => (p.pg i).count) hjl]
        omega
    · rw [if_neg h2]
      exact mn_refl h hx hn (.inr ⟨hj, by simpa using h2⟩)
  · rw [if_neg h1]
    exact mn_refl h hx hn (.inl (by omega))

theorem release_freed {p : Pool} (h : PInv p) {x n : Nat} (hx : Hd p x) (hn : (p.pg x).count = n)
    (hf : (p.pg x).free = false) :
    Freed p (p.release x n).1 x n (p.release x n).2.1 (p.release x n).2.2 := by
  have hn0 := hx.2
  have hm := mergeNext_spec h hx hn
  unfold Pool.release
  dsimp only
  generalize p.mergeNext x n = r at hm
  obtain ⟨q, m⟩ := r
  dsimp only at hm ⊢
  have hge := hm.ge
  have hxmax := hx.1
  have hend : x + m ≤ p.max := by
    rcases hm.last with e | e
    · omega
    · have := e.1.1; omega
  have hxl : x ∉ p.fl := fun hc => by
    have := ((h.fl x).mp hc).2; rw [hf] at this; exact nomatch this
  -- runs before `x` are untouched
  have hpre : ∀ i, i ≤ x → q.pg i = p.pg i := by
    intro i hi
    have a := hm.count i
    have b := hm.free i
    have c := hm.prev i (by omega)
    have d := hm.slab i
    rw [if_neg (by omega)] at a b
    cases hq : q.pg i; cases hp : p.pg i
    rw [hq, hp] at a b c d
    simp_all
  unfold Pool.mergePrev
  rw [hpre x (Nat.le_refl _)]
  by_cases hx0 : x = 0
  · subst hx0
    rw [h.h0.2]
    dsimp only
    have hpg := fun j => addFree_pg q 0 none m j (by omega)
    refine ⟨by rw [addFree_max]; exact hm.max, ⟨Nat.le_refl _, by omega⟩, hx, hm.last, ?_, ?_, ?_, ?_, ?_, ?_, ?_, ?_, ?_, ?_, ?_⟩
    · intro i hi e; have := hi.2; omega
    · intro i hi a b c; exact hm.within i hi (by omega) b
    · intro i
      rw [hpg]
      by_cases e : i = 0
      · rw [if_pos e, if_pos e]
      · rw [if_neg e, if_neg e, ← hm.count i]
        split <;> rfl
    · intro i
      rw [hpg]
      by_cases e : i = 0
      · rw [if_pos e, if_pos (by omega)]
      · rw [if_neg e]
        have k : (q.pg i).free = if 0 ≤ i ∧ i < 0 + m then true else (p.pg i).free := by
          rw [hm.free]
          by_cases hc : 0 < i ∧ i < 0 + m
          · rw [if_pos hc, if_pos (by omega)]
          · rw [if_neg hc, if_neg (by omega)]
        rw [← k]
        split <;> rfl
    · intro i hi
      rw [hpg]
      by_cases e : i = 0
      · rw [if_pos e, e]; exact h.h0.2.symm
      · rw [if_neg e, if_neg (by omega)]; exact hm.prev i (by omega)
    · intro hlt
      rw [hpg, if_neg (by omega), if_pos ⟨rfl, by rw [hm.max]; exact hlt⟩]
    · intro i
      rw [hpg]
      split
      · next e => rw [e]; exact hm.slab 0
      · split
        · exact hm.slab i
        · exact hm.slab i
    · rw [addFree_fl]
      exact nodup_pushFl hm.nodup (fun hc => hxl ((hm.fl 0).mp hc).1)
    · intro i
      rw [addFree_fl, mem_pushFl, hm.fl]
      constructor
      · rintro (e | e)
        · exact .inl e
        · by_cases e0 : i = 0
          · exact .inl e0
          · exact .inr ⟨e.1, fun hc => e.2 (by omega)⟩
      · rintro (e | e)
        · exact .inl e
        · exact .inr ⟨e.1, fun hc => e.2 (by omega)⟩
    · rw [addFree_use]; exact hm.use
    · unfold fsum
      rw [addFree_fl, sum_pushFl]
      have : ∀ i ∈ q.fl, ((q.addFree 0 none m).pg i).count = (p.pg i).count := by
        intro i hi
        have := (hm.fl i).mp hi
        rw [hpg, if_neg (fun e : i = 0 => hxl (e ▸ this.1))]
        have c := hm.count i
        rw [if_neg this.2] at c
        rw [← c]
        split <;> rfl
      rw [sum_congr this, hpg, if_pos rfl]
      have := hm.sum
      unfold fsum at this
      dsimp only
      omega
  · obtain ⟨w, e1, e2, e3⟩ := h.prv x hx hx0
    rw [e1]
    dsimp only
    have hw0 := e2.2
    rw [hpre w (by omega)]
    by_cases hwf : (p.pg w).free = true
    · rw [if_pos hwf]
      dsimp only
      have hwl : w ∈ p.fl := (h.fl w).mpr ⟨e2, hwf⟩
      have hqp : ∀ i, (((q.mute x).unlink w).mute w).pg i =
          if i = w then { q.pg w with prev := none, count := 0, free := true }
          else if i = x then { q.pg x with prev := none, count := 0, free := true } else q.pg i := by
        intro i
        have hxw : w ≠ x := by omega
        unfold Pool.mute Pool.unlink Pool.set
        dsimp only
        rw [if_neg hxw]
      have hpg := fun j => addFree_pg (((q.mute x).unlink w).mute w) w (p.pg w).prev (m + (p.pg w).count) j (by omega)
      have hinw : ∀ i, w < i → i < x → (p.pg i).count = 0 ∧ (p.pg i).free = true :=
        fun i a b => h.inn w e2 i a (by omega)
      have hwq : w ∈ q.fl := (hm.fl w).mpr ⟨hwl, by omega⟩
      have hfl : ∀ i, i ∈ q.fl.erase w ↔ i ∈ p.fl ∧ ¬(w ≤ i ∧ i < w + (m + (p.pg w).count)) := by
        intro i
        rw [nodup_erase hm.nodup, hm.fl]
        constructor
        · rintro ⟨⟨a, b⟩, c⟩
          refine ⟨a, fun hc => ?_⟩
          have hh := ((h.fl i).mp a).1
          by_cases hlt : i < x
          · have := (hinw i (by omega) hlt).1; have := hh.2; omega
          · by_cases hxi : i = x
            · exact hxl (hxi ▸ a)
            · exact b (by omega)
        · rintro ⟨a, b⟩
          exact ⟨⟨a, fun hc => b (by omega)⟩, fun e => b (by omega)⟩
      have hse : w + (m + (p.pg w).count) = x + m := by omega
      rw [hse] at hpg
      refine ⟨by rw [addFree_max]; exact hm.max, ⟨by omega, by omega⟩, e2, by rw [hse]; exact hm.last, ?_, ?_, ?_, ?_, ?_, ?_, ?_, ?_, ?_, ?_, ?_⟩
      · intro i hi e
        have := e2.1
        have hc := h.coal i hi
        rw [e] at hc
        cases hif : (p.pg i).free with
        | false => rfl
        | true => rw [hc hif e2.1] at hwf; exact nomatch hwf
      · intro i hi a b c
        by_cases ew : i = w
        · rw [ew]; exact hwf
        · by_cases hlt : i < x
          · exact (hinw i (by omega) hlt).2
          · exact hm.within i hi (by omega) (by omega)
      · intro i
        rw [hpg]
        by_cases e : i = w
        · rw [if_pos e, if_pos e]
        · rw [if_neg e, if_neg e]
          have key : ((((q.mute x).unlink w).mute w).pg i).count =
              if w < i ∧ i < w + (m + (p.pg w).count) then 0 else (p.pg i).count := by
            rw [hqp, if_neg e]
            by_cases ex : i = x
            · rw [if_pos ex, if_pos (by omega)]
            · rw [if_neg ex, hm.count]
              by_cases hc : x < i ∧ i < x + m
              · rw [if_pos hc, if_pos (by omega)]
              · rw [if_neg hc]
                split
                · exact (hinw i (by omega) (by omega)).1
                · rfl
          rw [← key]
          split <;> rfl
      · intro i
        rw [hpg]
        by_cases e : i = w
        · rw [if_pos e, if_pos (by omega)]
        · rw [if_neg e]
          have key : ((((q.mute x).unlink w).mute w).pg i).free =
              if w ≤ i ∧ i < w + (m + (p.pg w).count) then true else (p.pg i).free := by
            rw [hqp, if_neg e]
            by_cases ex : i = x
            · rw [if_pos ex, if_pos (by omega)]
            · rw [if_neg ex, hm.free]
              by_cases hc : x < i ∧ i < x + m
              · rw [if_pos hc, if_pos (by omega)]
              · rw [if_neg hc]
                split
                · exact (hinw i (by omega) (by omega)).2
                · rfl
          rw [← key]
          split <;> rfl
      · intro i hi
        rw [hpg]
        by_cases e : i = w
        · rw [if_pos e, e]
        · rw [if_neg e, if_neg (by omega), hqp, if_neg e, if_neg (by omega)]
          exact hm.prev i (by omega)
      · intro hlt
        rw [hse, hpg, if_neg (by omega), if_pos ⟨rfl, by show x + m < q.max; rw [hm.max]; omega⟩]
      · intro i
        have key : ((((q.mute x).unlink w).mute w).pg i).sidx = (p.pg i).sidx ∧
            ((((q.mute x).unlink w).mute w).pg i).nused = (p.pg i).nused ∧
            ((((q.mute x).unlink w).mute w).pg i).nelems = (p.pg i).nelems := by
          rw [hqp]
          split
          · next e => rw [e]; exact hm.slab w
          · split
            · next e => rw [e]; exact hm.slab x
            · exact hm.slab i
        rw [hpg]
        split
        · next e => rw [e] at key ⊢; exact key
        · split
          · exact key
          · exact key
      · rw [addFree_fl]
        exact nodup_pushFl (hm.nodup.erase w) (fun hc => ((hfl w).mp hc).2 (by omega))
      · intro i
        rw [addFree_fl, mem_pushFl]
        show i = w ∨ i ∈ q.fl.erase w ↔ _
        rw [hfl]
      · rw [addFree_use]; exact hm.use
      · unfold fsum
        rw [addFree_fl, sum_pushFl]
        show _ + ((q.fl.erase w).map _).sum = _
        have : ∀ i ∈ q.fl.erase w, (((((q.mute x).unlink w).mute w).addFree w (p.pg w).prev
            (m + (p.pg w).count)).pg i).count = (p.pg i).count := by
          intro i hi
          have hi2 := (hfl i).mp hi
          have key : ((((q.mute x).unlink w).mute w).pg i).count = (p.pg i).count := by
            rw [hqp, if_neg (by omega), if_neg (fun e : i = x => hxl (e ▸ hi2.1)), hm.count, if_neg (by omega)]
          rw [hpg, if_neg (by omega), ← key]
          split <;> rfl
        rw [sum_congr this, hpg, if_pos rfl]
        have h1 := hm.sum
        have h2 := sum_erase (fun i => (p.pg i).count) hwq
        unfold fsum at h1
        dsimp only at h2 ⊢
        omega
    · rw [if_neg hwf]
      dsimp only
      have hpg := fun j => addFree_pg q x (some w) m j (by omega)
      refine ⟨by rw [addFree_max]; exact hm.max, ⟨Nat.le_refl _, by omega⟩, hx, hm.last, ?_, ?_, ?_, ?_, ?_, ?_, ?_, ?_, ?_, ?_, ?_⟩
      · intro i hi e
        have : i = w := by
          have hi0 := hi.2
          rcases Nat.lt_trichotomy i w with a | a | a
          · have := h.sep hi e2 a; omega
          · exact a
          · have := h.sep e2 hi a; omega
        rw [this]; simpa using hwf
      · intro i hi a b c; exact hm.within i hi (by omega) b
      · intro i
        rw [hpg]
        by_cases e : i = x
        · rw [if_pos e, if_pos e]
        · rw [if_neg e, if_neg e, ← hm.count i]
          split <;> rfl
      · intro i
        rw [hpg]
        by_cases e : i = x
        · rw [if_pos e, if_pos (by omega)]
        · rw [if_neg e]
          have k : (q.pg i).free = if x ≤ i ∧ i < x + m then true else (p.pg i).free := by
            rw [hm.free]
            by_cases hc : x < i ∧ i < x + m
            · rw [if_pos hc, if_pos (by omega)]
            · rw [if_neg hc, if_neg (by omega)]
          rw [← k]
          split <;> rfl
      · intro i hi
        rw [hpg]
        by_cases e : i = x
        · rw [if_pos e, e]; exact e1.symm
        · rw [if_neg e, if_neg (by omega)]; exact hm.prev i (by omega)
      · intro hlt
        rw [hpg, if_neg (by omega), if_pos ⟨rfl, by rw [hm.max]; exact hlt⟩]
      · intro i
        rw [hpg]
        split
        · next e => rw [e]; exact hm.slab x
        · split
          · exact hm.slab i
          · exact hm.slab i
      · rw [addFree_fl]
        exact nodup_pushFl hm.nodup (fun hc => hxl ((hm.fl x).mp hc).1)
      · intro i
        rw [addFree_fl, mem_pushFl, hm.fl]
        constructor
        · rintro (e | e)
          · exact .inl e
          · by_cases e0 : i = x
            · exact .inl e0
            · exact .inr ⟨e.1, fun hc => e.2 (by omega)⟩
        · rintro (e | e)
          · exact .inl e
          · exact .inr ⟨e.1, fun hc => e.2 (by omega)⟩
      · rw [addFree_use]; exact hm.use
      · unfold fsum
        rw [addFree_fl, sum_pushFl]
        have : ∀ i ∈ q.fl, ((q.addFree x (some w) m).pg i).count = (p.pg i).count := by
          intro i hi
          have := (hm.fl i).mp hi
          rw [hpg, if_neg (fun e : i = x => hxl (e ▸ this.1))]
          have c := hm.count i
          rw [if_neg this.2] at c
          rw [← c]
          split <;> rfl
        rw [sum_congr this, hpg, if_pos rfl]
        have := hm.sum
        unfold fsum at this
        dsimp only
        omega

/-- The pool at the start. -/
theorem init_inv {n : Nat} (hn : 0 < n) : PInv (Pool.init n) ∧ fsum (Pool.init n) = n ∧
    (Pool.init n).fl = [0] ∧ (Pool.init n).max = n ∧ (Pool.init n).use = 0 ∧
    ∀ i, ((Pool.init n).pg i).sidx = none ∧ ((Pool.init n).pg i).free = true := by
  have hpg' : ∀ j, (Pool.init n).pg j = if j = 0 then ⟨none, n, true, none, 0, 0⟩ else Pg.blank := by
    intro j
    unfold Pool.init
    rw [addFree_pg _ _ _ _ _ hn]
    by_cases h : j = 0
    · rw [if_pos h, if_pos h]; rfl
    · rw [if_neg h, if_neg h, if_neg (fun y => Nat.lt_irrefl _ (Nat.zero_add n ▸ y.2))]
  have hmax : (Pool.init n).max = n := addFree_max _ _ _ _
  have hfl : (Pool.init n).fl = [0] := by
    show pushFl [] 0 n = _
    unfold pushFl
    split <;> rfl
  have hc0 : ((Pool.init n).pg 0).count = n := by rw [hpg', if_pos rfl]
  have hhd : ∀ i, Hd (Pool.init n) i ↔ i = 0 := by
    intro i
    unfold Hd
    rw [hmax, hpg']
    constructor
    · intro h
      apply Classical.byContradiction
      intro hc
      rw [if_neg hc] at h
      exact absurd h.2 (Nat.lt_irrefl 0)
    · intro h; rw [if_pos h]; exact ⟨by omega, hn⟩
  refine ⟨⟨⟨(hhd 0).mpr rfl, by rw [hpg', if_pos rfl]⟩, ?_, ?_, ?_, ?_, ?_, ?_, ?_⟩, ?_, hfl, hmax, addFree_use _ _ _ _, ?_⟩
  · intro i hi; rw [(hhd i).mp hi, hc0, hmax]; omega
  · intro i hi h; rw [(hhd i).mp hi, hc0, hmax] at h; omega
  · intro i hi h; exact absurd ((hhd i).mp hi) h
  · intro i hi j h1 h2
    rw [(hhd i).mp hi] at h1
    rw [hpg', if_neg (by omega)]
    exact ⟨rfl, rfl⟩
  · intro i hi _ h; rw [(hhd i).mp hi, hc0, hmax] at h; omega
  · rw [hfl]; simp
  · intro i
    rw [hfl, hhd]
    constructor
    · intro h
      have := List.mem_singleton.mp h
      refine ⟨this, ?_⟩
      rw [hpg', if_pos this]
    · intro h; rw [h.1]; exact List.mem_singleton.mpr rfl
  · unfold fsum; rw [hfl]; simp [hc0]
  · intro i
    rw [hpg']
    split <;> exact ⟨rfl, rfl⟩

end Silofs.Qalloc
