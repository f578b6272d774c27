import Verif.Model.Bstore
import Verif.Props.Compare

/-!
# C64: nodes and leaves of the tree that maps addresses

A leaf that is filled by `extend` answers with what was bound last; an inner node filled by `expand` does so only when
the keys come in ascending order.
-/

set_option linter.unusedSimpArgs false

namespace Silofs.Bs

open Addr Compare Avl

/-! ### The order of keys -/

theorem cmp_asym {x y : Laddr} (hx : Lsid.Wf x.lsid) (hy : Lsid.Wf y.lsid) : 0 < laddrCompare x y ↔ laddrCompare y x < 0 :=
  C42_laddr_order.asym ⟨x, hx⟩ ⟨y, hy⟩

theorem cmp_trans {x y z : Laddr} (hx : Lsid.Wf x.lsid) (hy : Lsid.Wf y.lsid) (hz : Lsid.Wf z.lsid) (h1 : 0 ≤ laddrCompare x y)
    (h2 : 0 ≤ laddrCompare y z) : 0 ≤ laddrCompare x z :=
  C42_laddr_order.trans ⟨x, hx⟩ ⟨y, hy⟩ ⟨z, hz⟩ h1 h2

/-! ### Leaves -/

/-- The pairs of a leaf. -/
def Leaf.toList (l : Leaf) : List (Laddr × Paddr) := (List.range l.n).map l.ltop

theorem toList_getElem? (l : Leaf) (i : Nat) : l.toList[i]? = if i < l.n then some (l.ltop i) else none := by
  unfold Leaf.toList
  rw [List.getElem?_map]
  split
  · rename_i h; rw [List.getElem?_range h]; rfl
  · rename_i h; rw [List.getElem?_eq_none (by rw [List.length_range]; omega)]; rfl

theorem toList_length (l : Leaf) : l.toList.length = l.n := by unfold Leaf.toList; rw [List.length_map, List.length_range]

theorem toList_insert (l : Leaf) (s : Nat) (hs : s ≤ l.n) (x : Laddr × Paddr) :
    (insertLtop l s x).toList = l.toList.take s ++ x :: l.toList.drop s := by
  apply List.ext_getElem?
  intro i
  rw [toList_getElem?]
  show (if i < l.n + 1 then some (if i = s then x else if s < i ∧ i ≤ l.n then l.ltop (i - 1) else l.ltop i) else none) = _
  have hl : (l.toList.take s).length = s := by rw [List.length_take, toList_length]; omega
  by_cases h1 : i < s
  · rw [List.getElem?_append_left (by omega), List.getElem?_take, if_pos h1, toList_getElem?, if_pos (show i < l.n + 1 by omega),
      if_pos (show i < l.n by omega), if_neg (show ¬ i = s by omega), if_neg (show ¬ (s < i ∧ i ≤ l.n) by omega)]
  · rw [List.getElem?_append_right (by omega), hl]
    by_cases h2 : i = s
    · subst h2
      rw [if_pos (by omega), if_pos rfl, Nat.sub_self]
      rfl
    · obtain ⟨j, hj⟩ : ∃ j, i - s = j + 1 := ⟨i - s - 1, by omega⟩
      rw [hj, List.getElem?_cons_succ, List.getElem?_drop, toList_getElem?, if_neg h2]
      by_cases h3 : i < l.n + 1
      · rw [if_pos h3, if_pos (by omega), if_pos (by omega)]
        congr 2
        omega
      · rw [if_neg h3, if_neg (by omega)]

structure LeafOk (l : Leaf) : Prop where
  wf : ∀ i, i < l.n → Lsid.Wf (l.ltop i).1.lsid
  sorted : ∀ i j, i < j → j < l.n → 0 ≤ laddrCompare (l.ltop i).1 (l.ltop j).1

theorem insertSlot_spec (l : Leaf) (k : Laddr) : ∀ (m i : Nat), i ≤ insertSlot l k m i ∧ insertSlot l k m i ≤ i + m ∧
    (∀ j, i ≤ j → j < insertSlot l k m i → laddrCompare k (l.ltop j).1 < 0) ∧
    (insertSlot l k m i < i + m → 0 ≤ laddrCompare k (l.ltop (insertSlot l k m i)).1) := by
  intro m
  induction m with
  | zero => intro i; exact ⟨Nat.le_refl _, Nat.le_refl _, fun j h1 h2 => by unfold insertSlot at h2; omega, fun h => by unfold insertSlot at h; omega⟩
  | succ m ih =>
    intro i
    unfold insertSlot
    by_cases h : 0 ≤ laddrCompare k (l.ltop i).1
    · rw [if_pos h]
      exact ⟨Nat.le_refl _, by omega, fun j h1 h2 => by omega, fun _ => h⟩
    · rw [if_neg h]
      obtain ⟨a1, a2, a3, a4⟩ := ih (i + 1)
      refine ⟨by omega, by omega, fun j h1 h2 => ?_, fun h5 => a4 (by omega)⟩
      by_cases hj : j = i
      · subst hj; omega
      · exact a3 j (by omega) h2

theorem findSlot_spec (l : Leaf) (k : Laddr) (hk : Lsid.Wf k.lsid) (ok : LeafOk l) : ∀ (m i : Nat), i + m = l.n →
    (∃ s, findSlot l k m i = s ∧ i ≤ s ∧ s < l.n ∧ (l.ltop s).1 = k ∧ ∀ j, i ≤ j → j < s → (l.ltop j).1 ≠ k) ∨
    (findSlot l k m i = l.n ∧ ∀ j, i ≤ j → j < l.n → (l.ltop j).1 ≠ k) := by
  intro m
  induction m with
  | zero => intro i hi; exact .inr ⟨rfl, fun j h1 h2 => by omega⟩
  | succ m ih =>
    intro i hi
    have hwi := ok.wf i (by omega)
    unfold findSlot
    by_cases h0 : laddrCompare k (l.ltop i).1 = 0
    · rw [if_pos h0]
      exact .inl ⟨i, rfl, Nat.le_refl _, by omega, ((C42_laddr_equal _ _ hk hwi).1 h0).symm, fun j h1 h2 => by omega⟩
    · rw [if_neg h0]
      have hne : (l.ltop i).1 ≠ k := fun hx => h0 ((C42_laddr_equal _ _ hk hwi).2 hx.symm)
      by_cases h1 : 0 < laddrCompare k (l.ltop i).1
      · rw [if_pos h1]
        refine .inr ⟨rfl, fun j h2 h3 hx => ?_⟩
        by_cases hj : j = i
        · subst hj; exact hne hx
        · have := ok.sorted i j (by omega) h3
          rw [hx] at this
          have := (cmp_asym hk hwi).1 h1
          omega
      · rw [if_neg h1]
        rcases ih (i + 1) (by omega) with ⟨s, a1, a2, a3, a4, a5⟩ | ⟨a1, a2⟩
        · refine .inl ⟨s, a1, by omega, a3, a4, fun j h2 h3 => ?_⟩
          by_cases hj : j = i
          · subst hj; exact hne
          · exact a5 j (by omega) h3
        · refine .inr ⟨a1, fun j h2 h3 => ?_⟩
          by_cases hj : j = i
          · subst hj; exact hne
          · exact a2 j (by omega) h3

/-- Resolving finds the first pair with the key. -/
theorem resolve_find (l : Leaf) (k : Laddr) (hk : Lsid.Wf k.lsid) (ok : LeafOk l) :
    l.resolve k = (l.toList.find? (fun x => x.1 = k)).map Prod.snd := by
  unfold Leaf.resolve
  by_cases h0 : l.n = 0
  · rw [if_pos h0]
    unfold Leaf.toList
    rw [h0]
    rfl
  · rw [if_neg h0]
    rcases findSlot_spec l k hk ok l.n 0 (by omega) with ⟨s, a1, _, a3, a4, a5⟩ | ⟨a1, a2⟩
    · rw [a1, if_neg (by omega)]
      have : l.toList.find? (fun x => decide (x.1 = k)) = some (l.ltop s) := by
        rw [List.find?_eq_some_iff_getElem]
        refine ⟨by simpa using a4, s, by rw [toList_length]; exact a3, ?_, fun j hj => ?_⟩
        · have := toList_getElem? l s
          rw [if_pos a3] at this
          exact List.getElem_of_getElem? this |>.2
        · have := toList_getElem? l j
          rw [if_pos (by omega)] at this
          obtain ⟨_, hx⟩ := List.getElem_of_getElem? this
          rw [hx]
          simpa using a5 j (Nat.zero_le _) hj
      rw [this]
      rfl
    · rw [a1, if_pos (Nat.le_refl _)]
      have : l.toList.find? (fun x => decide (x.1 = k)) = none := by
        rw [List.find?_eq_none]
        intro x hx
        obtain ⟨j, hj, rfl⟩ := List.mem_map.1 hx
        simpa using a2 j (Nat.zero_le _) (List.mem_range.1 hj)
      rw [this]
      rfl

theorem extend_ok (l : Leaf) (ok : LeafOk l) (k : Laddr) (hk : Lsid.Wf k.lsid) (a : Paddr) (hn : l.n ≠ 84) :
    LeafOk (l.extend k a).2 ∧ (l.extend k a).2.n = l.n + 1 ∧
    ∀ k', ((l.extend k a).2.toList.find? (fun x => x.1 = k')).map Prod.snd =
      (((k, a) :: l.toList).find? (fun x => x.1 = k')).map Prod.snd := by
  obtain ⟨_, a2, a3, a4⟩ := insertSlot_spec l k l.n 0
  unfold Leaf.extend
  rw [if_neg hn]
  generalize hs : insertSlot l k l.n 0 = s at a2 a3 a4 ⊢
  have hsn : s ≤ l.n := by omega
  have hget : ∀ i, (insertLtop l s (k, a)).ltop i = if i = s then (k, a) else if s < i ∧ i ≤ l.n then l.ltop (i - 1) else l.ltop i := fun _ => rfl
  have hwf : ∀ i, i < l.n + 1 → Lsid.Wf ((insertLtop l s (k, a)).ltop i).1.lsid := by
    intro i hi
    rw [hget]
    split
    · exact hk
    · split
      · exact ok.wf _ (by omega)
      · exact ok.wf _ (by omega)
  -- all pairs from the slot on are not above the key
  have hge : ∀ j, s ≤ j → j < l.n → 0 ≤ laddrCompare k (l.ltop j).1 := by
    intro j h1 h2
    have h3 := a4 (by omega)
    by_cases hj : j = s
    · subst hj; exact h3
    · exact cmp_trans hk (ok.wf s (by omega)) (ok.wf j h2) h3 (ok.sorted s j (by omega) h2)
  have hlt : ∀ j, j < s → 0 < laddrCompare (l.ltop j).1 k := fun j h1 =>
    (cmp_asym (ok.wf j (by omega)) hk).2 (a3 j (Nat.zero_le _) h1)
  refine ⟨⟨hwf, fun i j hij hj => ?_⟩, rfl, fun k' => ?_⟩
  · have hj : j < l.n + 1 := hj
    rw [hget, hget]
    by_cases hi : i = s
    · rw [if_pos hi, if_neg (by omega), if_pos (by omega)]
      exact hge _ (by omega) (by omega)
    · rw [if_neg hi]
      by_cases hjs : j = s
      · rw [if_pos hjs, if_neg (by omega)]
        exact Int.le_of_lt (hlt i (by omega))
      · rw [if_neg hjs]
        by_cases h1 : s < i
        · rw [if_pos (by omega), if_pos (by omega)]
          exact ok.sorted _ _ (by omega) (by omega)
        · rw [if_neg (by omega)]
          by_cases h2 : s < j
          · rw [if_pos (by omega)]
            exact ok.sorted _ _ (by omega) (by omega)
          · rw [if_neg (by omega)]
            exact ok.sorted _ _ hij (by omega)
  · show (((insertLtop l s (k, a)).toList.find? _).map _) = _
    rw [toList_insert l s hsn]
    have hno : (l.toList.take s).find? (fun x => decide (x.1 = k)) = none := by
      rw [List.find?_eq_none]
      intro x hx
      obtain ⟨j, hj, hxe⟩ := List.getElem_of_mem hx
      have hjs : j < s := by rw [List.length_take] at hj; omega
      rw [List.getElem_take] at hxe
      have := toList_getElem? l j
      rw [if_pos (by omega)] at this
      obtain ⟨_, hy⟩ := List.getElem_of_getElem? this
      rw [hy] at hxe
      subst hxe
      have h1 := hlt j hjs
      have h2 := (C42_laddr_equal (l.ltop j).1 k (ok.wf j (by omega)) hk)
      simp only [decide_eq_true_eq]
      intro h3
      have := h2.2 h3
      omega
    by_cases hkk : k = k'
    · subst hkk
      rw [List.find?_append, hno]
      simp
    · rw [List.find?_append, List.find?_cons_of_neg (by simpa using hkk), List.find?_cons_of_neg (by simpa using hkk), ← List.find?_append,
        List.take_append_drop]

/-- A leaf filled by one call after the other. -/
def fillLeaf (l : Leaf) (xs : List (Laddr × Paddr)) : Leaf := xs.foldl (fun l x => (l.extend x.1 x.2).2) l

theorem fillLeaf_spec : ∀ (xs : List (Laddr × Paddr)) (l : Leaf), LeafOk l → l.n ≤ 84 → (∀ x, x ∈ xs → Lsid.Wf x.1.lsid) →
    LeafOk (fillLeaf l xs) ∧ (fillLeaf l xs).n = min 84 (l.n + xs.length) ∧
    ∀ k', ((fillLeaf l xs).toList.find? (fun x => x.1 = k')).map Prod.snd =
      (((xs.take (84 - l.n)).reverse ++ l.toList).find? (fun x => x.1 = k')).map Prod.snd := by
  intro xs
  induction xs with
  | nil => intro l ok hn _; exact ⟨ok, by show l.n = min 84 (l.n + 0); omega, fun k' => by simp [fillLeaf]⟩
  | cons x xs ih =>
    intro l ok hn hw
    show LeafOk (fillLeaf (l.extend x.1 x.2).2 xs) ∧ (fillLeaf (l.extend x.1 x.2).2 xs).n = _ ∧ ∀ k', ((fillLeaf (l.extend x.1 x.2).2 xs).toList.find? _).map _ = _
    by_cases h84 : l.n = 84
    · have he : (l.extend x.1 x.2).2 = l := by unfold Leaf.extend; rw [if_pos h84]
      rw [he]
      obtain ⟨b1, b2, b3⟩ := ih l ok hn (fun y hy => hw y (List.mem_cons_of_mem _ hy))
      refine ⟨b1, by rw [b2, List.length_cons]; omega, fun k' => ?_⟩
      rw [b3, h84]
      rfl
    · obtain ⟨c1, c2, c3⟩ := extend_ok l ok x.1 (hw x (List.mem_cons_self ..)) x.2 h84
      obtain ⟨b1, b2, b3⟩ := ih _ c1 (by omega) (fun y hy => hw y (List.mem_cons_of_mem _ hy))
      refine ⟨b1, by rw [b2, c2, List.length_cons]; omega, fun k' => ?_⟩
      rw [b3, c2]
      obtain ⟨m, hm⟩ : ∃ m, 84 - l.n = m + 1 := ⟨84 - l.n - 1, by omega⟩
      have hm' : 84 - (l.n + 1) = m := by omega
      rw [hm, hm', List.take_succ_cons, List.reverse_cons, List.append_assoc, List.find?_append, List.find?_append]
      have := c3 k'
      generalize List.find? (fun x => decide (x.1 = k')) (xs.take m).reverse = o
      cases o with
      | some y => rfl
      | none => exact this

/-- **C64 (leaves).**  However a leaf was filled, it answers with what was bound last to a key, and with nothing for one that never was; 84 bindings
are taken, and not one more. -/
theorem C64_leaf (xs : List (Laddr × Paddr)) (hw : ∀ x, x ∈ xs → Lsid.Wf x.1.lsid) (k : Laddr) (hk : Lsid.Wf k.lsid) (a : Paddr) :
    (fillLeaf Leaf.init xs).resolve k = ((xs.take 84).reverse.find? (fun x => x.1 = k)).map Prod.snd ∧
    ((fillLeaf Leaf.init xs).extend k a).1 = decide (xs.length < 84) ∧
    (84 ≤ xs.length → ((fillLeaf Leaf.init xs).extend k a).2 = fillLeaf Leaf.init xs) := by
  obtain ⟨b1, b2, b3⟩ := fillLeaf_spec xs Leaf.init ⟨fun i hi => (by cases hi), fun i j _ hj => (by cases hj)⟩ (by decide) hw
  have hn : (fillLeaf Leaf.init xs).n = min 84 xs.length := by rw [b2]; show min 84 (0 + xs.length) = _; omega
  refine ⟨?_, ?_, fun h => ?_⟩
  · rw [resolve_find _ k hk b1, b3 k]
    show _ = ((xs.take 84).reverse.find? _).map _
    have : Leaf.init.toList = [] := rfl
    rw [this, List.append_nil]
    rfl
  · unfold Leaf.extend
    split
    · rename_i h
      rw [decide_eq_false (by omega)]
    · rename_i h
      rw [decide_eq_true (by omega)]
  · unfold Leaf.extend
    rw [if_pos (by omega)]

/-! ### Inner nodes -/

theorem slotBy_end (n : Node) (k : Laddr) : ∀ (m i : Nat), (∀ j, i ≤ j → j < i + m → 0 < laddrCompare k (n.key j)) → slotBy n k m i = i + m := by
  intro m
  induction m with
  | zero => intro i _; rfl
  | succ m ih =>
    intro i h
    unfold slotBy
    rw [if_neg (by have := h i (Nat.le_refl _) (by omega); omega), ih (i + 1) (fun j h1 h2 => h j (by omega) (by omega))]
    omega

/-- A node filled by one call after the other. -/
def fillNode (n : Node) (xs : List (Laddr × Paddr)) : Node := xs.foldl (fun n x => (n.expand x.1 x.2).2) n

/-- **C64 violated (inner nodes).**  A child whose key is below one that is there takes the place of that one's child: the older address can no
longer be found. -/
theorem C64_node_violated (k1 k2 : Laddr) (a1 a2 : Paddr) (h1 : isNull a1 = false) (hlt : laddrCompare k2 k1 < 0) (hw1 : Lsid.Wf k1.lsid)
    (hw2 : Lsid.Wf k2.lsid) :
    (fillNode Node.init [(k1, a1)]).resolve k1 = some a1 ∧ (fillNode Node.init [(k1, a1), (k2, a2)]).resolve k1 = none := by
  have h11 : laddrCompare k1 k1 = 0 := (C42_laddr_equal _ _ hw1 hw1).2 rfl
  have h12 : 0 < laddrCompare k1 k2 := (cmp_asym hw1 hw2).2 hlt
  have e1 : fillNode Node.init [(k1, a1)] = ⟨1, fun i => if i = 0 then a1 else if 1 < i ∧ i ≤ 1 then paddrNone else paddrNone,
      fun i => if i = 0 then k1 else if 0 < i ∧ i ≤ 0 then laddrNone else laddrNone⟩ := rfl
  have s1 : (fillNode Node.init [(k1, a1)]).slot k1 = 0 := by
    show (if laddrCompare k1 k1 ≤ 0 then 0 else _) = 0
    rw [if_pos (by omega)]
  have s2 : (fillNode Node.init [(k1, a1)]).slot k2 = 0 := by
    show (if laddrCompare k2 k1 ≤ 0 then 0 else _) = 0
    rw [if_pos (by omega)]
  refine ⟨?_, ?_⟩
  · unfold Node.resolve
    rw [s1]
    show (if (1 : Nat) = 0 then none else if isNull a1 then none else some a1) = _
    rw [if_neg (by decide), h1]
    rfl
  · have e2 : fillNode Node.init [(k1, a1), (k2, a2)] =
        ⟨2, insertChild (fillNode Node.init [(k1, a1)]) 0 a2, insertKey (fillNode Node.init [(k1, a1)]) 0 k2⟩ := by
      show ((fillNode Node.init [(k1, a1)]).expand k2 a2).2 = _
      unfold Node.expand
      rw [if_neg (by show ¬ (1 : Nat) = 41; decide), s2]
      rfl
    have s3 : (fillNode Node.init [(k1, a1), (k2, a2)]).slot k1 = 1 := by
      rw [e2]
      show (if laddrCompare k1 k2 ≤ 0 then 0 else if laddrCompare k1 k1 ≤ 0 then 1 else _) = 1
      rw [if_neg (by omega), if_pos (by omega)]
    unfold Node.resolve
    rw [s3, e2]
    rfl

/-! #### Ascending keys -/

/-- What a node with these pairs, keys ascending, and this last child is to answer. -/
def pick (xs : List (Laddr × Paddr)) (apex : Paddr) (k : Laddr) : Paddr :=
  match xs.find? (fun x => decide (laddrCompare k x.1 ≤ 0)) with
  | some x => x.2
  | none => apex

/-- The node holds these pairs. -/
structure NodeHas (n : Node) (xs : List (Laddr × Paddr)) (apex : Paddr) : Prop where
  len : n.nkeys = xs.length
  key : ∀ i x, xs[i]? = some x → n.key i = x.1
  child : ∀ i x, xs[i]? = some x → n.child i = x.2
  last : n.child xs.length = apex

theorem slotBy_find (n : Node) (k : Laddr) : ∀ (xs : List (Laddr × Paddr)) (i : Nat), (∀ j x, xs[j]? = some x → n.key (i + j) = x.1) →
    ∃ j, slotBy n k xs.length i = i + j ∧ ((∃ x, xs[j]? = some x ∧ xs.find? (fun x => decide (laddrCompare k x.1 ≤ 0)) = some x) ∨
      (j = xs.length ∧ xs.find? (fun x => decide (laddrCompare k x.1 ≤ 0)) = none)) := by
  intro xs
  induction xs with
  | nil => intro i _; exact ⟨0, rfl, .inr ⟨rfl, rfl⟩⟩
  | cons x xs ih =>
    intro i h
    have h0 : n.key i = x.1 := h 0 x rfl
    show ∃ j, slotBy n k (xs.length + 1) i = i + j ∧ _
    unfold slotBy
    rw [h0]
    by_cases hc : laddrCompare k x.1 ≤ 0
    · rw [if_pos hc]
      exact ⟨0, rfl, .inl ⟨x, rfl, by rw [List.find?_cons_of_pos (by simpa using hc)]⟩⟩
    · rw [if_neg hc]
      obtain ⟨j, h1, h2⟩ := ih (i + 1) (fun j y hy => by
        have := h (j + 1) y (by simpa using hy)
        rw [← this]
        congr 1
        omega)
      refine ⟨j + 1, by rw [h1]; omega, ?_⟩
      rw [List.find?_cons_of_neg (by simpa using hc)]
      rcases h2 with ⟨y, h2, h3⟩ | ⟨h2, h3⟩
      · exact .inl ⟨y, by simpa using h2, h3⟩
      · exact .inr ⟨by rw [h2]; rfl, h3⟩

theorem nodeHas_resolve {n : Node} {xs : List (Laddr × Paddr)} {apex : Paddr} (h : NodeHas n xs apex) (k : Laddr) (hne : xs ≠ []) :
    n.resolve k = if isNull (pick xs apex k) then none else some (pick xs apex k) := by
  have hl : xs.length ≠ 0 := fun hx => hne (List.length_eq_zero_iff.1 hx)
  have hc : n.child (n.slot k) = pick xs apex k := by
    obtain ⟨j, h1, h2⟩ := slotBy_find n k xs 0 (fun j x hx => by rw [Nat.zero_add]; exact h.key j x hx)
    rw [Nat.zero_add] at h1
    unfold Node.slot pick
    rw [h.len, h1]
    rcases h2 with ⟨x, h2, h3⟩ | ⟨h2, h3⟩
    · rw [h3, h.child j x h2]
    · rw [h3, h2, h.last]
  unfold Node.resolve
  rw [if_neg (by rw [h.len]; exact hl), hc]

theorem nodeHas_expand {n : Node} {xs : List (Laddr × Paddr)} (h : NodeHas n xs paddrNone) (hl : xs.length < 41)
    (hn : ∀ i, xs.length ≤ i → n.child i = paddrNone) (k : Laddr) (a : Paddr) (hup : ∀ x, x ∈ xs → 0 < laddrCompare k x.1) :
    (n.expand k a).1 = true ∧ NodeHas (n.expand k a).2 (xs ++ [(k, a)]) paddrNone ∧
    ∀ i, xs.length + 1 ≤ i → (n.expand k a).2.child i = paddrNone := by
  have hs : n.slot k = xs.length := by
    unfold Node.slot
    rw [h.len, slotBy_end n k xs.length 0 (fun j _ hj => ?_), Nat.zero_add]
    have hj : j < xs.length := by omega
    rw [h.key j _ (List.getElem?_eq_getElem hj)]
    exact hup _ (List.getElem_mem hj)
  unfold Node.expand
  rw [if_neg (by rw [h.len]; omega), hs]
  have hch : ∀ i, xs.length + 1 ≤ i → insertChild n xs.length a i = paddrNone := by
    intro i hi
    unfold insertChild
    rw [if_neg (by omega), h.len]
    split
    · exact hn _ (by omega)
    · exact hn _ (by omega)
  refine ⟨rfl, ⟨?_, fun i x hx => ?_, fun i x hx => ?_, ?_⟩, hch⟩
  · show n.nkeys + 1 = _
    rw [h.len, List.length_append]; rfl
  · show insertKey n xs.length k i = x.1
    unfold insertKey
    by_cases hi : i < xs.length
    · rw [List.getElem?_append_left hi] at hx
      rw [if_neg (by omega), if_neg (by omega)]
      exact h.key i x hx
    · by_cases he : i = xs.length
      · subst he
        rw [List.getElem?_append_right (Nat.le_refl _), Nat.sub_self] at hx
        cases hx
        rw [if_pos rfl]
      · rw [List.getElem?_eq_none (by rw [List.length_append]; show xs.length + 1 ≤ i; omega)] at hx
        cases hx
  · show insertChild n xs.length a i = x.2
    unfold insertChild
    by_cases hi : i < xs.length
    · rw [List.getElem?_append_left hi] at hx
      rw [if_neg (by omega), if_neg (by omega)]
      exact h.child i x hx
    · by_cases he : i = xs.length
      · subst he
        rw [List.getElem?_append_right (Nat.le_refl _), Nat.sub_self] at hx
        cases hx
        rw [if_pos rfl]
      · rw [List.getElem?_eq_none (by rw [List.length_append]; show xs.length + 1 ≤ i; omega)] at hx
        cases hx
  · show insertChild n xs.length a _ = _
    rw [List.length_append]
    exact hch _ (Nat.le_refl _)

theorem fillNode_has : ∀ (xs : List (Laddr × Paddr)) (n : Node) (ys : List (Laddr × Paddr)), NodeHas n ys paddrNone →
    (∀ i, ys.length ≤ i → n.child i = paddrNone) → (ys ++ xs).length ≤ 41 → (ys ++ xs).Pairwise (fun a b => 0 < laddrCompare b.1 a.1) →
    NodeHas (fillNode n xs) (ys ++ xs) paddrNone := by
  intro xs
  induction xs with
  | nil => intro n ys h _ _ _; rw [List.append_nil]; exact h
  | cons x xs ih =>
    intro n ys h hn hl hp
    have hl' : ys.length < 41 := by rw [List.length_append, List.length_cons] at hl; omega
    obtain ⟨_, h1, h2⟩ := nodeHas_expand h hl' hn x.1 x.2 (fun y hy => (List.pairwise_append.1 hp).2.2 y hy x (List.mem_cons_self ..))
    have hc : ys ++ x :: xs = (ys ++ [x]) ++ xs := by simp
    rw [hc] at hl hp ⊢
    exact ih _ _ h1 (fun i hi => h2 i (by rw [List.length_append] at hi; exact hi)) hl hp

/-- **C64 (inner nodes, partial).**  A node that is filled with ascending keys, at most 41, and then given its last child, leads to the child of the
first key that is not below the one asked for, or to the last child.  Without the order it does not: `C64_node_violated`. -/
theorem C64_node_partial (xs : List (Laddr × Paddr)) (hne : xs ≠ []) (hl : xs.length ≤ 41) (hp : xs.Pairwise (fun a b => 0 < laddrCompare b.1 a.1))
    (apex : Paddr) (k : Laddr) :
    ((fillNode Node.init xs).setapex apex).resolve k = if isNull (pick xs apex k) then none else some (pick xs apex k) := by
  have h := fillNode_has xs Node.init [] ⟨rfl, fun i x hx => (by cases hx), fun i x hx => (by cases hx), rfl⟩ (fun _ _ => rfl) hl hp
  rw [List.nil_append] at h
  apply nodeHas_resolve _ k hne
  refine ⟨h.len, h.key, fun i x hx => ?_, ?_⟩
  · show (if i = (fillNode Node.init xs).nkeys then apex else _) = _
    have : i < xs.length := by
      by_cases hi : i < xs.length
      · exact hi
      · rw [List.getElem?_eq_none (by omega)] at hx; cases hx
    rw [h.len, if_neg (by omega)]
    exact h.child i x hx
  · show (if xs.length = (fillNode Node.init xs).nkeys then apex else _) = _
    rw [h.len, if_pos rfl]

/-! ### Cases -/

private def key (i : Nat) : Laddr := ⟨⟨List.replicate 16 1, 0, 0, 0, 0, 0⟩, i, 4096⟩
private def addr (i : Nat) : Paddr := ⟨⟨List.replicate 16 2, 1⟩, i, 4096, PT_BTNODE⟩

example : Lsid.Wf (key 0).lsid := by unfold Lsid.Wf; decide

/-- Keys that compare as the theorems ask for. -/
example : laddrCompare (key 0) (key 4096) < 0 ∨ laddrCompare (key 4096) (key 0) < 0 := by decide +kernel

example : [(key 0, addr 0), (key 4096, addr 4096)].Pairwise (fun a b => 0 < laddrCompare b.1 a.1) := by decide +kernel

/-- A leaf that is extended twice with one key. -/
example : (fillLeaf Leaf.init [(key 0, addr 0), (key 8192, addr 7), (key 0, addr 4096)]).resolve (key 0) = some (addr 4096) := by decide +kernel

end Silofs.Bs
