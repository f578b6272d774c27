import Verif.Model.Readdir
import Verif.Props.DirInv
/-
What one readdir iteration offers: exactly the entries at or after the start
offset that live in nodes of depth below 4, in increasing order of offset.
-/
set_option linter.unusedSimpArgs false
set_option linter.unusedVariables false
namespace Silofs.Dir

/-- The item of entry `e` in slot `s` of node `i`. -/
def itemOf (i s : Nat) (e : Ent) : Item := ⟨e.name, e.ino, e.dt, mkDoff i s⟩

theorem scanFrom_filter (i : Nat) (pos : Int) (k : Nat) (l : List (Option Ent)) :
    scanFrom i pos k l = (scanFrom i 0 k l).filter (fun x => decide (pos ≤ x.off)) := by
  induction l generalizing k with
  | nil => simp [scanFrom]
  | cons x l ih =>
    cases x with
    | none => simp [scanFrom, ih]
    | some e =>
      have h0 : (0 : Int) ≤ (mkDoff i k : Int) := by omega
      simp only [scanFrom, h0, if_true, List.filter_cons, ih]
      split <;> rename_i h <;> simp [h]

theorem scanFrom_drop (i : Nat) (pos : Int) (k s : Nat) (l : List (Option Ent))
    (h : ∀ t, k ≤ t → t < k + s → (mkDoff i t : Int) < pos) :
    scanFrom i pos k l = scanFrom i pos (k + s) (l.drop s) := by
  induction s generalizing k l with
  | zero => simp
  | succ s ih =>
    cases l with
    | nil => simp [scanFrom]
    | cons x l =>
      have h1 := ih (k + 1) l (fun t a b => h t (by omega) (by omega))
      rw [List.drop_succ_cons, show k + (s + 1) = k + 1 + s by omega, ← h1]
      cases x with
      | none => rw [scanFrom]
      | some e =>
        rw [scanFrom, if_neg]
        have := h k (by omega) (by omega)
        omega

theorem mem_scanFrom (i : Nat) (k : Nat) (l : List (Option Ent)) (it : Item) :
    it ∈ scanFrom i 0 k l ↔ ∃ s e, l[s]? = some (some e) ∧ it = itemOf i (k + s) e := by
  induction l generalizing k with
  | nil => simp [scanFrom]
  | cons x l ih =>
    cases x with
    | none =>
      rw [scanFrom, ih]
      constructor
      · rintro ⟨s, e, h1, rfl⟩
        exact ⟨s + 1, e, by simpa using h1, by rw [show k + 1 + s = k + (s + 1) by omega]⟩
      · rintro ⟨s, e, h1, rfl⟩
        cases s with
        | zero => simp at h1
        | succ s => exact ⟨s, e, by simpa using h1, by rw [show k + 1 + s = k + (s + 1) by omega]⟩
    | some x =>
      rw [scanFrom, if_pos (by omega), List.mem_cons, ih]
      constructor
      · rintro (rfl | ⟨s, e, h1, rfl⟩)
        · exact ⟨0, x, by simp, rfl⟩
        · exact ⟨s + 1, e, by simpa using h1, by rw [show k + 1 + s = k + (s + 1) by omega]⟩
      · rintro ⟨s, e, h1, rfl⟩
        cases s with
        | zero => simp at h1; subst h1; exact Or.inl rfl
        | succ s =>
          exact Or.inr ⟨s, e, by simpa using h1, by rw [show k + 1 + s = k + (s + 1) by omega]⟩

theorem scanFrom_sorted (i k : Nat) (l : List (Option Ent)) (h : k + l.length ≤ 8192) :
    (scanFrom i 0 k l).Pairwise (fun a b => a.off < b.off) := by
  induction l generalizing k with
  | nil => simp [scanFrom]
  | cons x l ih =>
    simp only [List.length_cons] at h
    cases x with
    | none => rw [scanFrom]; exact ih _ (by omega)
    | some x =>
      rw [scanFrom, if_pos (by omega), List.pairwise_cons]
      refine ⟨?_, ih _ (by omega)⟩
      intro y hy
      obtain ⟨s, e, h1, rfl⟩ := (mem_scanFrom _ _ _ _).1 hy
      have hs : s < l.length := by
        rcases Nat.lt_or_ge s l.length with h' | h'
        · exact h'
        · rw [List.getElem?_eq_none h'] at h1; simp at h1
      have := (C12_doff_order i k i (k + 1 + s) (by omega) (by omega)).2 (by omega)
      simp only [itemOf]; omega

/-- Everything in the node of index `i` that readdir can list. -/
def nodeAll (nodes : Nat → Option Node) (i : Nat) : List Item :=
  match nodes i with
  | none => []
  | some n => if 4 ≤ depth i then [] else scanFrom i 0 0 n.slots

/-- Everything in `cnt` nodes from index `i` on. -/
def itemsFrom (nodes : Nat → Option Node) : Nat → Nat → List Item
  | _, 0 => []
  | i, cnt + 1 => nodeAll nodes i ++ itemsFrom nodes (i + 1) cnt

theorem Node.WF.slots_le {n : Node} (h : n.WF) : n.slots.length ≤ 480 := by
  have := h.2; unfold Node.used at this; omega

theorem stageWalk_eq {d : Dir} (hv : Inv d) (i : Nat) (hi : 1 ≤ i) :
    stageWalk d.nodes i = (d.nodes i).map fun n => (i, n) := by
  induction i using Nat.strongRecOn with
  | _ i ih =>
    rw [stageWalk]
    split
    · have : i = 1 := by omega
      subst this; rfl
    · have hc := C12_child_of_parent i (by omega)
      rw [ih (parent i) hc.2.2.2 hc.2.2.1]
      cases hp : d.nodes (parent i) with
      | none =>
        simp only [Option.map_none]
        cases hn : d.nodes i with
        | none => rfl
        | some n =>
          obtain ⟨p, hp'⟩ := hv.closed i n hn (by omega)
          rw [hp] at hp'; simp at hp'
      | some p => simp only [Option.map_some, hc.1]

theorem stageByIndex_eq {d : Dir} (hv : Inv d) (i : Nat) (hi : 1 ≤ i) :
    stageByIndex d.nodes i = if 4 ≤ depth i then none else (d.nodes i).map fun n => (i, n) := by
  unfold stageByIndex; rw [stageWalk_eq hv i hi]

theorem nullSiblings_none (nodes : Nat → Option Node) (p k : Nat) (hk : k ≤ 63) (j : Nat)
    (hj : j < nullSiblings nodes p k) : nodes (child p (64 - k + j)) = none := by
  induction k generalizing j with
  | zero => simp [nullSiblings] at hj
  | succ k ih =>
    rw [nullSiblings] at hj
    split at hj
    · omega
    · rename_i h
      cases j with
      | zero => rw [show 64 - (k + 1) + 0 = 63 - k by omega]; exact h
      | succ j =>
        have := ih (by omega) j (by omega)
        rw [show 64 - (k + 1) + (j + 1) = 64 - k + j by omega]; exact this

theorem nextNode_skip (nodes : Nat → Option Node) (i : Nat) (hi : 1 ≤ i) (j : Nat) (h1 : i < j)
    (h2 : j < nextNode nodes i) : nodes j = none := by
  unfold nextNode at h2
  split at h2
  · omega
  · have hc := C12_child_of_parent i (by omega)
    have := nullSiblings_none nodes (parent i) (63 - childOrd i) (by omega) (j - i - 1) (by omega)
    have e : child (parent i) (64 - (63 - childOrd i) + (j - i - 1)) = j := by
      have := hc.1
      unfold child at *; omega
    rw [e] at this; exact this

theorem itemsFrom_skip (nodes : Nat → Option Node) (i m cnt : Nat) (hm : m ≤ cnt)
    (h : ∀ j, i ≤ j → j < i + m → nodes j = none) :
    itemsFrom nodes i cnt = itemsFrom nodes (i + m) (cnt - m) := by
  induction m generalizing i cnt with
  | zero => simp
  | succ m ih =>
    cases cnt with
    | zero => omega
    | succ cnt =>
      rw [itemsFrom]
      have : nodeAll nodes i = [] := by unfold nodeAll; rw [h i (by omega) (by omega)]
      rw [this, List.nil_append, ih (i + 1) cnt (by omega) (fun j a b => h j (by omega) (by omega))]
      rw [show i + 1 + m = i + (m + 1) by omega, show cnt + 1 - (m + 1) = cnt - m by omega]

theorem itemsFrom_all_none (nodes : Nat → Option Node) (i cnt : Nat)
    (h : ∀ j, i ≤ j → j < i + cnt → nodes j = none) : itemsFrom nodes i cnt = [] := by
  have := itemsFrom_skip nodes i cnt cnt (by omega) h
  rw [this]; simp [itemsFrom]

theorem itemsFrom_next (nodes : Nat → Option Node) (i last : Nat) (hi : 1 ≤ i) :
    itemsFrom nodes (i + 1) (last + 1 - (i + 1)) =
      itemsFrom nodes (nextNode nodes i) (last + 1 - nextNode nodes i) := by
  have hgt := nextNode_gt nodes i
  by_cases h : nextNode nodes i ≤ last + 1
  · have := itemsFrom_skip nodes (i + 1) (nextNode nodes i - (i + 1)) (last + 1 - (i + 1)) (by omega)
      (fun j a b => nextNode_skip nodes i hi j (by omega) (by omega))
    rw [this]
    rw [show i + 1 + (nextNode nodes i - (i + 1)) = nextNode nodes i by omega,
      show last + 1 - (i + 1) - (nextNode nodes i - (i + 1)) = last + 1 - nextNode nodes i by omega]
  · rw [itemsFrom_all_none nodes (i + 1) _ (fun j a b => nextNode_skip nodes i hi j (by omega) (by omega))]
    rw [show last + 1 - nextNode nodes i = 0 by omega]; rfl

theorem nodeItems_all (i : Nat) (n : Node) (pos : Int) (hw : n.WF) (hs : doffSlot pos.toNat = 0)
    (hp : pos ≤ (mkDoff i 0 : Int)) : nodeItems i n pos = scanFrom i 0 0 n.slots := by
  unfold nodeItems
  rw [hs, List.drop_zero, scanFrom_filter, List.filter_eq_self.2]
  intro it hit
  obtain ⟨s, e, h1, rfl⟩ := (mem_scanFrom _ _ _ _).1 hit
  have hl : s < n.slots.length := by
    rcases Nat.lt_or_ge s n.slots.length with h' | h'
    · exact h'
    · rw [List.getElem?_eq_none h'] at h1; simp at h1
  have := hw.slots_le
  have e1 := mkDoff_eq i 0 (by omega)
  have e2 := mkDoff_eq i (0 + s) (by omega)
  apply decide_eq_true
  show pos ≤ ((mkDoff i (0 + s) : Nat) : Int)
  omega

theorem doffSlot_zero (i : Nat) : doffSlot (mkDoff i 0) = 0 := by
  rw [doffSlot_eq, mkDoff_eq i 0 (by omega)]; omega

/-- Iteration from a node boundary offers everything from that node on. -/
theorem iterNodes_all {d : Dir} (hv : Inv d) (fuel idx : Nat) (pos : Int) (hf : d.last + 1 - idx ≤ fuel)
    (hi : 1 ≤ idx) (hs : doffSlot pos.toNat = 0) (hp : pos ≤ (mkDoff idx 0 : Int)) :
    iterNodes d.nodes d.last idx pos = itemsFrom d.nodes idx (d.last + 1 - idx) := by
  induction fuel generalizing idx pos with
  | zero =>
    rw [iterNodes, dif_pos (by omega), show d.last + 1 - idx = 0 by omega]; rfl
  | succ fuel ih =>
    rw [iterNodes]
    split
    · rename_i h
      rcases h with h | h
      · rw [show d.last + 1 - idx = 0 by omega]; rfl
      · rw [show d.last + 1 - idx = 0 by omega]; rfl
    · rename_i h
      have hcnt : d.last + 1 - idx = (d.last + 1 - (idx + 1)) + 1 := by omega
      rw [hcnt, itemsFrom]
      have hst := stageByIndex_eq hv idx hi
      split
      · rename_i hn
        rw [hst] at hn
        have : nodeAll d.nodes idx = [] := by
          unfold nodeAll
          split
          · rfl
          · rename_i n hn'
            rw [hn'] at hn
            split at hn
            · rename_i h4; rw [if_pos h4]
            · simp at hn
        rw [this, List.nil_append]
        apply ih (idx + 1) pos (by omega) (by omega) hs
        have e1 := mkDoff_eq idx 0 (by omega)
        have e2 := mkDoff_eq (idx + 1) 0 (by omega)
        omega
      · rename_i i n hn
        rw [hst] at hn
        split at hn
        · simp at hn
        · rename_i h4
          simp only [Option.map_eq_some_iff, Prod.mk.injEq] at hn
          obtain ⟨n', hn', rfl, rfl⟩ := hn
          have hw := (hv.range _ _ hn').2.2.2
          rw [nodeItems_all idx n' pos hw hs hp]
          have hna : nodeAll d.nodes idx = scanFrom idx 0 0 n'.slots := by
            unfold nodeAll; rw [hn']; simp only; rw [if_neg h4]
          rw [hna, itemsFrom_next d.nodes idx d.last hi]
          have hgt := nextNode_gt d.nodes idx
          rw [ih (nextNode d.nodes idx) (mkDoff (idx + 1) 0) (by omega) (by omega)]
          · simp only [Int.toNat_natCast]; exact doffSlot_zero _
          · have e1 := mkDoff_eq (idx + 1) 0 (by omega)
            have e2 := mkDoff_eq (nextNode d.nodes idx) 0 (by omega)
            omega

/-- All that readdir can list, in order. -/
def treeItems (d : Dir) : List Item := itemsFrom d.nodes 1 d.last

theorem mem_nodeAll (nodes : Nat → Option Node) (i : Nat) (it : Item) :
    it ∈ nodeAll nodes i ↔ ∃ s e, EntAt nodes i s e ∧ depth i < 4 ∧ it = itemOf i s e := by
  unfold nodeAll EntAt
  split
  · rename_i h; simp [h]
  · rename_i n h
    split
    · rename_i h4
      simp; intro s e n' hn hs h5; omega
    · rename_i h4
      rw [mem_scanFrom]
      constructor
      · rintro ⟨s, e, h1, h2⟩
        refine ⟨s, e, ⟨n, h, h1⟩, by omega, ?_⟩
        rw [h2, Nat.zero_add]
      · rintro ⟨s, e, ⟨n', hn, h1⟩, _, h2⟩
        rw [h] at hn; cases hn
        exact ⟨s, e, h1, by rw [h2, Nat.zero_add]⟩

theorem mem_itemsFrom (nodes : Nat → Option Node) (i cnt : Nat) (it : Item) :
    it ∈ itemsFrom nodes i cnt ↔
      ∃ j s e, i ≤ j ∧ j < i + cnt ∧ EntAt nodes j s e ∧ depth j < 4 ∧ it = itemOf j s e := by
  induction cnt generalizing i with
  | zero => simp [itemsFrom]; intros; omega
  | succ cnt ih =>
    rw [itemsFrom, List.mem_append, mem_nodeAll, ih]
    constructor
    · rintro (⟨s, e, h⟩ | ⟨j, s, e, h1, h2, h⟩)
      · exact ⟨i, s, e, by omega, by omega, h⟩
      · exact ⟨j, s, e, by omega, by omega, h⟩
    · rintro ⟨j, s, e, h1, h2, h⟩
      by_cases hj : j = i
      · subst hj; exact Or.inl ⟨s, e, h⟩
      · exact Or.inr ⟨j, s, e, by omega, by omega, h⟩

theorem EntAt.slot_lt {d : Dir} (hv : Inv d) {i s : Nat} {e : Ent} (h : EntAt d.nodes i s e) : s < 480 := by
  obtain ⟨n, hn, hs⟩ := h
  have := (hv.range i n hn).2.2.2.slots_le
  rcases Nat.lt_or_ge s n.slots.length with h' | h'
  · omega
  · rw [List.getElem?_eq_none h'] at hs; simp at hs

theorem mem_treeItems {d : Dir} (hv : Inv d) (it : Item) :
    it ∈ treeItems d ↔ ∃ i s e, EntAt d.nodes i s e ∧ depth i < 4 ∧ it = itemOf i s e := by
  unfold treeItems
  rw [mem_itemsFrom]
  constructor
  · rintro ⟨j, s, e, _, _, h⟩; exact ⟨j, s, e, h⟩
  · rintro ⟨j, s, e, h1, h2⟩
    obtain ⟨n, hn, _⟩ := id h1
    have := hv.range j n hn
    exact ⟨j, s, e, by omega, by omega, h1, h2⟩

theorem nodeAll_sorted {d : Dir} (hv : Inv d) (i : Nat) :
    (nodeAll d.nodes i).Pairwise (fun a b => a.off < b.off) := by
  unfold nodeAll
  split
  · simp
  · rename_i n hn
    split
    · simp
    · exact scanFrom_sorted _ _ _ (by have := (hv.range i n hn).2.2.2.slots_le; omega)

theorem itemsFrom_sorted {d : Dir} (hv : Inv d) (i cnt : Nat) :
    (itemsFrom d.nodes i cnt).Pairwise (fun a b => a.off < b.off) := by
  induction cnt generalizing i with
  | zero => simp [itemsFrom]
  | succ cnt ih =>
    rw [itemsFrom, List.pairwise_append]
    refine ⟨nodeAll_sorted hv i, ih _, ?_⟩
    intro a ha b hb
    obtain ⟨s, e, h1, _, rfl⟩ := (mem_nodeAll _ _ _).1 ha
    obtain ⟨j, t, e', hj, _, h2, _, rfl⟩ := (mem_itemsFrom _ _ _ _).1 hb
    have l1 := h1.slot_lt hv
    have l2 := h2.slot_lt hv
    have := (C12_doff_order i s j t (by omega) (by omega)).2 (by omega)
    simp only [itemOf]; omega

theorem itemsFrom_split (nodes : Nat → Option Node) (i a b : Nat) :
    itemsFrom nodes i (a + b) = itemsFrom nodes i a ++ itemsFrom nodes (i + a) b := by
  induction a generalizing i with
  | zero => simp [itemsFrom]
  | succ a ih =>
    rw [show a + 1 + b = (a + b) + 1 by omega, itemsFrom, ih, itemsFrom, List.append_assoc,
      show i + 1 + a = i + (a + 1) by omega]

theorem filter_all_false {α : Type} (p : α → Bool) (l : List α) (h : ∀ x ∈ l, p x = false) :
    l.filter p = [] := List.filter_eq_nil_iff.2 (fun x hx => by simp [h x hx])

/-- Iteration from the offset of a slot of an existing node offers the entries
at or after that offset. -/
theorem iterNodes_from {d : Dir} (hv : Inv d) (a s : Nat) (n : Node) (hn : d.nodes a = some n)
    (h4 : depth a < 4) (hs : s < 8192) :
    iterNodes d.nodes d.last a (mkDoff a s) =
      (treeItems d).filter (fun x => decide ((mkDoff a s : Int) ≤ x.off)) := by
  have hr := hv.range a n hn
  have hw := hr.2.2.2
  rw [iterNodes, dif_neg (by omega)]
  have hst := stageByIndex_eq hv a hr.1
  rw [if_neg (by omega), hn, Option.map_some] at hst
  split
  · rename_i h; rw [hst] at h; simp at h
  · rename_i i n' h
    rw [hst] at h; simp only [Option.some.injEq, Prod.mk.injEq] at h
    obtain ⟨rfl, rfl⟩ := h
    -- the rest
    have hgt := nextNode_gt d.nodes a
    have hrest : iterNodes d.nodes d.last (nextNode d.nodes a) (mkDoff (a + 1) 0) =
        itemsFrom d.nodes (a + 1) (d.last + 1 - (a + 1)) := by
      rw [iterNodes_all hv _ _ _ (Nat.le_refl _) (by omega)
        (by simp only [Int.toNat_natCast]; exact doffSlot_zero _)]
      · exact (itemsFrom_next d.nodes a d.last hr.1).symm
      · have e1 := mkDoff_eq (a + 1) 0 (by omega)
        have e2 := mkDoff_eq (nextNode d.nodes a) 0 (by omega)
        omega
    rw [hrest]
    -- split the whole listing around node a
    have hsplit : treeItems d = itemsFrom d.nodes 1 (a - 1) ++
        (nodeAll d.nodes a ++ itemsFrom d.nodes (a + 1) (d.last + 1 - (a + 1))) := by
      unfold treeItems
      rw [show d.last = (a - 1) + ((d.last + 1 - (a + 1)) + 1) by omega, itemsFrom_split, itemsFrom]
      rw [show 1 + (a - 1) = a by omega]
      rw [show (a - 1 + (d.last + 1 - (a + 1) + 1)) + 1 - (a + 1) = d.last + 1 - (a + 1) by omega]
    rw [hsplit, List.filter_append, List.filter_append]
    have f1 : (itemsFrom d.nodes 1 (a - 1)).filter (fun x => decide ((mkDoff a s : Int) ≤ x.off)) = [] := by
      apply filter_all_false
      intro x hx
      obtain ⟨j, t, e, _, hj, he, _, rfl⟩ := (mem_itemsFrom _ _ _ _).1 hx
      have ht := he.slot_lt hv
      have := (C12_doff_order j t a s (by omega) hs).2 (by omega)
      apply decide_eq_false
      show ¬ (mkDoff a s : Int) ≤ (mkDoff j t : Int)
      omega
    have f2 : (itemsFrom d.nodes (a + 1) (d.last + 1 - (a + 1))).filter
        (fun x => decide ((mkDoff a s : Int) ≤ x.off)) = itemsFrom d.nodes (a + 1) (d.last + 1 - (a + 1)) := by
      apply List.filter_eq_self.2
      intro x hx
      obtain ⟨j, t, e, hj, _, he, _, rfl⟩ := (mem_itemsFrom _ _ _ _).1 hx
      have ht := he.slot_lt hv
      have := (C12_doff_order a s j t hs (by omega)).2 (by omega)
      apply decide_eq_true
      show (mkDoff a s : Int) ≤ (mkDoff j t : Int)
      omega
    have f3 : nodeItems a n (mkDoff a s) =
        (nodeAll d.nodes a).filter (fun x => decide ((mkDoff a s : Int) ≤ x.off)) := by
      have hna : nodeAll d.nodes a = scanFrom a 0 0 n.slots := by
        unfold nodeAll; rw [hn]; simp only; rw [if_neg (by omega)]
      unfold nodeItems
      rw [hna, ← scanFrom_filter]
      simp only [Int.toNat_natCast]
      have e1 := (C12_doff_roundtrip a s hr.2.1 hs).2.1
      rw [e1]
      have := scanFrom_drop a (mkDoff a s) 0 s n.slots (by
        intro t _ ht
        have := (C12_doff_order a t a s (by omega) hs).2 (by omega)
        omega)
      rw [this, Nat.zero_add]
    rw [f1, f2, f3, List.nil_append]

/-- The complete listing of a directory. -/
def fullList (d : Dir) (selfIno upIno : Nat) : List Item :=
  ⟨[46], selfIno, 4, 0⟩ :: ⟨[46, 46], upIno, 4, 1⟩ :: treeItems d

/-- Offsets from which callers continue. -/
def PosOK (d : Dir) (pos : Int) : Prop :=
  pos = 0 ∨ pos = 1 ∨ ∃ a s n, pos = (mkDoff a s : Int) ∧ d.nodes a = some n ∧ depth a < 4 ∧ s < 8192

theorem treeItems_off {d : Dir} (hv : Inv d) (it : Item) (h : it ∈ treeItems d) :
    PosOK d it.off ∧ 2 ≤ it.off := by
  obtain ⟨i, s, e, he, h4, rfl⟩ := (mem_treeItems hv it).1 h
  have hs := he.slot_lt hv
  obtain ⟨n, hn, _⟩ := he
  refine ⟨Or.inr (Or.inr ⟨i, s, n, rfl, hn, h4, by omega⟩), ?_⟩
  have := mkDoff_eq i s (by omega)
  simp only [itemOf]; omega

theorem offers_tree2 {d : Dir} (hv : Inv d) :
    (if d.nodes 1 = none then [] else iterNodes d.nodes d.last (doffIndex 2) 2) = treeItems d := by
  split
  · rename_i h
    have := hv.lastz h
    unfold treeItems; rw [this]; rfl
  · rename_i h
    have hr : ∃ r, d.nodes 1 = some r := by
      cases hd : d.nodes 1 with
      | none => exact absurd hd h
      | some r => exact ⟨r, rfl⟩
    obtain ⟨r, hr⟩ := hr
    have hrr := hv.range 1 r hr
    have h0 : iterNodes d.nodes d.last 0 2 = iterNodes d.nodes d.last 1 2 := by
      rw [iterNodes, dif_neg (by omega)]
      have e0 : stageByIndex d.nodes 0 = some (1, r) := by
        unfold stageByIndex
        rw [if_neg (by rw [depth_le_one 0 (by omega)]; omega), stageWalk, dif_pos (by omega), hr]
        rfl
      split
      · rename_i hh; rw [e0] at hh
      · rename_i i n hh
        rw [e0] at hh; simp only [Option.some.injEq, Prod.mk.injEq] at hh
        obtain ⟨rfl, rfl⟩ := hh
        conv => rhs; rw [iterNodes, dif_neg (by omega)]
        have e1 := stageByIndex_eq hv 1 (by omega)
        rw [if_neg (by rw [depth_le_one 1 (by omega)]; omega), hr, Option.map_some] at e1
        split
        · rename_i hh; rw [e1] at hh; simp at hh
        · rename_i i n hh
          rw [e1] at hh; simp only [Option.some.injEq, Prod.mk.injEq] at hh
          obtain ⟨rfl, rfl⟩ := hh
          rfl
    have hd2 : doffIndex 2 = 0 := by decide
    rw [hd2, h0, iterNodes_all hv _ 1 2 (Nat.le_refl _) (by omega) (by decide)]
    · unfold treeItems; rw [show d.last + 1 - 1 = d.last by omega]
    · have := mkDoff_eq 1 0 (by omega); omega

/-- One readdir call offers exactly the tail of the complete listing from `pos`. -/
theorem offers_eq {d : Dir} (hv : Inv d) (selfIno upIno : Nat) (pos : Int) (hp : PosOK d pos) :
    offers d selfIno upIno pos =
      (fullList d selfIno upIno).filter (fun x => decide (pos ≤ x.off)) := by
  have htree : ∀ p : Int, p ≤ 2 → (treeItems d).filter (fun x => decide (p ≤ x.off)) = treeItems d := by
    intro p hp
    apply List.filter_eq_self.2
    intro x hx
    have := (treeItems_off hv x hx).2
    simp; omega
  have h2 := offers_tree2 hv
  rcases hp with rfl | rfl | ⟨a, s, n, rfl, hn, h4, hs⟩
  · unfold offers fullList
    simp [htree 0 (by omega)]
    exact h2
  · unfold offers fullList
    simp [htree 1 (by omega)]
    exact h2
  · have hoff := C12_doff_roundtrip a s (hv.range a n hn).2.1 hs
    have hge : (2 : Int) ≤ (mkDoff a s : Int) := by have := hoff.2.2.2.2.1; omega
    unfold offers fullList
    have n0 : ¬ ((mkDoff a s : Int) = 0) := by omega
    have n1 : ¬ ((mkDoff a s : Int) = 1) := by omega
    have n2 : ¬ ((mkDoff a s : Int) < 0) := by omega
    have n3 : ¬ ((mkDoff a s : Int) ≤ 0) := by omega
    have n4 : ¬ ((mkDoff a s : Int) ≤ 1) := by omega
    have hroot : ¬ d.nodes 1 = none := by
      intro h
      have := hv.lastz h
      have := hv.range a n hn
      omega
    simp only [n0, n1, n2, if_false, List.append_nil, List.nil_append, List.filter_cons,
      n3, n4, decide_false, Bool.false_eq_true, hroot, Int.toNat_natCast, hoff.1]
    exact iterNodes_from hv a s n hn h4 hs

theorem fullList_sorted {d : Dir} (hv : Inv d) (selfIno upIno : Nat) :
    (fullList d selfIno upIno).Pairwise (fun a b => a.off < b.off) := by
  unfold fullList
  rw [List.pairwise_cons, List.pairwise_cons]
  refine ⟨?_, ?_, ?_⟩
  · intro x hx
    rcases List.mem_cons.1 hx with rfl | hx
    · simp
    · have := (treeItems_off hv x hx).2; simp only; omega
  · intro x hx
    have := (treeItems_off hv x hx).2; simp only; omega
  · exact itemsFrom_sorted hv 1 d.last

theorem fullList_posOK {d : Dir} (hv : Inv d) (selfIno upIno : Nat) (x : Item)
    (hx : x ∈ fullList d selfIno upIno) : PosOK d x.off := by
  unfold fullList at hx
  rcases List.mem_cons.1 hx with rfl | hx
  · exact Or.inl rfl
  · rcases List.mem_cons.1 hx with rfl | hx
    · exact Or.inr (Or.inl rfl)
    · exact (treeItems_off hv x hx).1

end Silofs.Dir
