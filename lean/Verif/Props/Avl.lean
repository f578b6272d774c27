import Verif.Props.AvlBase
/-
C37: the balanced tree is an ordered collection.

Specification: a list of elements in order of their keys.
-/
set_option linter.unusedSimpArgs false
set_option linter.unusedVariables false
namespace Silofs.Avl
variable {α κ : Type}

/-! ### Specification -/

/-- What the tree needs of the function comparing keys: `x ≤ y` is `0 ≤ cmp x y`. -/
structure Order (cmp : κ → κ → Int) : Prop where
  asym : ∀ x y, 0 < cmp x y ↔ cmp y x < 0
  trans : ∀ x y z, 0 ≤ cmp x y → 0 ≤ cmp y z → 0 ≤ cmp x z

/-- An element goes behind all that are not greater. -/
def specInsert (cmp : κ → κ → Int) (key : α → κ) (z : α) (l : List α) : List α :=
  l.takeWhile (fun a => decide (0 ≤ cmp (key a) (key z))) ++ z :: l.dropWhile (fun a => decide (0 ≤ cmp (key a) (key z)))

def Sorted (cmp : κ → κ → Int) (key : α → κ) (l : List α) : Prop := l.Pairwise (fun a b => 0 ≤ cmp (key a) (key b))

/-- The tree holds the elements of `l`: in that order, which is sorted; it is balanced; its count, first and last
element are right. -/
structure Holds (cmp : κ → κ → Int) (key : α → κ) (v : Avl α) (l : List α) : Prop where
  list : v.root.list = l
  bal : ∃ h, Bal v.root h
  sorted : Sorted cmp key l
  nodup : l.Nodup
  size : v.size = l.length
  min : v.min = l.head?
  max : v.max = l.getLast?

section
variable {cmp : κ → κ → Int} {key : α → κ}

theorem Order.refl (o : Order cmp) (x : κ) : cmp x x = 0 := by
  have := o.asym x x
  omega

theorem Order.le_iff (o : Order cmp) (x y : κ) : 0 ≤ cmp x y ↔ ¬ cmp x y < 0 := by omega

theorem Order.le_lt (o : Order cmp) {x y w : κ} (h1 : 0 ≤ cmp x y) (h2 : 0 < cmp y w) : 0 < cmp x w := by
  apply Classical.byContradiction
  intro h
  have a1 := o.asym x w
  have a2 := o.asym y w
  have a3 := o.trans w x y (by omega) h1
  omega

theorem Order.lt_le (o : Order cmp) {x y w : κ} (h1 : 0 < cmp x y) (h2 : 0 ≤ cmp y w) : 0 < cmp x w := by
  apply Classical.byContradiction
  intro h
  have a1 := o.asym x w
  have a2 := o.asym x y
  have a3 := o.trans y w x h2 (by omega)
  omega

theorem specInsert_eq {z : α} {u v : List α} (hu : ∀ a ∈ u, 0 ≤ cmp (key a) (key z)) (hv : ∀ a ∈ v, cmp (key a) (key z) < 0) :
    specInsert cmp key z (u ++ v) = u ++ z :: v := by
  unfold specInsert
  have e1 : List.takeWhile (fun a => decide (0 ≤ cmp (key a) (key z))) (u ++ v) = u := by
    rw [List.takeWhile_append_of_pos (by intro a ha; simpa using hu a ha)]
    cases v with
    | nil => simp
    | cons y ys =>
      have := hv y List.mem_cons_self
      rw [List.takeWhile_cons_of_neg (by simp; omega)]
      simp
  have e2 : List.dropWhile (fun a => decide (0 ≤ cmp (key a) (key z))) (u ++ v) = v := by
    rw [List.dropWhile_append_of_pos (by intro a ha; simpa using hu a ha)]
    cases v with
    | nil => simp
    | cons y ys =>
      have := hv y List.mem_cons_self
      rw [List.dropWhile_cons_of_neg (by simp; omega)]
  rw [e1, e2]

theorem searchLeaf_order (o : Order cmp) (z : α) (t : T α) (p : Path α) (hs : Sorted cmp key t.list)
    (h1 : ∀ a ∈ pre p, 0 ≤ cmp (key a) (key z)) (h2 : ∀ a ∈ post p, cmp (key a) (key z) < 0) :
    (∀ a ∈ pre (searchLeaf cmp key z t p), 0 ≤ cmp (key a) (key z)) ∧
    (∀ a ∈ post (searchLeaf cmp key z t p), cmp (key a) (key z) < 0) := by
  induction t generalizing p with
  | nil => exact ⟨h1, h2⟩
  | node l b a r ihl ihr =>
    simp only [T.list, Sorted, List.pairwise_append, List.pairwise_cons] at hs
    obtain ⟨sl, ⟨sa, sr⟩, sx⟩ := hs
    simp only [searchLeaf]
    split
    · rename_i hc
      refine ihl _ sl (by simpa [pre] using h1) ?_
      intro x hx
      simp only [post, if_true, List.mem_append, List.mem_cons] at hx
      rcases hx with (rfl | hx) | hx
      · exact hc
      · exact (o.asym _ _).1 (o.lt_le ((o.asym _ _).2 hc) (sa x hx))
      · exact h2 x hx
    · rename_i hc
      refine ihr _ sr ?_ (by simpa [post] using h2)
      intro x hx
      simp only [pre, Bool.false_eq_true, if_false, List.mem_append, List.mem_cons, List.not_mem_nil, or_false] at hx
      rcases hx with hx | hx | rfl
      · exact h1 x hx
      · exact o.trans _ _ _ (sx x hx a List.mem_cons_self) (by omega)
      · omega

theorem searchUniq_spec (o : Order cmp) (z : α) (t : T α) (p : Path α) (hs : Sorted cmp key t.list)
    (h1 : ∀ a ∈ pre p, 0 < cmp (key a) (key z)) (h2 : ∀ a ∈ post p, cmp (key a) (key z) < 0) :
    (searchUniq cmp key z t p = none ∧ ∃ a ∈ t.list, cmp (key a) (key z) = 0) ∨
    (searchUniq cmp key z t p = some (searchLeaf cmp key z t p) ∧
      (∀ a ∈ pre (searchLeaf cmp key z t p), 0 < cmp (key a) (key z)) ∧
      (∀ a ∈ post (searchLeaf cmp key z t p), cmp (key a) (key z) < 0)) := by
  induction t generalizing p with
  | nil => exact .inr ⟨rfl, h1, h2⟩
  | node l b a r ihl ihr =>
    simp only [T.list, Sorted, List.pairwise_append, List.pairwise_cons] at hs
    obtain ⟨sl, ⟨sa, sr⟩, sx⟩ := hs
    simp only [searchLeaf, searchUniq]
    by_cases c1 : cmp (key a) (key z) > 0
    · rw [if_pos c1, if_neg (by omega)]
      have := ihr (⟨false, b, a, l⟩ :: p) sr (by
        intro x hx
        simp only [pre, Bool.false_eq_true, if_false, List.mem_append, List.mem_cons, List.not_mem_nil, or_false] at hx
        rcases hx with hx | hx | rfl
        · exact h1 x hx
        · exact o.le_lt (sx x hx a List.mem_cons_self) c1
        · exact c1) (by simpa [post] using h2)
      rcases this with ⟨e, x, hx, ex⟩ | h
      · exact .inl ⟨e, x, by simp [T.list, hx], ex⟩
      · exact .inr h
    · rw [if_neg c1]
      by_cases c2 : cmp (key a) (key z) < 0
      · rw [if_pos c2, if_pos c2]
        have := ihl (⟨true, b, a, r⟩ :: p) sl (by simpa [pre] using h1) (by
          intro x hx
          simp only [post, if_true, List.mem_append, List.mem_cons] at hx
          rcases hx with (rfl | hx) | hx
          · exact c2
          · exact (o.asym _ _).1 (o.lt_le ((o.asym _ _).2 c2) (sa x hx))
          · exact h2 x hx)
        rcases this with ⟨e, x, hx, ex⟩ | h
        · exact .inl ⟨e, x, by simp [T.list, hx], ex⟩
        · exact .inr h
      · rw [if_neg c2]
        exact .inl ⟨rfl, a, by simp [T.list], by omega⟩

/-! ### Insertion -/

theorem sorted_insert (o : Order cmp) {z : α} {u v : List α} (hs : Sorted cmp key (u ++ v))
    (hu : ∀ a ∈ u, 0 ≤ cmp (key a) (key z)) (hv : ∀ a ∈ v, cmp (key a) (key z) < 0) : Sorted cmp key (u ++ z :: v) := by
  simp only [Sorted, List.pairwise_append, List.pairwise_cons, List.mem_cons] at hs ⊢
  obtain ⟨s1, s2, s3⟩ := hs
  refine ⟨s1, ⟨fun a ha => ?_, s2⟩, ?_⟩
  · have := (o.asym (key z) (key a)).2 (hv a ha)
    omega
  · rintro a ha b (rfl | hb)
    · exact hu a ha
    · exact s3 a ha b hb

theorem nodup_insert {z : α} {u v : List α} (hn : (u ++ v).Nodup) (hz : z ∉ u ++ v) : (u ++ z :: v).Nodup := by
  rw [List.nodup_append] at hn ⊢
  obtain ⟨n1, n2, n3⟩ := hn
  simp only [List.mem_append, not_or] at hz
  refine ⟨n1, List.nodup_cons.2 ⟨hz.2, n2⟩, ?_⟩
  rintro a ha b hb
  rcases List.mem_cons.1 hb with rfl | hb
  · exact fun e => hz.1 (e ▸ ha)
  · exact n3 a ha b hb

theorem list_nil_of_size {v : Avl α} {l : List α} (h : v.size = l.length) (h0 : v.size = 0) : l = [] :=
  List.length_eq_zero_iff.1 (by omega)

/-- What the tree holds, whatever its order: `Holds` without `sorted`. -/
structure Contains (v : Avl α) (l : List α) : Prop where
  list : v.root.list = l
  bal : ∃ h, Bal v.root h
  nodup : l.Nodup
  size : v.size = l.length
  min : v.min = l.head?
  max : v.max = l.getLast?

theorem Holds.contains {v : Avl α} {l : List α} (h : Holds cmp key v l) : Contains v l :=
  ⟨h.list, h.bal, h.nodup, h.size, h.min, h.max⟩

theorem Contains.holds {v : Avl α} {l : List α} (h : Contains v l) (hs : Sorted cmp key l) : Holds cmp key v l :=
  ⟨h.list, h.bal, hs, h.nodup, h.size, h.min, h.max⟩

/-- What happens once the place is known. -/
theorem insert_core [DecidableEq α] {v : Avl α} {l : List α} (hv : Contains v l) {z : α} (hz : z ∉ l) (hne : v.size ≠ 0)
    (p : Path α) (ep : pre p ++ post p = v.root.list) (eb : ∀ h, Bal v.root h → PathBal p 0) :
    ∃ t, insertFixup (.node .nil 0 z .nil) p = some t ∧
      Contains (postInsert t v.min v.max v.size) (pre p ++ z :: post p) := by
  obtain ⟨hl, ⟨h, hb⟩, hn, hsz, hmin, hmax⟩ := hv
  rw [hl] at ep
  obtain ⟨t, H, et, bt⟩ := insertFixup_bal (x := .node .nil 0 z .nil) (h := 0)
    (bal_mk (hl := 0) (hr := 0) rfl rfl (by omega) (by omega) (by omega) (by omega)) (eb h hb) (.inr rfl)
  have tl := insertFixup_list _ _ _ et
  rw [plug_list] at tl
  simp only [T.list, List.nil_append] at tl
  clear eb
  generalize hu : pre p = u at *
  generalize hw : post p = w at *
  have tl' : t.list = u ++ z :: w := by simpa using tl
  have nd : (u ++ z :: w).Nodup := nodup_insert (ep ▸ hn) (ep ▸ hz)
  refine ⟨t, et, ?_⟩
  have hlne : l ≠ [] := by
    intro e
    rw [e] at hsz
    exact hne hsz
  refine ⟨tl', ⟨H, bt⟩, nd, ?_, ?_, ?_⟩
  · show v.size + 1 = _
    rw [hsz, ← ep]
    simp
    omega
  · -- the least element
    simp only [postInsert]
    rw [hmin, ← ep]
    cases u with
    | nil =>
      cases w with
      | nil => exact absurd (by rw [← ep]; rfl) hlne
      | cons m w =>
        simp only [List.nil_append, List.head?_cons]
        have : t.prev m = some z := by
          rw [prev_spec (u := [z]) (v := w) (by rw [tl']; rfl) (by rw [tl']; exact nd)]
          rfl
        rw [this]
    | cons m u =>
      simp only [List.cons_append, List.head?_cons]
      have : t.prev m = none := by
        rw [prev_spec (u := []) (v := u ++ z :: w) (by rw [tl']; rfl) (by rw [tl']; exact nd)]
        rfl
      rw [this]
  · simp only [postInsert]
    rw [hmax, ← ep]
    rcases List.eq_nil_or_concat w with rfl | ⟨w', m, rfl⟩
    · rcases List.eq_nil_or_concat u with rfl | ⟨u', m, rfl⟩
      · exact absurd (by rw [← ep]; rfl) hlne
      · have : t.next m = some z := by
          rw [next_spec (u := u') (v := [z]) (by rw [tl']; simp) (by rw [tl']; exact nd)]
          rfl
        simp [this]
    · have : t.next m = none := by
        rw [next_spec (u := u ++ z :: w') (v := []) (by rw [tl']; simp) (by rw [tl']; exact nd)]
        rfl
      simp [this, List.getLast?_append, List.getLast?_cons]

theorem insert_at [DecidableEq α] (o : Order cmp) {v : Avl α} {l : List α} (hv : Holds cmp key v l) {z : α} (hz : z ∉ l)
    (hne : v.size ≠ 0) : ∃ t, insertFixup (.node .nil 0 z .nil) (searchLeaf cmp key z v.root []) = some t ∧
      Holds cmp key (postInsert t v.min v.max v.size) (specInsert cmp key z l) := by
  obtain ⟨ep, eb⟩ := searchLeaf_spec cmp key z v.root []
  obtain ⟨o1, o2⟩ := searchLeaf_order (key := key) o z v.root [] (by rw [hv.list]; exact hv.sorted) (by simp [pre])
    (by simp [post])
  simp only [pre, post, List.nil_append, List.append_nil] at ep
  obtain ⟨t, et, ct⟩ := insert_core hv.contains hz hne _ ep (fun h hb => eb h hb trivial)
  rw [hv.list] at ep
  refine ⟨t, et, ?_⟩
  have si := specInsert_eq (key := key) (cmp := cmp) (z := z) o1 o2
  rw [ep] at si
  rw [si]
  exact ct.holds (sorted_insert o (by rw [ep]; exact hv.sorted) o1 o2)

/-- **C37** Whatever the comparison function answers (even if it is no order at all), insertion never panics, keeps every
element, adds the new one, and keeps the tree balanced. -/
theorem C37_insert_any [DecidableEq α] (cmp : κ → κ → Int) (key : α → κ) {v : Avl α} {l : List α} (hv : Contains v l) {z : α}
    (hz : z ∉ l) : ∃ v' u w, v.insert cmp key z = some v' ∧ l = u ++ w ∧ Contains v' (u ++ z :: w) := by
  unfold Avl.insert
  by_cases h0 : v.size = 0
  · rw [if_pos h0]
    have := list_nil_of_size hv.size h0
    subst this
    refine ⟨_, [], [], rfl, rfl, rfl, ⟨1, bal_mk (hl := 0) (hr := 0) rfl rfl (by omega) (by omega) (by omega) (by omega)⟩,
      by simp, ?_, rfl, rfl⟩
    show v.size + 1 = 1
    omega
  · rw [if_neg h0]
    obtain ⟨ep, eb⟩ := searchLeaf_spec cmp key z v.root []
    simp only [pre, post, List.nil_append, List.append_nil] at ep
    obtain ⟨t, et, ct⟩ := insert_core hv hz h0 _ ep (fun h hb => eb h hb trivial)
    rw [et]
    exact ⟨_, _, _, rfl, by rw [ep, hv.list], ct⟩

theorem Holds_empty : Holds cmp key (Avl.empty : Avl α) [] :=
  ⟨rfl, ⟨0, rfl⟩, List.Pairwise.nil, List.nodup_nil, rfl, rfl, rfl⟩

theorem Holds_single (z : α) (n : Nat) (hn : n = 0) : Holds cmp key (⟨.node .nil 0 z .nil, some z, some z, n + 1⟩ : Avl α) [z] := by
  subst hn
  exact ⟨rfl, ⟨1, bal_mk (hl := 0) (hr := 0) rfl rfl (by omega) (by omega) (by omega) (by omega)⟩, by simp [Sorted],
    by simp, rfl, rfl, rfl⟩

/-- **C37** Insertion never panics, and puts the element behind all that are not greater. -/
theorem C37_insert [DecidableEq α] (o : Order cmp) {v : Avl α} {l : List α} (hv : Holds cmp key v l) {z : α} (hz : z ∉ l) :
    ∃ v', v.insert cmp key z = some v' ∧ Holds cmp key v' (specInsert cmp key z l) := by
  unfold Avl.insert
  by_cases h0 : v.size = 0
  · rw [if_pos h0]
    have := list_nil_of_size hv.size h0
    subst this
    exact ⟨_, rfl, Holds_single z _ h0⟩
  · rw [if_neg h0]
    obtain ⟨t, et, ht⟩ := insert_at o hv hz h0
    rw [et]
    exact ⟨_, rfl, ht⟩

/-- **C37** Unique insertion refuses exactly if an element with an equal key is present, and then changes nothing. -/
theorem C37_insert_unique [DecidableEq α] (o : Order cmp) {v : Avl α} {l : List α} (hv : Holds cmp key v l) (z : α) :
    ((∃ a ∈ l, cmp (key a) (key z) = 0) ∧ v.insertUniq cmp key z = some (v, false)) ∨
    ((∀ a ∈ l, cmp (key a) (key z) ≠ 0) ∧ ∃ v', v.insertUniq cmp key z = some (v', true) ∧
      Holds cmp key v' (specInsert cmp key z l)) := by
  unfold Avl.insertUniq
  by_cases h0 : v.size = 0
  · rw [if_pos h0]
    have := list_nil_of_size hv.size h0
    subst this
    exact .inr ⟨by simp, _, rfl, Holds_single z _ h0⟩
  · rw [if_neg h0]
    rcases searchUniq_spec (key := key) o z v.root [] (by rw [hv.list]; exact hv.sorted) (by simp [pre]) (by simp [post])
      with ⟨e, a, ha, ea⟩ | ⟨e, s1, s2⟩
    · rw [e]
      exact .inl ⟨⟨a, hv.list ▸ ha, ea⟩, rfl⟩
    · rw [e]
      have hall : ∀ a ∈ l, cmp (key a) (key z) ≠ 0 := by
        intro a ha
        have ep := (searchLeaf_spec cmp key z v.root []).1
        simp only [pre, post, List.nil_append, List.append_nil, hv.list] at ep
        rw [← ep, List.mem_append] at ha
        rcases ha with h | h
        · have := s1 a h; omega
        · have := s2 a h; omega
      have hz : z ∉ l := fun m => hall z m (o.refl _)
      obtain ⟨t, et, ht⟩ := insert_at o hv hz h0
      simp only [et]
      exact .inr ⟨hall, _, rfl, ht⟩

/-! ### Removal -/

/-- **C37** Removal of an element never panics, and takes out that element and no other. -/
theorem C37_remove [DecidableEq α] {v : Avl α} {l : List α} (hv : Holds cmp key v l) {z : α} (hz : z ∈ l) :
    ∃ v', v.remove z = some v' ∧ Holds cmp key v' (l.erase z) := by
  obtain ⟨hl, ⟨h, hb⟩, hs, hn, hsz, hmin, hmax⟩ := hv
  obtain ⟨u, w, e⟩ := List.append_of_mem hz
  subst e
  have hzu := nodup_split hn
  have er : (u ++ z :: w).erase z = u ++ w := by
    rw [List.erase_append_right _ hzu.1]
    simp
  rw [er]
  unfold Avl.remove
  by_cases h1 : v.size > 1
  · rw [if_pos h1]
    obtain ⟨x, b, r, q, el, e1, e2, eb⟩ := locate_split (t := v.root) hl (hl ▸ hn)
    obtain ⟨h', bn, bp⟩ := eb h hb
    obtain ⟨t, H, ed, bt, tl⟩ := delete_spec bn bp
    rw [el]
    simp only [ed]
    have tl' : t.list = u ++ w := by rw [tl, e1, List.append_assoc, e2]
    refine ⟨_, rfl, tl', ⟨H, bt⟩, ?_, ?_, ?_, ?_, ?_⟩
    · simp only [Sorted, List.pairwise_append, List.pairwise_cons, List.mem_cons] at hs ⊢
      exact ⟨hs.1, hs.2.1.2, fun a ha b hb => hs.2.2 a ha b (.inr hb)⟩
    · rw [List.nodup_append] at hn ⊢
      exact ⟨hn.1, (List.nodup_cons.1 hn.2.1).2, fun a ha b hb => hn.2.2 a ha b (List.mem_cons_of_mem _ hb)⟩
    · show v.size - 1 = _
      rw [hsz]
      simp
    · show (if v.min = some z then succ r q else v.min) = _
      rw [hmin, succ_head, e2]
      cases u with
      | nil => simp
      | cons m u =>
        have : m ≠ z := fun e => hzu.1 (e ▸ List.mem_cons_self)
        simp [this]
    · show (if v.max = some z then pred x q else v.max) = _
      rw [hmax, pred_last, e1]
      rcases List.eq_nil_or_concat w with rfl | ⟨w', m, rfl⟩
      · simp
      · have : m ≠ z := fun e => hzu.2 (by simp [e])
        simp [List.getLast?_append, List.getLast?_cons, this]
  · rw [if_neg h1]
    have : u ++ w = [] := by
      apply List.length_eq_zero_iff.1
      rw [List.length_append]
      rw [List.length_append, List.length_cons] at hsz
      omega
    rw [this]
    exact ⟨_, rfl, Holds_empty⟩

/-! ### Search -/

/-- **C37** A search finds an element with that key if there is one. -/
theorem C37_find (o : Order cmp) {v : Avl α} {l : List α} (hv : Holds cmp key v l) (k : κ) :
    (∀ a, find cmp key k v.root = some a → a ∈ l ∧ cmp (key a) k = 0) ∧
    (find cmp key k v.root = none → ∀ a ∈ l, cmp (key a) k ≠ 0) := by
  have hs : Sorted cmp key v.root.list := hv.list ▸ hv.sorted
  rw [← hv.list]
  clear hv
  generalize v.root = t at *
  induction t with
  | nil => exact ⟨by simp [find], by simp [T.list]⟩
  | node x b a r ihl ihr =>
    simp only [T.list, Sorted, List.pairwise_append, List.pairwise_cons] at hs
    obtain ⟨sl, ⟨sa, sr⟩, sx⟩ := hs
    have il := ihl sl
    have ir := ihr sr
    simp only [find]
    by_cases c1 : cmp (key a) k < 0
    · rw [if_pos c1]
      refine ⟨fun y hy => ⟨by simp [T.list, (il.1 y hy).1], (il.1 y hy).2⟩, fun hy y hm => ?_⟩
      simp only [T.list, List.mem_append, List.mem_cons] at hm
      rcases hm with hm | rfl | hm
      · exact il.2 hy y hm
      · omega
      · have := (o.asym _ _).1 (o.lt_le ((o.asym _ _).2 c1) (sa y hm))
        omega
    · rw [if_neg c1]
      by_cases c2 : cmp (key a) k > 0
      · rw [if_pos c2]
        refine ⟨fun y hy => ⟨by simp [T.list, (ir.1 y hy).1], (ir.1 y hy).2⟩, fun hy y hm => ?_⟩
        simp only [T.list, List.mem_append, List.mem_cons] at hm
        rcases hm with hm | rfl | hm
        · have := o.le_lt (sx y hm a List.mem_cons_self) c2
          omega
        · omega
        · exact ir.2 hy y hm
      · rw [if_neg c2]
        refine ⟨fun y hy => ?_, fun hy => by cases hy⟩
        simp only [Option.some.injEq] at hy
        subst hy
        exact ⟨by simp [T.list], by omega⟩

theorem find?_append_none {p : α → Bool} {u v : List α} (h : ∀ a ∈ u, p a = false) : (u ++ v).find? p = v.find? p := by
  rw [List.find?_append, List.find?_eq_none.2 (by intro a ha; simp [h a ha])]
  rfl

theorem lowerBound_spec (o : Order cmp) (k : κ) (t : T α) (y : Option α) (hs : Sorted cmp key t.list) :
    lowerBound cmp key k t y = (t.list.find? (fun a => decide (¬ cmp (key a) k > 0))).or y := by
  induction t generalizing y with
  | nil => simp [lowerBound, T.list]
  | node x b a r ihl ihr =>
    simp only [T.list, Sorted, List.pairwise_append, List.pairwise_cons] at hs
    obtain ⟨sl, ⟨sa, sr⟩, sx⟩ := hs
    simp only [lowerBound]
    by_cases c : cmp (key a) k > 0
    · rw [if_neg (by simpa using c), ihr _ sr]
      have e : (T.node x b a r).list = (x.list ++ [a]) ++ r.list := by simp [T.list]
      rw [e, find?_append_none]
      intro y hy
      simp only [List.mem_append, List.mem_cons, List.not_mem_nil, or_false] at hy
      rcases hy with hy | rfl
      · have := o.le_lt (sx y hy a List.mem_cons_self) c
        simpa using this
      · simpa using c
    · rw [if_pos c, ihl _ sl]
      simp only [T.list, List.find?_append, List.find?_cons]
      have : decide (¬ cmp (key a) k > 0) = true := by simpa using c
      rw [this]
      cases List.find? (fun a => decide ¬cmp (key a) k > 0) x.list <;> rfl

theorem upperBound_spec (o : Order cmp) (k : κ) (t : T α) (y : Option α) (hs : Sorted cmp key t.list) :
    upperBound cmp key k t y = (t.list.find? (fun a => decide (cmp k (key a) > 0))).or y := by
  induction t generalizing y with
  | nil => simp [upperBound, T.list]
  | node x b a r ihl ihr =>
    simp only [T.list, Sorted, List.pairwise_append, List.pairwise_cons] at hs
    obtain ⟨sl, ⟨sa, sr⟩, sx⟩ := hs
    simp only [upperBound]
    by_cases c : cmp k (key a) > 0
    · rw [if_pos c, ihl _ sl]
      simp only [T.list, List.find?_append, List.find?_cons]
      have : decide (cmp k (key a) > 0) = true := by simpa using c
      rw [this]
      cases List.find? (fun a => decide (cmp k (key a) > 0)) x.list <;> rfl
    · rw [if_neg c, ihr _ sr]
      have e : (T.node x b a r).list = (x.list ++ [a]) ++ r.list := by simp [T.list]
      rw [e, find?_append_none]
      intro y hy
      simp only [List.mem_append, List.mem_cons, List.not_mem_nil, or_false] at hy
      rcases hy with hy | rfl
      · have h1 := sx y hy a List.mem_cons_self
        have h2 : ¬ cmp k (key y) > 0 := fun h => c (o.lt_le h h1)
        simpa using h2
      · simpa using c

/-- **C37** The lower bound is the first element that is not less than the key. -/
theorem C37_lower_bound (o : Order cmp) {v : Avl α} {l : List α} (hv : Holds cmp key v l) (k : κ) :
    lowerBound cmp key k v.root none = l.find? (fun a => decide (¬ cmp (key a) k > 0)) := by
  rw [lowerBound_spec o k v.root none (hv.list ▸ hv.sorted), hv.list, Option.or_none]

/-- **C37** The upper bound is the first element that is greater than the key. -/
theorem C37_upper_bound (o : Order cmp) {v : Avl α} {l : List α} (hv : Holds cmp key v l) (k : κ) :
    upperBound cmp key k v.root none = l.find? (fun a => decide (cmp k (key a) > 0)) := by
  rw [upperBound_spec o k v.root none (hv.list ▸ hv.sorted), hv.list, Option.or_none]

theorem equalRange_spec (o : Order cmp) (k : κ) (t : T α) (y : Option α) (hs : Sorted cmp key t.list) :
    (equalRange cmp key k t y = (none, none) ∧ ∀ a ∈ t.list, cmp (key a) k ≠ 0) ∨
    ((∃ a ∈ t.list, cmp (key a) k = 0) ∧ equalRange cmp key k t y =
      (t.list.find? (fun a => decide (cmp (key a) k = 0)), (t.list.find? (fun a => decide (cmp k (key a) > 0))).or y)) := by
  induction t generalizing y with
  | nil => exact .inl ⟨rfl, by simp [T.list]⟩
  | node x b a r ihl ihr =>
    simp only [T.list, Sorted, List.pairwise_append, List.pairwise_cons] at hs
    obtain ⟨sl, ⟨sa, sr⟩, sx⟩ := hs
    simp only [equalRange]
    have e : (T.node x b a r).list = (x.list ++ [a]) ++ r.list := by simp [T.list]
    by_cases c1 : cmp (key a) k > 0
    · rw [if_pos c1]
      have hle : ∀ y ∈ x.list ++ [a], cmp (key y) k > 0 := by
        intro y hy
        simp only [List.mem_append, List.mem_cons, List.not_mem_nil, or_false] at hy
        rcases hy with hy | rfl
        · exact o.le_lt (sx y hy a List.mem_cons_self) c1
        · exact c1
      rcases ihr y sr with ⟨h1, h2⟩ | ⟨⟨w, hw, ew⟩, h2⟩
      · refine .inl ⟨h1, ?_⟩
        intro z hz
        rw [e, List.mem_append] at hz
        rcases hz with hz | hz
        · have := hle z hz; omega
        · exact h2 z hz
      · refine .inr ⟨⟨w, by rw [e, List.mem_append]; exact .inr hw, ew⟩, ?_⟩
        rw [h2, e, find?_append_none, find?_append_none]
        · intro z hz
          have h := hle z hz
          have := (o.asym (key z) k).1 h
          simp
          omega
        · intro z hz
          have := hle z hz
          simp
          omega
    · rw [if_neg c1]
      have hgt : cmp (key a) k < 0 → ∀ y ∈ a :: r.list, cmp (key y) k < 0 := by
        intro c2 y hy
        rcases List.mem_cons.1 hy with rfl | hy
        · exact c2
        · exact (o.asym _ _).1 (o.lt_le ((o.asym _ _).2 c2) (sa y hy))
      by_cases c2 : cmp (key a) k < 0
      · rw [if_pos c2]
        rcases ihl (some a) sl with ⟨h1, h2⟩ | ⟨⟨w, hw, ew⟩, h2⟩
        · refine .inl ⟨h1, ?_⟩
          intro z hz
          simp only [T.list, List.mem_append] at hz
          rcases hz with hz | hz
          · exact h2 z hz
          · have := hgt c2 z hz; omega
        · refine .inr ⟨⟨w, by simp [T.list, hw], ew⟩, ?_⟩
          rw [h2]
          simp only [T.list, List.find?_append]
          have h3 : (x.list.find? (fun a => decide (cmp (key a) k = 0))).isSome := by
            rw [List.find?_isSome]
            exact ⟨w, hw, by simpa using ew⟩
          obtain ⟨s, hs⟩ := Option.isSome_iff_exists.1 h3
          rw [hs]
          simp only [Option.some_or, Prod.mk.injEq, true_and]
          have ha : decide (cmp k (key a) > 0) = true := by simpa using (o.asym _ _).2 c2
          rw [List.find?_cons, ha]
          cases List.find? (fun a => decide (cmp k (key a) > 0)) x.list <;> rfl
      · rw [if_neg c2]
        have c0 : cmp (key a) k = 0 := by omega
        refine .inr ⟨⟨a, by simp [T.list], c0⟩, ?_⟩
        have hka : ¬ cmp k (key a) > 0 := by
          have := o.asym k (key a)
          omega
        rw [lowerBound_spec o k x (some a) sl, upperBound_spec o k r y sr]
        refine Prod.ext ?_ ?_
        · simp only [T.list, List.find?_append, List.find?_cons, show decide (cmp (key a) k = 0) = true by simpa using c0]
          congr 1
          -- no element of the left part is greater than the key
          have : ∀ l' : List α, (∀ z ∈ l', 0 ≤ cmp (key z) k) →
              l'.find? (fun a => decide (¬ cmp (key a) k > 0)) = l'.find? (fun a => decide (cmp (key a) k = 0)) := by
            intro l' hl'
            induction l' with
            | nil => rfl
            | cons z zs ih =>
              have hz := hl' z List.mem_cons_self
              have ih' := ih (fun w hw => hl' w (List.mem_cons_of_mem _ hw))
              simp only [List.find?_cons]
              have : decide (¬ cmp (key z) k > 0) = decide (cmp (key z) k = 0) := by
                rw [decide_eq_decide]; omega
              rw [this, ih']
          refine this _ (fun z hz => ?_)
          exact o.trans _ _ _ (sx z hz a List.mem_cons_self) (by omega)
        · show _ = Option.or (List.find? _ (T.node x b a r).list) y
          rw [e, find?_append_none]
          intro z hz
          simp only [List.mem_append, List.mem_cons, List.not_mem_nil, or_false] at hz
          rcases hz with hz | rfl
          · have h1 := sx z hz a List.mem_cons_self
            have h2 : ¬ cmp k (key z) > 0 := fun h => hka (o.lt_le h h1)
            simpa using h2
          · simpa using hka

/-- **C37** The range of a key goes from the first element with that key to the element behind the last one; without
such an element it is empty. -/
theorem C37_equal_range (o : Order cmp) {v : Avl α} {l : List α} (hv : Holds cmp key v l) (k : κ) :
    ((∀ a ∈ l, cmp (key a) k ≠ 0) ∧ equalRange cmp key k v.root none = (none, none)) ∨
    ∃ u m w, l = u ++ m ++ w ∧ m ≠ [] ∧ (∀ a ∈ u, cmp (key a) k > 0) ∧ (∀ a ∈ m, cmp (key a) k = 0) ∧
      (∀ a ∈ w, cmp (key a) k < 0) ∧ equalRange cmp key k v.root none = (m.head?, w.head?) := by
  rcases equalRange_spec o k v.root none (hv.list ▸ hv.sorted) with ⟨h1, h2⟩ | ⟨h1, h2⟩
  · exact .inl ⟨hv.list ▸ h2, h1⟩
  · refine .inr ?_
    rw [hv.list] at h1 h2
    have hs := hv.sorted
    -- split the sorted list
    have split : ∀ l : List α, Sorted cmp key l → ∃ u m w, l = u ++ m ++ w ∧ (∀ a ∈ u, cmp (key a) k > 0) ∧
        (∀ a ∈ m, cmp (key a) k = 0) ∧ (∀ a ∈ w, cmp (key a) k < 0) := by
      intro l
      induction l with
      | nil => exact fun _ => ⟨[], [], [], rfl, by simp, by simp, by simp⟩
      | cons a l ih =>
        intro hs
        obtain ⟨ha, hs⟩ := List.pairwise_cons.1 hs
        obtain ⟨u, m, w, e, h1, h2, h3⟩ := ih hs
        by_cases c1 : cmp (key a) k > 0
        · exact ⟨a :: u, m, w, by rw [e]; rfl, by
            intro x hx
            rcases List.mem_cons.1 hx with rfl | hx
            · exact c1
            · exact h1 x hx, h2, h3⟩
        · have hu : u = [] := by
            cases u with
            | nil => rfl
            | cons x u =>
              have hx := h1 x List.mem_cons_self
              have hax := ha x (by rw [e]; simp)
              have := o.le_lt hax hx
              omega
          subst hu
          by_cases c2 : cmp (key a) k = 0
          · exact ⟨[], a :: m, w, by rw [e]; rfl, by simp, by
              intro x hx
              rcases List.mem_cons.1 hx with rfl | hx
              · exact c2
              · exact h2 x hx, h3⟩
          · have hm : m = [] := by
              cases m with
              | nil => rfl
              | cons x m =>
                have hx := h2 x List.mem_cons_self
                have hax := ha x (by rw [e]; simp)
                have := o.trans _ _ _ hax (show 0 ≤ cmp (key x) k by omega)
                omega
            subst hm
            exact ⟨[], [], a :: w, by rw [e]; rfl, by simp, by simp, by
              intro x hx
              rcases List.mem_cons.1 hx with rfl | hx
              · omega
              · exact h3 x hx⟩
    obtain ⟨u, m, w, e, e1, e2, e3⟩ := split l hs
    refine ⟨u, m, w, e, ?_, e1, e2, e3, ?_⟩
    · rintro rfl
      obtain ⟨a, ha, ea⟩ := h1
      rw [e, List.append_nil, List.mem_append] at ha
      rcases ha with h | h
      · have := e1 a h; omega
      · have := e3 a h; omega
    · rw [h2]
      have hu0 : ∀ a ∈ u, decide (cmp (key a) k = 0) = false := fun a ha => by have := e1 a ha; simp; omega
      have hm1 : ∀ a ∈ u ++ m, decide (cmp k (key a) > 0) = false := by
        intro a ha
        have := o.asym k (key a)
        rcases List.mem_append.1 ha with h | h
        · have := e1 a h; simp; omega
        · have := e2 a h; simp; omega
      refine Prod.ext ?_ ?_
      · show List.find? _ l = _
        rw [e, List.append_assoc, find?_append_none hu0]
        cases m with
        | nil =>
          obtain ⟨a, ha, ea⟩ := h1
          rw [e, List.append_nil, List.mem_append] at ha
          rcases ha with h | h
          · have := e1 a h; omega
          · have := e3 a h; omega
        | cons x m =>
          have := e2 x List.mem_cons_self
          simp [this]
      · show Option.or (List.find? _ l) none = _
        rw [Option.or_none, e, find?_append_none hm1]
        cases w with
        | nil => rfl
        | cons x w =>
          have := (o.asym k (key x)).2 (e3 x List.mem_cons_self)
          simp [this]

/-! ### Iteration -/

/-- **C37** Going to the next (previous) element goes to the neighbour in the order. -/
theorem C37_neighbours [DecidableEq α] {v : Avl α} {u w : List α} {z : α} (hv : Contains v (u ++ z :: w)) :
    v.root.next z = w.head? ∧ v.root.prev z = u.getLast? :=
  ⟨next_spec hv.list (hv.list ▸ hv.nodup), prev_spec hv.list (hv.list ▸ hv.nodup)⟩

theorem walk_spec [DecidableEq α] {t : T α} (hn : t.list.Nodup) (n : Nat) (u w : List α) (e : t.list = u ++ w)
    (hw : w.length < n) : walk t n w.head? = w := by
  induction n generalizing u w with
  | zero => omega
  | succ n ih =>
    cases w with
    | nil => rfl
    | cons x w =>
      simp only [List.head?_cons, walk]
      rw [next_spec e hn, ih (u ++ [x]) w (by rw [e]; simp) (by simp at hw; omega)]

/-- **C37** An iteration from the least element meets every element once, in order. -/
theorem C37_walk [DecidableEq α] {v : Avl α} {l : List α} (hv : Contains v l) (n : Nat) (hn : l.length < n) :
    walk v.root n v.min = l := by
  rw [hv.min]
  exact walk_spec (hv.list ▸ hv.nodup) n [] l (by rw [hv.list]; rfl) hn

/-! ### Clearing -/

theorem unlinkLoop_add (m n : Nat) (s : T α × Path α × List α) : unlinkLoop (m + n) s = unlinkLoop n (unlinkLoop m s) := by
  induction m generalizing s with
  | zero => simp [unlinkLoop]
  | succ m ih =>
    rw [show m + 1 + n = (m + n) + 1 by omega]
    simp only [unlinkLoop]
    exact ih _

/-- Where the loop is once the subtree at the hole is taken apart. -/
def unlinkDone (p : Path α) (acc : List α) : T α × Path α × List α :=
  match p with
  | [] => (.nil, [], acc)
  | f :: p => (f.fill f.b .nil, p, acc)

theorem unlinkLoop_spec (t : T α) (p : Path α) (acc : List α) (hn : t.isNil = false) :
    ∃ vis, vis.Perm t.list ∧ unlinkLoop (2 * t.list.length - 1) (t, p, acc) = unlinkDone p (vis ++ acc) := by
  induction t generalizing p acc with
  | nil => cases hn
  | node l b a r ihl ihr =>
    have s1 : ∃ v1, v1.Perm l.list ∧ unlinkLoop (2 * l.list.length) (.node l b a r, p, acc) =
        (.node .nil b a r, p, v1 ++ acc) := by
      cases l with
      | nil => exact ⟨[], by simp [T.list], rfl⟩
      | node l1 b1 a1 r1 =>
        obtain ⟨v1, h1, h2⟩ := ihl (⟨true, b, a, r⟩ :: p) acc rfl
        refine ⟨v1, h1, ?_⟩
        have hpos : 0 < (T.node l1 b1 a1 r1).list.length := by simp [T.list]; omega
        rw [show 2 * (T.node l1 b1 a1 r1).list.length = (2 * (T.node l1 b1 a1 r1).list.length - 1) + 1 by omega]
        simp only [unlinkLoop, unlinkStep]
        rw [h2]
        rfl
    obtain ⟨v1, p1, e1⟩ := s1
    have s2 : ∃ v2, v2.Perm r.list ∧ unlinkLoop (2 * r.list.length) (.node .nil b a r, p, v1 ++ acc) =
        (.node .nil b a .nil, p, v2 ++ (v1 ++ acc)) := by
      cases r with
      | nil => exact ⟨[], by simp [T.list], rfl⟩
      | node l1 b1 a1 r1 =>
        obtain ⟨v2, h1, h2⟩ := ihr (⟨false, b, a, .nil⟩ :: p) (v1 ++ acc) rfl
        refine ⟨v2, h1, ?_⟩
        have hpos : 0 < (T.node l1 b1 a1 r1).list.length := by simp [T.list]; omega
        rw [show 2 * (T.node l1 b1 a1 r1).list.length = (2 * (T.node l1 b1 a1 r1).list.length - 1) + 1 by omega]
        simp only [unlinkLoop, unlinkStep]
        rw [h2]
        rfl
    obtain ⟨v2, p2, e2⟩ := s2
    refine ⟨a :: (v2 ++ v1), ?_, ?_⟩
    · simp only [T.list]
      have h := (List.perm_append_comm (l₁ := v2) (l₂ := v1)).trans (p1.append p2)
      exact (h.cons a).trans List.perm_middle.symm
    · have : 2 * (T.node l b a r).list.length - 1 = 2 * l.list.length + (2 * r.list.length + 1) := by
        simp [T.list]; omega
      rw [this, unlinkLoop_add, e1, unlinkLoop_add, e2]
      simp only [unlinkLoop, unlinkStep]
      cases p with
      | nil => simp [unlinkDone]
      | cons f p => simp [unlinkDone]

theorem unlinkLoop_nil (n : Nat) (p : Path α) (acc : List α) : unlinkLoop n (.nil, p, acc) = (.nil, p, acc) := by
  induction n with
  | zero => rfl
  | succ n ih => simpa only [unlinkLoop, unlinkStep] using ih

/-- **C37** Clearing visits every element exactly once and ends within two turns for each, and the tree is empty
then. -/
theorem C37_clear {v : Avl α} {l : List α} (hv : Contains v l) (turns : Nat) (ht : 2 * l.length ≤ turns) :
    (v.clear turns).1 = .empty ∧ (v.clear turns).2.Perm l ∧
    (unlinkLoop turns (v.root, [], [])).1 = .nil := by
  refine ⟨rfl, ?_⟩
  unfold Avl.clear
  rw [← hv.list] at ht ⊢
  simp only
  by_cases hn : v.root.isNil = true
  · have e := isNil_bal _ hn
    rw [e, unlinkLoop_nil]
    exact ⟨by simp [T.list], rfl⟩
  · obtain ⟨vis, hp, he⟩ := unlinkLoop_spec v.root [] [] (by simpa using hn)
    rw [show turns = (2 * v.root.list.length - 1) + (turns - (2 * v.root.list.length - 1)) by omega, unlinkLoop_add, he]
    simp only [unlinkDone]
    rw [unlinkLoop_nil]
    exact ⟨by simpa using hp, rfl⟩

/-! ### Height -/

/-- The number of nodes on the longest way down -/
def T.height : T α → Nat
  | .nil => 0
  | .node l _ _ r => max l.height r.height + 1

theorem bal_eq_height {t : T α} {h : Nat} (bt : Bal t h) : t.height = h := by
  induction t generalizing h with
  | nil => exact bt.symm
  | node l b a r ihl ihr =>
    obtain ⟨hl, hr, bl, br, _, _, _, e⟩ := bt
    rw [e, ← ihl bl, ← ihr br]
    rfl

/-- **C37** The way to an element has at most twice the logarithm of the number of elements. -/
theorem C37_height {v : Avl α} {l : List α} (hv : Holds cmp key v l) : 2 ^ (v.root.height / 2) ≤ l.length + 1 := by
  obtain ⟨h, hb⟩ := hv.bal
  rw [bal_eq_height hb, ← hv.list]
  exact bal_height hb

end

/-! ### Histories -/

inductive Op (α : Type) where
  | insert (z : α)
  | insertUniq (z : α)
  | remove (z : α)
  | clear

def Avl.step [DecidableEq α] (cmp : κ → κ → Int) (key : α → κ) (v : Avl α) : Op α → Option (Avl α)
  | .insert z => v.insert cmp key z
  | .insertUniq z => (v.insertUniq cmp key z).map (·.1)
  | .remove z => v.remove z
  | .clear => some (v.clear (2 * v.size)).1

def Avl.run [DecidableEq α] (cmp : κ → κ → Int) (key : α → κ) (v : Avl α) : List (Op α) → Option (Avl α)
  | [] => some v
  | o :: os =>
    match v.step cmp key o with
    | none => none
    | some v' => v'.run cmp key os

/-- Specification; `none` is misuse: a node is inserted twice, or removed while not in the tree. -/
def specStep [DecidableEq α] (cmp : κ → κ → Int) (key : α → κ) (l : List α) : Op α → Option (List α)
  | .insert z => if z ∈ l then none else some (specInsert cmp key z l)
  | .insertUniq z => if l.any (fun a => decide (cmp (key a) (key z) = 0)) then some l else some (specInsert cmp key z l)
  | .remove z => if z ∈ l then some (l.erase z) else none
  | .clear => some []

def specRun [DecidableEq α] (cmp : κ → κ → Int) (key : α → κ) (l : List α) : List (Op α) → Option (List α)
  | [] => some l
  | o :: os =>
    match specStep cmp key l o with
    | none => none
    | some l' => specRun cmp key l' os

/-- **C37** After any history the tree holds what the sorted list holds, and no operation has panicked. -/
theorem C37_history [DecidableEq α] {cmp : κ → κ → Int} {key : α → κ} (o : Order cmp) (ops : List (Op α)) {v : Avl α}
    {l l' : List α} (hv : Holds cmp key v l) (hs : specRun cmp key l ops = some l') :
    ∃ v', v.run cmp key ops = some v' ∧ Holds cmp key v' l' := by
  induction ops generalizing v l with
  | nil =>
    simp only [specRun, Option.some.injEq] at hs
    subst hs
    exact ⟨v, rfl, hv⟩
  | cons op ops ih =>
    have key' : ∀ l1, specStep cmp key l op = some l1 → ∃ v1, v.step cmp key op = some v1 ∧ Holds cmp key v1 l1 := by
      intro l1 h1
      cases op with
      | insert z =>
        simp only [specStep] at h1
        split at h1
        · cases h1
        · rename_i hz
          simp only [Option.some.injEq] at h1
          subst h1
          exact C37_insert o hv hz
      | insertUniq z =>
        simp only [specStep] at h1
        simp only [Avl.step]
        rcases C37_insert_unique o hv z with ⟨⟨a, ha, ea⟩, e⟩ | ⟨hall, v1, e, h⟩
        · rw [if_pos (List.any_eq_true.2 ⟨a, ha, by simpa using ea⟩)] at h1
          simp only [Option.some.injEq] at h1
          subst h1
          rw [e]
          exact ⟨v, rfl, hv⟩
        · rw [if_neg (by
            intro h
            obtain ⟨a, ha, ea⟩ := List.any_eq_true.1 h
            exact hall a ha (by simpa using ea))] at h1
          simp only [Option.some.injEq] at h1
          subst h1
          rw [e]
          exact ⟨v1, rfl, h⟩
      | remove z =>
        simp only [specStep] at h1
        split at h1
        · rename_i hz
          simp only [Option.some.injEq] at h1
          subst h1
          exact C37_remove hv hz
        · cases h1
      | clear =>
        simp only [specStep, Option.some.injEq] at h1
        subst h1
        refine ⟨_, rfl, ?_⟩
        rw [(C37_clear hv.contains _ (by rw [hv.size]; omega)).1]
        exact Holds_empty
    simp only [specRun] at hs
    cases e : specStep cmp key l op with
    | none => rw [e] at hs; cases hs
    | some l1 =>
      rw [e] at hs
      obtain ⟨v1, e1, h1⟩ := key' l1 e
      simp only [Avl.run]
      rw [e1]
      exact ih h1 hs

/-! ### The comparison of offsets -/

/-- spxmap.c:72-78 `voff_compare`, for offsets whose difference does not overflow -/
def voffCompare (x y : Int) : Int := y - x

theorem voff_order : Order voffCompare :=
  ⟨fun x y => by unfold voffCompare; omega, fun x y z => by unfold voffCompare; omega⟩

/-! ### Concrete case -/

/-- Pairs of key and identity; ten insertions and two removals, with equal keys. -/
example : specRun voffCompare (Prod.fst : Int × Nat → Int) []
    [.insert (5, 0), .insert (3, 1), .insert (8, 2), .insert (5, 3), .insertUniq (8, 4), .insertUniq (9, 5), .remove (5, 0)] =
    some [(3, 1), (5, 3), (8, 2), (9, 5)] := by decide

example : ∃ v', (Avl.empty : Avl (Int × Nat)).run voffCompare Prod.fst
    [.insert (5, 0), .insert (3, 1), .insert (8, 2), .insert (5, 3), .insertUniq (8, 4), .insertUniq (9, 5), .remove (5, 0)] =
    some v' ∧ Holds voffCompare Prod.fst v' [(3, 1), (5, 3), (8, 2), (9, 5)] :=
  C37_history voff_order _ Holds_empty (by decide)

end Silofs.Avl
