/-
The radix tree: descending, creating the path, and seeking for data or holes.
-/
import Verif.Props.FileLeaf

set_option linter.unusedSimpArgs false
set_option linter.unusedVariables false

namespace Silofs.File

theorem cover_two : cover 2 = 67108864 := by decide

/-- A bottom node lies below the root. -/
theorem WF.below {x : File} (h : WF x) {off : Nat} (hn : x.node 2 (off / cover 2) = true) :
    2 ≤ x.root ∧ x.root ≤ 5 ∧ off < cover x.root := by
  obtain ⟨_, h2, h3, _⟩ := h.node _ _ hn
  have hr : 2 ≤ x.root ∧ x.root ≤ 5 := by
    rcases h.root with h0 | ⟨h1, h1', _⟩
    · omega
    · exact ⟨h1, h1'⟩
  refine ⟨hr.1, hr.2, Nat.lt_of_lt_of_le ?_ h3⟩
  rw [Nat.add_one_mul]
  have := Nat.div_add_mod off (cover 2)
  have := Nat.mod_lt off (cover_pos 2)
  rw [Nat.mul_comm (off / cover 2)]
  omega

/-- All nodes on the way to an existing bottom node exist. -/
theorem WF.climb {x : File} (h : WF x) {off : Nat} (hn : x.node 2 (off / cover 2) = true) :
    ∀ t, 2 + t ≤ x.root → x.node (2 + t) (off / cover (2 + t)) = true
  | 0, _ => hn
  | t + 1, ht => by
    have ih := WF.climb h hn t (by omega)
    have := (h.node _ _ ih).2.2.2 (by omega)
    rwa [div_cover_succ (by omega)] at this

theorem WF.climb' {x : File} (h : WF x) {off : Nat} (hn : x.node 2 (off / cover 2) = true) {t : Nat}
    (h2 : 2 ≤ t) (ht : t ≤ x.root) : x.node t (off / cover t) = true := by
  have := h.climb hn (t - 2) (by omega)
  rwa [show 2 + (t - 2) = t by omega] at this

/-- A mapped tree leaf hangs below an existing bottom node. -/
theorem WF.leaf_node {x : File} (h : WF x) {p b : Nat} (hl : x.leaf (.tr (p / 65536)) = some b) :
    x.node 2 (p / cover 2) = true := by
  have := h.leaf _ _ hl
  rw [← cover_one, div_cover_succ (h := 1) (by omega)] at this
  exact this

theorem descend_wp {s : St} (h : Ok s) {f off : Nat} : ∀ (t i : Nat), 2 ≤ t → t ≤ (s.file f).root →
    i = off / cover t → (s.file f).node t i = true →
    wp (descend f off t i) (fun r s' => s' = s ∧ match r with
      | none => (s.file f).node 2 (off / cover 2) = false
      | some j => j = off / cover 2 ∧ (s.file f).node 2 j = true) (fun s' => s' = s) s
  | 0, _, h2, _, _, _ => by omega
  | t + 1, i, h2, hr, hi, hn => by
    have hr5 : (s.file f).root ≤ 5 := by
      rcases (h.wf f).root with h0 | ⟨_, h1, _⟩ <;> omega
    unfold descend
    split
    · have ht : t + 1 = 2 := by omega
      rw [ht] at hi hn
      exact wp_pure ⟨rfl, hi, hn⟩
    · refine wp_bind (wp_getS ?_)
      have hc := (C06_slot (h := t + 1) (i := i) (off := off) (by omega) (by omega) hi.symm).2
      rw [Nat.add_sub_cancel] at hc
      rw [hc]
      simp only
      split
      · rename_i hnode
        exact wp_bind (wp_chk (descend_wp h t _ (by omega) (by omega) rfl hnode) rfl)
      · rename_i hnode
        refine wp_pure ⟨rfl, ?_⟩
        simp only
        by_cases hb : (s.file f).node 2 (off / cover 2) = true
        · exact absurd ((h.wf f).climb' hb (t := t) (by omega) (by omega)) hnode
        · simpa using hb

/-- Descending finds the bottom node of an offset exactly if it exists. -/
theorem stageByTree_wp {s : St} (h : Ok s) (f off : Nat) :
    wp (stageByTree f off) (fun r s' => s' = s ∧ match r with
      | none => (s.file f).node 2 (off / cover 2) = false
      | some j => j = off / cover 2 ∧ (s.file f).node 2 j = true) (fun s' => s' = s) s := by
  unfold stageByTree
  refine wp_bind (wp_getS ?_)
  split
  · rename_i hr
    refine wp_pure ⟨rfl, ?_⟩
    simp only
    by_cases hb : (s.file f).node 2 (off / cover 2) = true
    · have := (h.wf f).below hb; omega
    · simpa using hb
  · rename_i hr
    rcases (h.wf f).root with h0 | ⟨r2, r5, rn⟩
    · omega
    refine wp_bind (wp_chk ?_ rfl)
    rw [spanOf_cover r2 r5]
    split
    · rename_i hlt
      exact descend_wp h _ _ r2 (Nat.le_refl _) (Nat.div_eq_of_lt hlt).symm rn
    · rename_i hlt
      refine wp_pure ⟨rfl, ?_⟩
      simp only
      by_cases hb : (s.file f).node 2 (off / cover 2) = true
      · have := (h.wf f).below hb; omega
      · simpa using hb

/-! ### Creating the path -/

/-- A change of the tree nodes that keeps the shape rules changes no content. -/
theorem tree_rel {s : St} (h : Ok s) {f : Nat} {x : File} (hl : x.leaf = (s.file f).leaf)
    (ht : x.ft2 = (s.file f).ft2) (hsz : x.size = (s.file f).size) (hsp : x.span = (s.file f).span)
    (hi : x.iblk = (s.file f).iblk) (hw : WF x) (f1 a : Nat) (g : Nat → Nat) : Rel f1 a a g s (s.setFile f x) := by
  have hleaf : ∀ f' k, ((s.setFile f x).file f').leaf k = (s.file f').leaf k := by
    intro f' k
    by_cases hf : f' = f
    · subst hf; rw [setFile_same, hl]
    · rw [setFile_other _ _ hf]
  have hmeta : ∀ f', ((s.setFile f x).file f').ft2 = (s.file f').ft2 ∧
      ((s.setFile f x).file f').size = (s.file f').size ∧
      ((s.setFile f x).file f').span = (s.file f').span := by
    intro f'
    by_cases hf : f' = f
    · subst hf; rw [setFile_same]; exact ⟨ht, hsz, hsp⟩
    · rw [setFile_other _ _ hf]; exact ⟨rfl, rfl, rfl⟩
  refine ⟨⟨h.late, fun f' => ?_, fun b => ?_, h.shw, fun f' k b hlf => ?_,
    h.cnt_set rfl (by unfold Counted; rw [hl, hi]; exact h.cnt f)⟩, fun f' p => ?_,
    fun f' => (hmeta f').1, fun f' => (hmeta f').2.1, fun f' => (hmeta f').2.2⟩
  · by_cases hf : f' = f
    · subst hf; rw [setFile_same]; exact hw
    · rw [setFile_other _ _ hf]; exact h.wf f'
  · obtain ⟨L, hL, hlen⟩ := h.own b
    exact ⟨L, ⟨hL.1, fun f' k => by rw [hleaf]; exact hL.2 f' k⟩, hlen⟩
  · rw [hleaf] at hlf; exact h.head f' k b hlf
  · rw [if_neg (by omega)]
    unfold byteAt byteIn
    rw [(hmeta f').1, hleaf, setFile_blk]

theorem setNode_node (x : File) (h i : Nat) (v : Bool) (h' i' : Nat) :
    (x.setNode h i v).node h' i' = if h' = h ∧ i' = i then v else x.node h' i' := rfl

/-- A child of an existing node is added. -/
theorem WF.addNode {x : File} (h : WF x) {t i : Nat} (h2 : 2 ≤ t) (hr : t < x.root)
    (hp : x.node (t + 1) (i / 1024) = true) : WF (x.setNode t i true) := by
  refine ⟨?_, fun t' i' hn => ?_, fun j b hl => ?_⟩
  · rcases h.root with h0 | ⟨r2, r5, rn⟩
    · exact .inl h0
    · refine .inr ⟨r2, r5, ?_⟩
      rw [setNode_node]
      split
      · rfl
      · exact rn
  · rw [setNode_node] at hn
    split at hn
    · rename_i he
      obtain ⟨rfl, rfl⟩ := he
      obtain ⟨_, q2, q3, _⟩ := h.node _ _ hp
      refine ⟨h2, Nat.le_of_lt hr, Nat.le_trans ?_ q3, fun _ => ?_⟩
      · rw [cover_succ (by omega), ← Nat.mul_assoc]
        exact Nat.mul_le_mul_right _ (by omega)
      · rw [setNode_node]
        split
        · rfl
        · exact hp
    · obtain ⟨q1, q2, q3, q4⟩ := h.node _ _ hn
      refine ⟨q1, q2, q3, fun hlt => ?_⟩
      rw [setNode_node]
      split
      · rfl
      · exact q4 hlt
  · rw [setNode_node]
    split
    · rfl
    · exact h.leaf j b hl

/-- The tree grows by one level above the old root. -/
theorem WF.grow {x : File} (h : WF x) {r : Nat} (hr : r = (if x.root = 0 then 1 else x.root) + 1)
    (h5 : r ≤ 5) : WF { x.setNode r 0 true with root := r } := by
  have hr2 : 2 ≤ r := by
    split at hr <;> omega
  refine ⟨.inr ⟨hr2, h5, ?_⟩, fun t i hn => ?_, fun j b hl => ?_⟩
  · show (if r = r ∧ 0 = 0 then true else x.node r 0) = true
    simp
  · have hn' : (if t = r ∧ i = 0 then true else x.node t i) = true := hn
    split at hn'
    · rename_i he
      obtain ⟨rfl, rfl⟩ := he
      exact ⟨hr2, Nat.le_refl _, by simp, fun hlt => absurd hlt (Nat.lt_irrefl _)⟩
    · obtain ⟨q1, q2, q3, q4⟩ := h.node _ _ hn'
      have hr0 : x.root ≠ 0 := by omega
      rw [if_neg hr0] at hr
      have hcs : cover r = 1024 * cover x.root := by rw [hr]; exact cover_succ (by omega)
      refine ⟨q1, by show t ≤ r; omega, ?_, fun hlt => ?_⟩
      · show (i + 1) * cover t ≤ cover r
        omega
      · show (if t + 1 = r ∧ i / 1024 = 0 then true else x.node (t + 1) (i / 1024)) = true
        by_cases ht : t < x.root
        · rw [q4 ht]; simp
        · have : t = x.root := by omega
          subst this
          have hi : i = 0 := by
            have hc := cover_pos x.root
            rcases Nat.eq_zero_or_pos i with h0 | h1
            · exact h0
            · have : 2 * cover x.root ≤ (i + 1) * cover x.root := Nat.mul_le_mul_right _ (by omega)
              omega
          subst hi
          rw [if_pos ⟨hr.symm, by simp⟩]
  · show (if 2 = r ∧ j / 1024 = 0 then true else x.node 2 (j / 1024)) = true
    split
    · rfl
    · exact h.leaf j b hl

/-- Positions of the two cursors are kept. -/
def PosSame (s s' : St) : Prop := s'.pos = s.pos ∧ s'.pos2 = s.pos2

theorem PosSame.refl (s : St) : PosSame s s := ⟨rfl, rfl⟩
theorem PosSame.trans {s t u : St} (h1 : PosSame s t) (h2 : PosSame t u) : PosSame s u :=
  ⟨h2.1.trans h1.1, h2.2.trans h1.2⟩
theorem Shape.posSame {s s' : St} (h : Shape s s') : PosSame s s' := ⟨h.pos, h.pos2⟩

theorem spineLoop_wp {f want : Nat} (hw : want ≤ 5) (hw2 : 2 ≤ want) (f1 a : Nat) (g : Nat → Nat) :
    ∀ (n : Nat) (s : St), Ok s → want - (if (s.file f).root = 0 then 1 else (s.file f).root) ≤ n →
    wp (spineLoop f want n)
      (fun _ s' => Rel f1 a a g s s' ∧ PosSame s s' ∧ want ≤ (s'.file f).root)
      (fun s' => Rel f1 a a g s s' ∧ PosSame s s') s
  | 0, s, h, hn => by
    unfold spineLoop
    refine wp_pure ⟨Rel.refl _ _ _ h, PosSame.refl _, ?_⟩
    split at hn <;> omega
  | n + 1, s, h, hn => by
    unfold spineLoop
    refine wp_bind (wp_getS ?_)
    simp only
    by_cases hlt : (if (s.file f).root = 0 then 1 else (s.file f).root) < want
    · rw [if_pos hlt]
      have herr : Rel f1 a a g s s ∧ PosSame s s := ⟨Rel.refl _ _ _ h, PosSame.refl _⟩
      refine wp_bind (wp_chk ?_ herr)
      refine wp_bind (wp_modS ?_)
      have hrel := tree_rel h (f := f)
        (x := { (s.file f).setNode ((if (s.file f).root = 0 then 1 else (s.file f).root) + 1) 0 true with
          root := (if (s.file f).root = 0 then 1 else (s.file f).root) + 1 }) rfl rfl rfl rfl rfl
        ((h.wf f).grow rfl (by omega)) f1 a g
      refine wp_mono (spineLoop_wp hw hw2 f1 a g n _ hrel.ok ?_) ?_ ?_
      · rw [setFile_same]
        simp only [Nat.add_eq_zero_iff, Nat.one_ne_zero, and_false, if_false]
        omega
      · rintro _ s' ⟨h1, h2, h3⟩
        exact ⟨hrel.trans h1 (Nat.le_refl _) (Nat.le_refl _), h2, h3⟩
      · rintro s' ⟨h1, h2⟩
        exact ⟨hrel.trans h1 (Nat.le_refl _) (Nat.le_refl _), h2⟩
    · rw [if_neg hlt]
      refine wp_pure ⟨Rel.refl _ _ _ h, PosSame.refl _, ?_⟩
      split at hlt <;> omega

theorem requirePath_wp {f off : Nat} (f1 a : Nat) (g : Nat → Nat) :
    ∀ (t i : Nat) (s : St), Ok s → 2 ≤ t → t ≤ (s.file f).root → i = off / cover t →
    (s.file f).node t i = true →
    wp (requirePath f off t i)
      (fun j s' => Rel f1 a a g s s' ∧ PosSame s s' ∧ j = off / cover 2 ∧ (s'.file f).node 2 j = true)
      (fun s' => Rel f1 a a g s s' ∧ PosSame s s') s
  | 0, _, _, _, h2, _, _, _ => by omega
  | t + 1, i, s, h, h2, hr, hi, hn => by
    have hr5 : (s.file f).root ≤ 5 := by
      rcases (h.wf f).root with h0 | ⟨_, h1, _⟩ <;> omega
    have herr : Rel f1 a a g s s ∧ PosSame s s := ⟨Rel.refl _ _ _ h, PosSame.refl _⟩
    unfold requirePath
    split
    · have ht : t + 1 = 2 := by omega
      rw [ht] at hi hn
      exact wp_pure ⟨herr.1, herr.2, hi, hn⟩
    · refine wp_bind (wp_getS ?_)
      have hc := (C06_slot (h := t + 1) (i := i) (off := off) (by omega) (by omega) hi.symm).2
      rw [Nat.add_sub_cancel] at hc
      rw [hc]
      simp only
      refine wp_bind (wp_chk ?_ herr)
      split
      · rename_i hnode
        exact requirePath_wp f1 a g t _ s h (by omega) (by omega) rfl hnode
      · refine wp_bind (wp_modS ?_)
        have hrel := tree_rel h (f := f) (x := (s.file f).setNode t (off / cover t) true) rfl rfl rfl rfl rfl
          ((h.wf f).addNode (by omega) (by omega)
            (by rw [div_cover_succ (by omega), ← hi]; exact hn)) f1 a g
        refine wp_mono (requirePath_wp f1 a g t _ _ hrel.ok (by omega) ?_ rfl ?_) ?_ ?_
        · rw [setFile_same]; show t ≤ (s.file f).root; omega
        · rw [setFile_same, setNode_node]; simp
        · rintro j s' ⟨h1, h2, h3⟩
          exact ⟨hrel.trans h1 (Nat.le_refl _) (Nat.le_refl _), h2, h3⟩
        · rintro s' ⟨h1, h2⟩
          exact ⟨hrel.trans h1 (Nat.le_refl _) (Nat.le_refl _), h2⟩

/-- The bottom node for an offset exists afterwards; no content changes. -/
theorem requireTree_wp {s : St} (h : Ok s) {f off : Nat} (ho : off ≤ sizeMax) (f1 a : Nat)
    (g : Nat → Nat) :
    wp (requireTree f off)
      (fun j s' => Rel f1 a a g s s' ∧ PosSame s s' ∧ j = off / cover 2 ∧ (s'.file f).node 2 j = true)
      (fun s' => Rel f1 a a g s s' ∧ PosSame s s') s := by
  obtain ⟨t2, t5, tc, _⟩ := C06_height ho
  have herr : Rel f1 a a g s s ∧ PosSame s s := ⟨Rel.refl _ _ _ h, PosSame.refl _⟩
  have hspine : wp (spineLoop f (treeHeight off) (treeHeight off))
      (fun _ s' => Rel f1 a a g s s' ∧ PosSame s s' ∧ treeHeight off ≤ (s'.file f).root)
      (fun s' => Rel f1 a a g s s' ∧ PosSame s s') s := spineLoop_wp t5 t2 f1 a g _ s h (by omega)
  have hcs : wp (createSpine f off)
      (fun _ s' => Rel f1 a a g s s' ∧ PosSame s s' ∧ treeHeight off ≤ (s'.file f).root)
      (fun s' => Rel f1 a a g s s' ∧ PosSame s s') s := by
    unfold createSpine
    refine wp_bind (wp_getS ?_)
    split
    · exact hspine
    · exact wp_bind (wp_chk hspine herr)
  unfold requireTree
  refine wp_bind (wp_mono hcs ?_ (fun _ h => h))
  rintro _ s1 ⟨h1, h2, h3⟩
  refine wp_bind (wp_chk (wp_bind (wp_getS ?_)) ⟨h1, h2⟩)
  rcases (h1.ok.wf f).root with h0 | ⟨r2, r5, rn⟩
  · omega
  have hlt : off < cover (s1.file f).root := by
    refine Nat.lt_of_lt_of_le tc ?_
    unfold cover
    exact Nat.mul_le_mul_left _ (Nat.pow_le_pow_right (by omega) (by omega))
  refine wp_mono (requirePath_wp f1 a g _ 0 s1 h1.ok r2 (Nat.le_refl _) (Nat.div_eq_of_lt hlt).symm rn) ?_ ?_
  · rintro j s' ⟨q1, q2, q3⟩
    exact ⟨h1.trans q1 (Nat.le_refl _) (Nat.le_refl _), h2.trans q2, q3⟩
  · rintro s' ⟨q1, q2⟩
    exact ⟨h1.trans q1 (Nat.le_refl _) (Nat.le_refl _), h2.trans q2⟩

theorem bottomKey_eq {j off : Nat} (hj : j = off / cover 2) : bottomKey j off = .tr (off / 65536) := by
  unfold bottomKey
  have := (C06_slot (h := 2) (i := j) (off := off) (by omega) (by omega) hj.symm).2
  rw [this]; rfl

/-! ### Seeking -/

/-- What a tree seek looks for at position `p`: a mapped leaf, or an unmapped
leaf slot of an existing bottom node. -/
def Found (x : File) (hole : Bool) (p : Nat) : Prop :=
  hole = (x.leaf (.tr (p / 65536))).isNone ∧ x.node 2 (p / cover 2) = true

theorem slotPos_eq {h i sl : Nat} (h2 : 2 ≤ h) (h5 : h ≤ 5) :
    slotPos h i sl = childIdx i sl * cover (h - 1) ∧
    slotNextPos h i sl = (childIdx i sl + 1) * cover (h - 1) := by
  have hc : cover h = 1024 * cover (h - 1) := by
    have := cover_succ (h := h - 1) (by omega)
    rwa [show h - 1 + 1 = h by omega] at this
  have e1 : slotPos h i sl = childIdx i sl * cover (h - 1) := by
    obtain ⟨t, ht, htp⟩ := cover_dvd (h - 1)
    unfold slotPos nbps childIdx
    rw [spanOf_cover h2 h5, hc, Nat.mul_div_cancel_left _ (by omega : 0 < 1024)]
    rw [offAlign_eq, ← Nat.mul_assoc, ← Nat.add_mul]
    rw [ht, Nat.mul_left_comm, Nat.mul_mod_right]; omega
  refine ⟨e1, ?_⟩
  unfold slotNextPos nbps
  rw [e1, spanOf_cover h2 h5, hc, Nat.mul_div_cancel_left _ (by omega : 0 < 1024), Nat.add_one_mul]

/-- Result of a seek that started at `pos` and looked no further than `top`. -/
def SeekPost (s : St) (f : Nat) (hole : Bool) (end_ top : Nat) (r : Option (Nat × Nat)) (s' : St) : Prop :=
  ∃ q, s' = { s with pos := q } ∧ s.pos ≤ q ∧ q ≤ end_ ∧
    match r with
    | some (j, slot) => q < end_ ∧ j = q / cover 2 ∧ childIdx j slot = q / 65536 ∧
        Found (s.file f) hole q ∧ ∀ p, s.pos ≤ p → p < q → ¬ Found (s.file f) hole p
    | none => (s.pos < end_ → q ≤ top) ∧
        ∀ p, s.pos ≤ p → p < end_ → p < top → ¬ Found (s.file f) hole p

theorem SeekPost.none {s : St} {f : Nat} {hole : Bool} {end_ top q : Nat} (h1 : s.pos ≤ q)
    (h2 : q ≤ end_) (h3 : s.pos < end_ → q ≤ top)
    (h4 : ∀ p, s.pos ≤ p → p < end_ → p < top → ¬ Found (s.file f) hole p) :
    SeekPost s f hole end_ top Option.none { s with pos := q } :=
  ⟨q, rfl, h1, h2, h3, h4⟩

theorem SeekPost.some {s : St} {f : Nat} {hole : Bool} {end_ top q j slot : Nat} (h1 : s.pos ≤ q)
    (h2 : q < end_) (h3 : j = q / cover 2) (h4 : childIdx j slot = q / 65536)
    (h5 : Found (s.file f) hole q) (h6 : ∀ p, s.pos ≤ p → p < q → ¬ Found (s.file f) hole p) :
    SeekPost s f hole end_ top (Option.some (j, slot)) { s with pos := q } :=
  ⟨q, rfl, h1, Nat.le_of_lt h2, h2, h3, h4, h5, h6⟩

/-- After a failed seek only the cursor has moved. -/
def SeekErr (s s' : St) : Prop := ∃ q, s' = { s with pos := q }

theorem SeekPost.step {s : St} {f : Nat} {hole : Bool} {end_ top q : Nat} {r : Option (Nat × Nat)} {s' : St}
    (h : SeekPost { s with pos := q } f hole end_ top r s') (hq : s.pos ≤ q)
    (hqt : s.pos < end_ → q < end_ ∨ q ≤ top)
    (hno : ∀ p, s.pos ≤ p → p < q → ¬ Found (s.file f) hole p) : SeekPost s f hole end_ top r s' := by
  obtain ⟨q', e, h1, h2, h3⟩ := h
  refine ⟨q', e, Nat.le_trans hq h1, h2, ?_⟩
  rcases r with _ | ⟨j, slot⟩
  · refine ⟨fun hlt => ?_, fun p p1 p2 p3 => ?_⟩
    · rcases hqt hlt with hh | hh
      · exact h3.1 hh
      · by_cases hqe : q < end_
        · exact h3.1 hqe
        · have : (q : Nat) ≤ q' := h1
          omega
    · by_cases hp : p < q
      · exact hno p p1 hp
      · exact h3.2 p (by show q ≤ p; omega) p2 p3
  · obtain ⟨a1, a2, a3, a4, a5⟩ := h3
    refine ⟨a1, a2, a3, a4, fun p p1 p2 => ?_⟩
    by_cases hp : p < q
    · exact hno p p1 hp
    · exact a5 p (by show q ≤ p; omega) p2

theorem seekLeaves_wp {f : Nat} {hole : Bool} {end_ j : Nat} :
    ∀ (n slot : Nat) (s : St), slot + n = 1024 → (s.file f).node 2 j = true → s.pos ≤ end_ →
    s.pos < (j + 1) * 67108864 → s.pos / 65536 ≤ j * 1024 + slot →
    (∀ p, s.pos ≤ p → p < (j * 1024 + slot) * 65536 → ¬ Found (s.file f) hole p) →
    wp (seekLeaves f hole end_ j n slot)
      (fun r s' => SeekPost s f hole end_ ((j + 1) * 67108864) r s') (SeekErr s) s
  | 0, slot, s, hs, hn, he, hp, hpl, hno => by
    unfold seekLeaves
    have htop : (j * 1024 + slot) * 65536 = (j + 1) * 67108864 := by omega
    rw [htop] at hno
    exact wp_pure (SeekPost.none (q := s.pos) (Nat.le_refl _) he (fun _ => Nat.le_of_lt hp)
      (fun p p1 p2 p3 => hno p p1 p3))
  | n + 1, slot, s, hs, hn, he, hp, hpl, hno => by
    unfold seekLeaves
    refine wp_bind (wp_modS (wp_bind (wp_getS ?_)))
    have e1 := (slotPos_eq (h := 2) (i := j) (sl := slot) (by omega) (by omega)).1
    rw [show (2 : Nat) - 1 = 1 from rfl, cover_one] at e1
    unfold childIdx at e1
    rw [e1]
    generalize hq : advTo s.pos end_ ((j * 1024 + slot) * 65536) = q
    unfold advTo at hq
    simp only
    split
    · rename_i hlt
      have hq65 : q / 65536 = j * 1024 + slot := by omega
      have hq2 : q / cover 2 = j := by rw [cover_two]; omega
      split
      · rename_i hf
        refine wp_pure (SeekPost.some (q := q) (by omega) hlt hq2.symm (by unfold childIdx; omega) ?_ ?_)
        · refine ⟨?_, by rw [hq2]; exact hn⟩
          rw [hq65]; exact hf
        · intro p p1 p2; exact hno p p1 (by omega)
      · rename_i hf
        refine wp_mono (seekLeaves_wp n (slot + 1) { s with pos := q } (by omega) hn (Nat.le_of_lt hlt)
          (by show q < _; omega) (by show q / 65536 ≤ _; omega) ?_) ?_ ?_
        · intro p p1 p2 hfd
          have p1' : q ≤ p := p1
          have : p / 65536 = j * 1024 + slot := by omega
          refine hf ?_
          have := hfd.1
          rw [‹p / 65536 = _›] at this
          exact this
        · intro r s' hpost
          refine hpost.step (by omega) (by omega) ?_
          intro p p1 p2; exact hno p p1 (by omega)
        · rintro s' ⟨q', e⟩; exact ⟨q', e⟩
    · rename_i hge
      refine wp_pure (SeekPost.none (q := q) (by omega) (by omega) (fun _ => by omega) ?_)
      intro p p1 p2 p3
      have : p < (j * 1024 + slot) * 65536 := by
        clear p3 hp hpl hs hno e1
        omega
      exact hno p p1 this

/-- Contract of a seek below node `i` of height `t`. -/
def SeekSpec (f : Nat) (hole : Bool) (end_ t : Nat) (m : Nat → M (Option (Nat × Nat))) : Prop :=
  ∀ (i : Nat) (s : St), WF (s.file f) → t ≤ (s.file f).root → (s.file f).node t i = true → s.pos ≤ end_ →
    (s.pos < end_ → i * cover t ≤ s.pos ∧ s.pos < (i + 1) * cover t) →
    wp (m i) (fun r s' => SeekPost s f hole end_ ((i + 1) * cover t) r s') (SeekErr s) s

theorem seekChilds_wp {f : Nat} {hole : Bool} {end_ t i : Nat} {rec : Nat → M (Option (Nat × Nat))}
    (ht2 : 2 ≤ t) (ht4 : t ≤ 4) (hrec : SeekSpec f hole end_ t rec) :
    ∀ (n slot : Nat) (s : St), slot + n = 1024 → WF (s.file f) → t < (s.file f).root → s.pos ≤ end_ →
    (s.pos < end_ → (i * 1024 + slot) * cover t ≤ s.pos ∧ s.pos < (i * 1024 + slot + 1) * cover t ∧
      s.pos ≤ (i + 1) * cover (t + 1)) →
    wp (seekChilds f end_ rec (t + 1) i n slot)
      (fun r s' => SeekPost s f hole end_ ((i + 1) * cover (t + 1)) r s') (SeekErr s) s
  | 0, slot, s, hs, hw, hr, he, hp => by
    have htop : (i + 1) * cover (t + 1) = (i * 1024 + 1024) * cover t := by
      rw [cover_succ (by omega), ← Nat.mul_assoc, Nat.add_mul, Nat.one_mul]
    unfold seekChilds
    refine wp_pure (SeekPost.none (q := s.pos) (Nat.le_refl _) he (fun hlt => (hp hlt).2.2)
      (fun p p1 p2 p3 => ?_))
    have := hp (by omega)
    rw [show slot = 1024 by omega] at this
    omega
  | n + 1, slot, s, hs, hw, hr, he, hp => by
    have htop : (i + 1) * cover (t + 1) = (i * 1024 + 1024) * cover t := by
      rw [cover_succ (by omega), ← Nat.mul_assoc, Nat.add_mul, Nat.one_mul]
    have hle : (i * 1024 + slot + 1) * cover t ≤ (i + 1) * cover (t + 1) := by
      rw [htop]; exact Nat.mul_le_mul_right _ (by omega)
    have hstep : (i * 1024 + (slot + 1) + 1) * cover t = (i * 1024 + slot + 1) * cover t + cover t := by
      rw [← Nat.add_one_mul, show i * 1024 + (slot + 1) + 1 = i * 1024 + slot + 1 + 1 by omega]
    have hcp := cover_pos t
    have enext := (slotPos_eq (h := t + 1) (i := i) (sl := slot) (by omega) (by omega)).2
    rw [Nat.add_sub_cancel] at enext
    unfold childIdx at enext
    -- the tail of the loop, once the present child is known to hold nothing
    have tail : ∀ q, s.pos ≤ q → q ≤ end_ → (s.pos < end_ → q ≤ (i * 1024 + slot + 1) * cover t) →
        (∀ p, s.pos ≤ p → p < end_ → p < (i * 1024 + slot + 1) * cover t → ¬ Found (s.file f) hole p) →
        wp (do
          advance end_ (slotNextPos (t + 1) i slot)
          seekChilds f end_ rec (t + 1) i n (slot + 1))
          (fun r s' => SeekPost s f hole end_ ((i + 1) * cover (t + 1)) r s') (SeekErr s)
          { s with pos := q } := by
      intro q q1 q2 q3 q4
      refine wp_bind (wp_modS ?_)
      rw [enext]
      generalize hq : advTo q end_ ((i * 1024 + slot + 1) * cover t) = q'
      unfold advTo at hq
      refine wp_mono (seekChilds_wp ht2 ht4 hrec n (slot + 1) { s with pos := q' } (by omega) hw hr
        (by show q' ≤ _; omega) ?_) ?_ ?_
      · intro hlt
        have hlt' : q' < end_ := hlt
        rw [show i * 1024 + (slot + 1) = i * 1024 + slot + 1 by omega] at hstep ⊢
        by_cases hse : s.pos < end_
        · have := q3 hse
          refine ⟨?_, ?_, ?_⟩
          · show _ ≤ q'; omega
          · show q' < _; omega
          · show q' ≤ _; omega
        · omega
      · intro r s' hpost
        refine hpost.step (by omega) (fun hlt => by have := q3 hlt; omega) ?_
        intro p p1 p2
        refine q4 p p1 (by omega) ?_
        have := q3 (by omega)
        omega
      · rintro s' ⟨q', e⟩; exact ⟨q', e⟩
    unfold seekChilds
    refine wp_bind (wp_getS ?_)
    rw [Nat.add_sub_cancel]
    split
    · rename_i hnode
      have herr : SeekErr s s := ⟨s.pos, rfl⟩
      refine wp_bind (wp_chk (wp_bind (wp_mono (hrec _ s hw (Nat.le_of_lt hr) hnode he ?_) ?_ (fun _ h => h))) herr)
      · intro hlt; exact ⟨(hp hlt).1, (hp hlt).2.1⟩
      · rintro r s1 ⟨q, e, q1, q2, q3⟩
        subst e
        rcases r with _ | ⟨j, sl⟩
        · exact tail q q1 q2 q3.1 q3.2
        · exact wp_pure ⟨q, rfl, q1, q2, q3⟩
    · rename_i hnode
      refine tail s.pos (Nat.le_refl _) he (fun hlt => Nat.le_of_lt (hp hlt).2.1) (fun p p1 p2 p3 hfd => hnode ?_)
      have h1 := hp (by omega)
      have hdiv : p / cover t = i * 1024 + slot :=
        Nat.div_eq_of_lt_le (Nat.le_trans h1.1 p1) p3
      have := hw.climb' hfd.2 ht2 (Nat.le_of_lt hr)
      rw [hdiv] at this
      exact this

theorem seekRec_wp {f : Nat} {hole : Bool} {end_ : Nat} : ∀ (t : Nat), 2 ≤ t → ∀ (i : Nat) (s : St),
    WF (s.file f) → t ≤ (s.file f).root → (s.file f).node t i = true → s.pos ≤ end_ →
    (s.pos < end_ → i * cover t ≤ s.pos ∧ s.pos < (i + 1) * cover t) →
    wp (seekRec f hole end_ t i) (fun r s' => SeekPost s f hole end_ ((i + 1) * cover t) r s') (SeekErr s) s
  | 0, h2, _, _, _, _, _, _, _ => by omega
  | t + 1, h2, i, s, hw, hr, hn, he, hp => by
    have hr5 : (s.file f).root ≤ 5 := by
      rcases hw.root with h0 | ⟨_, h1, _⟩ <;> omega
    unfold seekRec
    refine wp_bind (wp_getS ?_)
    rw [spanOf_cover h2 (by omega)]
    split
    · rename_i hin
      have hdiv : s.pos / cover (t + 1) = i := Nat.div_eq_of_lt_le hin.1 hin.2
      have hsl := C06_slot (h := t + 1) h2 (by omega) hdiv
      rw [Nat.add_sub_cancel] at hsl
      unfold childIdx at hsl
      generalize nodeSlot (t + 1) i s.pos = sl at hsl
      split
      · have ht : t = 1 := by omega
        subst ht
        rw [cover_one] at hsl
        rw [cover_two] at hin ⊢
        refine seekLeaves_wp _ sl s (by omega) hn he hin.2 (by omega) (fun p p1 p2 => ?_)
        omega
      · rename_i hnb
        have hb : s.pos / cover t = i * 1024 + sl := hsl.2.symm
        have hlo : (i * 1024 + sl) * cover t ≤ s.pos := by
          rw [← hb]; exact Nat.div_mul_le_self _ _
        have hhi : s.pos < (i * 1024 + sl + 1) * cover t := by
          rw [← hb, Nat.add_one_mul]
          have := Nat.div_add_mod s.pos (cover t)
          have := Nat.mod_lt s.pos (cover_pos t)
          rw [Nat.mul_comm (s.pos / cover t)]
          omega
        exact seekChilds_wp (by omega) (by omega) (fun i' s' => seekRec_wp t (by omega) i' s') _ sl s
          (by omega) hw (by omega) he (fun _ => ⟨hlo, hhi, Nat.le_of_lt hin.2⟩)
    · rename_i hin
      refine wp_pure (SeekPost.none (q := s.pos) (Nat.le_refl _) he (fun hlt => absurd (hp hlt) hin)
        (fun p p1 p2 p3 => ?_))
      exact absurd (hp (by omega)) hin

/-- A seek in the tree finds the first position that has what it looks for. -/
theorem seekByTree_wp {s : St} (h : Ok s) {f : Nat} {hole : Bool} {end_ : Nat} (hp : s.pos < end_) :
    wp (seekByTree f hole end_) (fun r s' => SeekPost s f hole end_ end_ r s') (SeekErr s) s := by
  have herr : SeekErr s s := ⟨s.pos, rfl⟩
  have hbeyond : cover (s.file f).root ≤ s.pos ∨ (s.file f).root = 0 →
      ∀ p, s.pos ≤ p → ¬ Found (s.file f) hole p := by
    intro hc p p1 hfd
    have := (h.wf f).below hfd.2
    rcases hc with hc | hc <;> omega
  unfold seekByTree
  refine wp_bind (wp_getS ?_)
  split
  · rename_i hr
    exact wp_pure (SeekPost.none (q := s.pos) (Nat.le_refl _) (Nat.le_of_lt hp) (fun _ => Nat.le_of_lt hp)
      (fun p p1 _ _ => hbeyond (.inr hr) p p1))
  · rename_i hr
    rcases (h.wf f).root with h0 | ⟨r2, r5, rn⟩
    · omega
    refine wp_bind (wp_chk ?_ herr)
    by_cases hc : s.pos < cover (s.file f).root
    · refine wp_mono (seekRec_wp _ r2 0 s (h.wf f) (Nat.le_refl _) rn (Nat.le_of_lt hp)
        (fun _ => ⟨by omega, by omega⟩)) ?_ (fun _ h => h)
      rintro r s' ⟨q, e, q1, q2, q3⟩
      refine ⟨q, e, q1, q2, ?_⟩
      rcases r with _ | ⟨j, slot⟩
      · refine ⟨fun _ => q2, fun p p1 p2 _ => ?_⟩
        by_cases hpc : p < (0 + 1) * cover (s.file f).root
        · exact q3.2 p p1 p2 hpc
        · intro hfd
          have := (h.wf f).below hfd.2
          omega
      · exact q3
    · -- outside of the range of the root
      have : wp (seekRec f hole end_ (s.file f).root 0)
          (fun r s' => SeekPost s f hole end_ end_ r s') (SeekErr s) s := by
        obtain ⟨m, hm⟩ : ∃ m, (s.file f).root = m + 1 := ⟨(s.file f).root - 1, by omega⟩
        rw [hm]
        unfold seekRec
        refine wp_bind (wp_getS ?_)
        rw [← hm, spanOf_cover r2 r5, if_neg (by omega)]
        exact wp_pure (SeekPost.none (q := s.pos) (Nat.le_refl _) (Nat.le_of_lt hp)
          (fun _ => Nat.le_of_lt hp) (fun p p1 _ _ => hbeyond (.inl (by omega)) p p1))
      exact this

end Silofs.File
