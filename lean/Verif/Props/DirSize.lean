import Verif.Model.DirSize
import Verif.Props.Dir
import Verif.Props.ReaddirBase
/-
Size and blocks of directories (C38): the counters are exact after any history with any failures, and an
emptied directory has given back all its nodes.
-/
set_option linter.unusedSimpArgs false
set_option linter.unusedVariables false
namespace Silofs.Dir

/-! ### The counters -/

/-- The blocks of the inode are those of the nodes in use. -/
def Exact (t : Tally) : Prop :=
  ∃ L : List Nat, L.Nodup ∧ (∀ i, i ∈ L ↔ ∃ a, t.live i = some a) ∧ t.blocks = 8 * L.length

theorem Exact.spawn {t : Tally} (h : Exact t) {c : Nat} (hc : t.live c = none) : Exact (t.spawn c) := by
  obtain ⟨L, h1, h2, h3⟩ := h
  refine ⟨c :: L, List.nodup_cons.mpr ⟨fun hm => ?_, h1⟩, fun i => ?_, ?_⟩
  · obtain ⟨a, ha⟩ := (h2 c).1 hm; rw [hc] at ha; cases ha
  · show _ ↔ ∃ a, (if i = c then some 0 else t.live i) = some a
    by_cases hi : i = c
    · rw [if_pos hi]; exact ⟨fun _ => ⟨0, rfl⟩, fun _ => by rw [hi]; exact List.mem_cons_self⟩
    · rw [if_neg hi, ← h2 i]
      exact ⟨fun hm => (List.mem_cons.mp hm).resolve_left hi, fun hm => List.mem_cons_of_mem _ hm⟩
  · show t.blocks + 8 = 8 * ((c :: L).length : Int)
    rw [h3, List.length_cons]; omega

theorem Exact.live_map {t : Tally} (h : Exact t) {t' : Tally} (hb : t'.blocks = t.blocks)
    (hl : ∀ i, (∃ a, t'.live i = some a) ↔ ∃ a, t.live i = some a) : Exact t' := by
  obtain ⟨L, h1, h2, h3⟩ := h
  exact ⟨L, h1, fun i => by rw [hl i]; exact h2 i, by rw [hb]; exact h3⟩

theorem isSome_ite_map {p : Prop} [Decidable p] {x : Option Nat} (f : Nat → Nat) :
    (∃ a, (if p then x.map f else x) = some a) ↔ ∃ a, x = some a := by
  split
  · cases x with
    | none => exact Iff.rfl
    | some v => exact ⟨fun _ => ⟨v, rfl⟩, fun _ => ⟨f v, rfl⟩⟩
  · exact Iff.rfl

theorem Exact.bind {t : Tally} (h : Exact t) (p : Nat) : Exact (t.bind p) :=
  h.live_map rfl fun _ => isSome_ite_map _

theorem Exact.decr {t : Tally} (h : Exact t) (p : Nat) : Exact (t.decr p) :=
  h.live_map rfl fun _ => isSome_ite_map _

theorem Exact.drop {t : Tally} (h : Exact t) {i : Nat} {a : Nat} (hi : t.live i = some a) : Exact (t.drop i) := by
  obtain ⟨L, h1, h2, h3⟩ := h
  have hm : i ∈ L := (h2 i).2 ⟨a, hi⟩
  refine ⟨L.erase i, h1.erase i, fun j => ?_, ?_⟩
  · show _ ↔ ∃ b, (if j = i then none else t.live j) = some b
    rw [h1.mem_erase_iff]
    by_cases hj : j = i
    · rw [if_pos hj]; exact ⟨fun h => absurd hj h.1, nofun⟩
    · rw [if_neg hj, h2 j]; exact ⟨fun h => h.2, fun h => ⟨hj, h⟩⟩
  · show t.blocks - 8 = 8 * ((L.erase i).length : Int)
    rw [List.length_erase_of_mem hm, h3]
    have : 0 < L.length := List.length_pos_of_mem hm
    omega

/-! ### Giving back a tree -/

theorem child_gt {i o : Nat} (hi : 1 ≤ i) : i < child i o := by unfold child; omega

/-- What giving back may change: nodes from `i` on; on success each is as it was, or gone. -/
structure Frame (i : Nat) (r : Bool) (t t' : Tally) : Prop where
  below : ∀ j, j < i → t'.live j = t.live j
  gone : ∀ j, t.live j = none → t'.live j = none
  exact : Exact t → Exact t'
  whole : r = true → ∀ j, t'.live j = t.live j ∨ t'.live j = none

theorem Frame.refl (i : Nat) (r : Bool) (t : Tally) : Frame i r t t :=
  ⟨fun _ _ => rfl, fun _ h => h, id, fun _ _ => Or.inl rfl⟩

theorem decr_live (t : Tally) (i j : Nat) : (t.decr i).live j = if j = i then (t.live j).map (· - 1) else t.live j := rfl

/-- The same for the loop: `i` itself may change. -/
structure FrameK (i : Nat) (r : Bool) (t t' : Tally) : Prop where
  below : ∀ j, j < i → t'.live j = t.live j
  gone : ∀ j, t.live j = none → t'.live j = none
  exact : Exact t → Exact t'
  whole : r = true → ∀ j, j ≠ i → t'.live j = t.live j ∨ t'.live j = none
  kept : ∀ a, t.live i = some a → ∃ b, t'.live i = some b

theorem kids_frame {f : Nat → Tally → Bool × Tally} {ptr : Nat → Bool} {i : Nat} (hi : 1 ≤ i)
    (hf : ∀ c t, i < c → Frame c (f c t).1 t (f c t).2) (os : List Nat) (t : Tally) :
    FrameK i (kids f ptr i os t).1 t (kids f ptr i os t).2 := by
  induction os generalizing t with
  | nil => exact ⟨fun _ _ => rfl, fun _ h => h, id, fun _ _ _ => Or.inl rfl, fun a h => ⟨a, h⟩⟩
  | cons o os ih =>
    have same : ∀ r, FrameK i r t t :=
      fun _ => ⟨fun _ _ => rfl, fun _ h => h, id, fun _ _ _ => Or.inl rfl, fun a h => ⟨a, h⟩⟩
    rw [kids]
    split
    · exact same _
    · exact same _
    · rename_i a ha
      split
      · have hc := hf (child i o) t (child_gt hi)
        revert hc
        cases hx : f (child i o) t with
        | mk r t' =>
          intro hc
          dsimp only at hc
          have hlt := child_gt (o := o) hi
          cases r with
          | false =>
            dsimp only
            exact ⟨fun j hj => hc.below j (by omega), hc.gone, hc.exact, nofun,
              fun b hb => ⟨b, by rw [hc.below i hlt]; exact hb⟩⟩
          | true =>
            dsimp only
            have hk := ih (t'.decr i)
            refine ⟨fun j hj => ?_, fun j hj => ?_, fun he => hk.exact ((hc.exact he).decr i), fun h j hj => ?_,
              fun b hb => ?_⟩
            · rw [hk.below j hj, decr_live, if_neg (by omega), hc.below j (by omega)]
            · apply hk.gone
              rw [decr_live, hc.gone j hj]
              split <;> rfl
            · rcases hk.whole h j hj with h1 | h1
              · rw [h1, decr_live, if_neg hj]; exact hc.whole rfl j
              · exact Or.inr h1
            · exact hk.kept (b - 1) (by rw [decr_live, if_pos rfl, hc.below i hlt, hb]; rfl)
      · exact ih t

theorem discard_frame (q : DropOrc) (ptr : Nat → Bool) (k i : Nat) (hi : 1 ≤ i) (t : Tally) :
    Frame i (discard q ptr k i t).1 t (discard q ptr k i t).2 := by
  induction k generalizing i t with
  | zero => exact Frame.refl _ _ _
  | succ k ih =>
    rw [discard, level]
    split
    · exact Frame.refl _ _ _
    · rename_i a ha
      split
      · exact Frame.refl _ _ _
      · have hk := kids_frame (ptr := ptr) hi (fun c t hc => ih c (by omega) t) ords t
        revert hk
        cases hx : kids (discard q ptr k) ptr i ords t with
        | mk r t' =>
          intro hk
          dsimp only at hk
          cases r with
          | false => exact ⟨hk.below, hk.gone, hk.exact, nofun⟩
          | true =>
            dsimp only
            split
            · exact ⟨hk.below, hk.gone, hk.exact, nofun⟩
            · obtain ⟨b, hb⟩ := hk.kept a ha
              refine ⟨fun j hj => ?_, fun j hj => ?_, fun he => (hk.exact he).drop hb, fun _ j => ?_⟩
              · show (if j = i then none else t'.live j) = _
                rw [if_neg (by omega)]; exact hk.below j hj
              · show (if j = i then none else t'.live j) = _
                split
                · rfl
                · exact hk.gone j hj
              · show (if j = i then none else t'.live j) = _ ∨ (if j = i then none else t'.live j) = _
                by_cases hj : j = i
                · rw [if_pos hj]; exact Or.inr rfl
                · rw [if_neg hj]; exact hk.whole rfl j hj

theorem mem_ords {o : Nat} : o ∈ ords ↔ o < 64 := by rw [ords]; exact List.mem_range

theorem ords_nodup : ords.Nodup := by rw [ords]; exact List.nodup_range

/-- Reached from `i` through pointers in at most `k` steps. -/
inductive Reach (ptr : Nat → Bool) : Nat → Nat → Nat → Prop
  | self (k i : Nat) : Reach ptr k i i
  | step {k i o j : Nat} (ho : o < 64) (hp : ptr (child i o) = true) (h : Reach ptr k (child i o) j) :
      Reach ptr (k + 1) i j

/-- How many of these pointers are set. -/
def setIn (ptr : Nat → Bool) (i : Nat) (os : List Nat) : Nat := (os.filter fun o => ptr (child i o)).length

/-- Each node in use knows its number of children. -/
def Counts (ptr : Nat → Bool) (t : Tally) : Prop := ∀ i a, t.live i = some a → a = setIn ptr i ords

theorem kids_all {f : Nat → Tally → Bool × Tally} {ptr : Nat → Bool} {i : Nat} (hi : 1 ≤ i)
    (hf : ∀ c t, i < c → Frame c (f c t).1 t (f c t).2)
    {P : Nat → Nat → Prop} (hp : ∀ c t, i < c → (∀ j a, i < j → t.live j = some a → a = setIn ptr j ords) →
      (f c t).1 = true → ∀ j, P c j → (f c t).2.live j = none)
    (os : List Nat) (t : Tally) (hr : (kids f ptr i os t).1 = true)
    (hn : ∀ j a, i < j → t.live j = some a → a = setIn ptr j ords)
    (hc : ∀ a, t.live i = some a → a = setIn ptr i os) (o : Nat) (ho : o ∈ os) (hpt : ptr (child i o) = true)
    (j : Nat) (hj : P (child i o) j) : (kids f ptr i os t).2.live j = none := by
  induction os generalizing t with
  | nil => cases ho
  | cons o' os ih =>
    rw [kids] at hr ⊢
    split at hr
    · cases hr
    · rename_i ha
      have := hc 0 ha
      unfold setIn at this
      have h0 := List.eq_nil_of_length_eq_zero this.symm
      have hm : o ∈ (o' :: os).filter fun o => ptr (child i o) := List.mem_filter.mpr ⟨ho, hpt⟩
      rw [h0] at hm
      cases hm
    · rename_i a ha
      have hs := hc (a + 1) ha
      by_cases hq : ptr (child i o') = true
      · rw [if_pos hq] at hr ⊢
        have hfr := hf (child i o') t (child_gt hi)
        have hpp := hp (child i o') t (child_gt hi) hn
        revert hr hfr hpp
        cases hx : f (child i o') t with
        | mk r t' =>
          intro hr hfr hpp
          dsimp only at hr hfr hpp ⊢
          cases r with
          | false => cases hr
          | true =>
            dsimp only at hr ⊢
            have hlt := child_gt (o := o') hi
            rcases List.mem_cons.mp ho with rfl | ho
            · exact (kids_frame hi hf os (t'.decr i)).gone j (by
                rw [decr_live, hpp rfl j hj]; split <;> rfl)
            · refine ih (t'.decr i) hr (fun j' a' hj' hl => ?_) (fun a' hl => ?_) ho
              · rw [decr_live, if_neg (by omega)] at hl
                rcases hfr.whole rfl j' with h | h
                · rw [h] at hl; exact hn j' a' hj' hl
                · rw [h] at hl; cases hl
              · rw [decr_live, if_pos rfl, hfr.below i hlt, ha] at hl
                injection hl with hl
                unfold setIn at hs ⊢
                rw [List.filter_cons_of_pos (by exact hq), List.length_cons] at hs
                have hl : a + 1 - 1 = a' := hl
                omega
      · rw [if_neg hq] at hr ⊢
        rcases List.mem_cons.mp ho with rfl | ho
        · exact absurd hpt hq
        · refine ih t hr hn (fun a' hl => ?_) ho
          rw [ha] at hl
          injection hl with hl
          unfold setIn at hs ⊢
          rw [List.filter_cons_of_neg (by exact hq)] at hs
          omega

/-- A tree given back is gone, all of it. -/
theorem discard_all (q : DropOrc) (ptr : Nat → Bool) (k i : Nat) (hi : 1 ≤ i) (t : Tally)
    (hn : ∀ j a, i ≤ j → t.live j = some a → a = setIn ptr j ords)
    (hr : (discard q ptr (k + 1) i t).1 = true) (j : Nat) (hj : Reach ptr k i j) :
    (discard q ptr (k + 1) i t).2.live j = none := by
  induction k generalizing i t j with
  | zero =>
    cases hj
    rw [discard, level] at hr ⊢
    split at hr
    · cases hr
    rename_i a ha
    by_cases hs : q.stage i = true
    · rw [if_pos hs] at hr; cases hr
    rw [if_neg hs] at hr ⊢
    revert hr
    generalize kids (discard q ptr 0) ptr i ords t = y
    obtain ⟨r, t'⟩ := y
    intro hr
    cases r with
    | false => cases hr
    | true =>
      dsimp only at hr ⊢
      by_cases hm : q.rm i = true
      · rw [if_pos hm] at hr; cases hr
      · rw [if_neg hm]
        show (if i = i then none else _) = none
        rw [if_pos rfl]
  | succ k ih =>
    rw [discard, level] at hr ⊢
    split at hr
    · cases hr
    rename_i a ha
    by_cases hs : q.stage i = true
    · rw [if_pos hs] at hr; cases hr
    rw [if_neg hs] at hr ⊢
    have hk := fun hr' o ho hp j' hj' => kids_all (f := discard q ptr (k + 1)) (ptr := ptr) (i := i) hi
      (fun c t hc => discard_frame q ptr (k + 1) c (by omega) t) (P := fun c j => Reach ptr k c j)
      (fun c t hc hn' hr' j' hj' => ih c (by omega) t (fun j a hj h => hn' j a (by omega) h) hr' j' hj')
      ords t hr' (fun j a hj h => hn j a (by omega) h) (fun a h => hn i a (Nat.le_refl _) h) o ho hp j' hj'
    revert hr hk
    generalize kids (discard q ptr (k + 1)) ptr i ords t = y
    obtain ⟨r, t'⟩ := y
    intro hr hk
    cases r with
    | false => cases hr
    | true =>
      dsimp only at hr ⊢
      by_cases hm : q.rm i = true
      · rw [if_pos hm] at hr; cases hr
      · rw [if_neg hm]
        show (if j = i then none else t'.live j) = none
        by_cases hji : j = i
        · rw [if_pos hji]
        · rw [if_neg hji]
          cases hj with
          | self => exact absurd rfl hji
          | step ho hp h => exact hk rfl _ (mem_ords.mpr ho) hp j h

theorem Reach.mono {ptr : Nat → Bool} {k k' i j : Nat} (h : Reach ptr k i j) (hk : k ≤ k') : Reach ptr k' i j := by
  induction h generalizing k' with
  | self k i => exact Reach.self _ _
  | @step k i o j ho hp h ih =>
    obtain ⟨m, rfl⟩ : ∃ m, k' = m + 1 := ⟨k' - 1, by omega⟩
    exact Reach.step ho hp (ih (by omega))

theorem Reach.snoc {ptr : Nat → Bool} {k i p o : Nat} (h : Reach ptr k i p) (ho : o < 64)
    (hp : ptr (child p o) = true) : Reach ptr (k + 1) i (child p o) := by
  induction h with
  | self k i => exact Reach.step ho hp (Reach.self _ _)
  | step ho' hp' h ih => exact Reach.step ho' hp' (ih hp)

/-- Each node of a directory is reached from the root. -/
theorem Inv.reach {d : Dir} (hv : Inv d) (j : Nat) (n : Node) (hn : d.nodes j = some n) :
    Reach (fun j => (d.nodes j).isSome) (depth j) 1 j := by
  induction j using Nat.strongRecOn generalizing n with
  | ind j ih =>
    by_cases h1 : j = 1
    · rw [h1]; exact Reach.self _ _
    · have h0 := (hv.range j n hn).1
      obtain ⟨p, hp⟩ := hv.closed j n hn (by omega)
      have hc := C12_child_of_parent j (by omega)
      have := (ih (parent j) hc.2.2.2 p hp).snoc (o := childOrd j) hc.2.1 (by
        show (d.nodes (child (parent j) (childOrd j))).isSome = true
        rw [hc.1, hn]; rfl)
      rw [hc.1] at this
      rw [depth_succ j (by omega)]
      exact this

theorem filter_add {p : Nat → Bool} {o : Nat} (os : List Nat) (hd : os.Nodup) (ho : o ∈ os) (hp : p o = false) :
    (os.filter fun x => x == o || p x).length = (os.filter p).length + 1 := by
  induction os with
  | nil => cases ho
  | cons x os ih =>
    rw [List.nodup_cons] at hd
    by_cases hx : x = o
    · subst hx
      rw [List.filter_cons_of_pos (by simp), List.filter_cons_of_neg (by simp [hp]), List.length_cons]
      congr 2
      apply List.filter_congr
      intro y hy
      have : y ≠ x := fun h => hd.1 (h ▸ hy)
      simp [this]
    · have ho' : o ∈ os := (List.mem_cons.mp ho).resolve_left (fun h => hx h.symm)
      have := ih hd.2 ho'
      by_cases hpx : p x = true
      · rw [List.filter_cons_of_pos (by simp [hpx]), List.filter_cons_of_pos hpx, List.length_cons, List.length_cons, this]
      · rw [List.filter_cons_of_neg (by simp [hpx, hx]), List.filter_cons_of_neg hpx, this]

/-! ### Directory and counters in step -/

/-- The nodes in use are those of the directory, each knows its number of children, and the size is by the last. -/
structure Match (s : Sized) : Prop where
  same : ∀ i, (s.t.live i).isSome = (s.d.nodes i).isSome
  counts : ∀ i a, s.t.live i = some a → a = setIn (fun j => (s.d.nodes j).isSome) i ords
  last : s.t.last = s.d.last
  size : s.t.size = indexToIsize s.d.last

theorem Match.fresh (hash : Name → Nat) : Match (Sized.fresh hash) :=
  ⟨fun _ => rfl, nofun, rfl, rfl⟩

/-- A change within nodes. -/
theorem Match.put {s : Sized} (h : Match s) {i : Nat} {n m : Node} (hn : s.d.nodes i = some n) (e : Nat) (g : Bool) :
    Match ⟨{ s.d with nodes := setNode s.d.nodes i m, ndents := e, dangling := g }, s.t⟩ := by
  have hs : ∀ j, (setNode s.d.nodes i m j).isSome = (s.d.nodes j).isSome := by
    intro j
    unfold setNode
    by_cases hj : j = i
    · rw [if_pos hj, hj, hn]; rfl
    · rw [if_neg hj]
  exact ⟨fun j => by rw [h.same j]; exact (hs j).symm,
    fun j a ha => by rw [h.counts j a ha]; congr 1; funext j; exact (hs j).symm, h.last, h.size⟩

/-- A new node below one of the directory. -/
theorem Match.spawn {s : Sized} (hv : Inv s.d) (h : Match s) {i o : Nat} {n : Node} (hn : s.d.nodes i = some n)
    (ho : o < 64) (hc : s.d.nodes (child i o) = none) :
    Match ⟨{ s.d with nodes := setNode s.d.nodes (child i o) Node.empty, last := bumpLast s.d.last (child i o) },
      (s.t.spawn (child i o)).bind i⟩ := by
  have hi := (hv.range i n hn).1
  have hne : i ≠ child i o := by have := child_gt (o := o) hi; omega
  have hs : ∀ j, (setNode s.d.nodes (child i o) Node.empty j).isSome = (j == child i o || (s.d.nodes j).isSome) := by
    intro j
    unfold setNode
    by_cases hj : j = child i o
    · rw [if_pos hj, hj]; simp
    · rw [if_neg hj]; simp [hj]
  have hlive : ∀ j, ((s.t.spawn (child i o)).bind i).live j =
      if j = child i o then some 0 else if j = i then (s.t.live j).map (· + 1) else s.t.live j := by
    intro j
    show (if j = i then (if j = child i o then some 0 else s.t.live j).map (· + 1)
      else if j = child i o then some 0 else s.t.live j) = _
    by_cases hj : j = child i o
    · rw [if_pos hj, if_pos hj, if_neg (by omega)]
    · rw [if_neg hj, if_neg hj]
  refine ⟨fun j => ?_, fun j a ha => ?_, by show bumpLast _ _ = bumpLast _ _; rw [h.last],
    by show indexToIsize _ = indexToIsize _; rw [h.last]⟩
  · show (((s.t.spawn (child i o)).bind i).live j).isSome = (setNode s.d.nodes (child i o) Node.empty j).isSome
    rw [hlive, hs]
    by_cases hj : j = child i o
    · rw [if_pos hj]; simp [hj]
    · rw [if_neg hj]
      have : (if j = i then (s.t.live j).map (· + 1) else s.t.live j).isSome = (s.t.live j).isSome := by
        split
        · cases s.t.live j <;> rfl
        · rfl
      rw [this, h.same j]; simp [hj]
  · have ha : ((s.t.spawn (child i o)).bind i).live j = some a := ha
    show a = setIn (fun j => (setNode s.d.nodes (child i o) Node.empty j).isSome) j ords
    rw [show (fun j => (setNode s.d.nodes (child i o) Node.empty j).isSome) =
      (fun j => j == child i o || (s.d.nodes j).isSome) from funext hs]
    unfold setIn
    rw [hlive] at ha
    by_cases hj : j = child i o
    · rw [if_pos hj] at ha
      injection ha with ha
      have hnil : ords.filter (fun x => child j x == child i o || (s.d.nodes (child j x)).isSome) = [] := by
        rw [List.filter_eq_nil_iff]
        intro x hx hb
        rw [hj] at hb
        have h1 := child_gt (o := o) hi
        have h2 := child_gt (o := x) (i := child i o) (by omega)
        cases hm : s.d.nodes (child (child i o) x) with
        | none => rw [hm] at hb; simp at hb; omega
        | some m =>
          obtain ⟨p, hp⟩ := hv.closed _ m hm (by omega)
          rw [(C12_parent_of_child (child i o) x (by omega) (mem_ords.mp hx)).1, hc] at hp
          cases hp
      rw [hnil, ← ha]; rfl
    · rw [if_neg hj] at ha
      by_cases hji : j = i
      · subst hji
        rw [if_pos rfl] at ha
        cases hl : s.t.live j with
        | none => rw [hl] at ha; cases ha
        | some b =>
          rw [hl] at ha
          injection ha with ha
          have hb := h.counts j b hl
          unfold setIn at hb
          have e : (fun x => child j x == child j o || (s.d.nodes (child j x)).isSome) =
              fun x => x == o || (s.d.nodes (child j x)).isSome := by
            funext x
            congr 1
            rw [Bool.eq_iff_iff, beq_iff_eq, beq_iff_eq]
            unfold child
            omega
          rw [e, filter_add (p := fun x => (s.d.nodes (child j x)).isSome) ords ords_nodup (mem_ords.mpr ho)
            (by show (s.d.nodes (child j o)).isSome = false; rw [hc]; rfl), ← hb, ← ha]
      · rw [if_neg hji] at ha
        rw [h.counts j a ha]
        unfold setIn
        congr 1
        apply List.filter_congr
        intro x hx
        have hj1 : 1 ≤ j := by
          have := h.same j
          rw [ha] at this
          cases hm : s.d.nodes j with
          | none => rw [hm] at this; cases this
          | some m => exact (hv.range j m hm).1
        have : child j x ≠ child i o := fun he => hji (C12_child_inj j i x o hj1 hi (mem_ords.mp hx) ho he).1
        simp [this]

theorem sAddAt_sim (o : Orc) (hash : Nat) (nm : Name) (ino dt k i : Nat) (n : Node) (s : Sized) :
    (sAddAt o hash nm ino dt k i n s).1 = (addAt o hash nm ino dt k i n s.d).1 ∧
    (sAddAt o hash nm ino dt k i n s).2.d = (addAt o hash nm ino dt k i n s.d).2 := by
  induction k generalizing i n s with
  | zero =>
    rw [sAddAt, addAt]
    by_cases h : n.mayInsert nm.length = true
    · rw [if_pos h, if_pos h]; exact ⟨rfl, rfl⟩
    · rw [if_neg h, if_neg h]; exact ⟨rfl, rfl⟩
  | succ k ih =>
    rw [sAddAt, addAt]
    by_cases h : n.mayInsert nm.length = true
    · rw [if_pos h, if_pos h]; exact ⟨rfl, rfl⟩
    rw [if_neg h, if_neg h]
    dsimp only
    cases hc : s.d.nodes (child i (hashOrd hash (4 - k))) with
    | some n' =>
      dsimp only
      by_cases h1 : o.stage (4 - k) = true
      · rw [if_pos h1, if_pos h1]; exact ⟨rfl, rfl⟩
      · rw [if_neg h1, if_neg h1]; exact ih _ _ _
    | none =>
      dsimp only
      by_cases h1 : validDepth (child i (hashOrd hash (4 - k))) = false
      · rw [if_pos h1, if_pos h1]; exact ⟨rfl, rfl⟩
      rw [if_neg h1, if_neg h1]
      by_cases h2 : o.spawn (4 - k) = true
      · rw [if_pos h2, if_pos h2]; exact ⟨rfl, rfl⟩
      · rw [if_neg h2, if_neg h2]; exact ih _ _ _

theorem sAddAt_match (o : Orc) (hash : Nat) (nm : Name) (ino dt k i : Nat) (n : Node) (s : Sized)
    (hv : Inv s.d) (hm : Match s) (he : Exact s.t) (hn : s.d.nodes i = some n) :
    Match (sAddAt o hash nm ino dt k i n s).2 ∧ Exact (sAddAt o hash nm ino dt k i n s).2.t := by
  induction k generalizing i n s with
  | zero =>
    rw [sAddAt]
    by_cases h : n.mayInsert nm.length = true
    · rw [if_pos h]; exact ⟨hm.put hn _ _, he⟩
    · rw [if_neg h]; exact ⟨hm, he⟩
  | succ k ih =>
    rw [sAddAt]
    by_cases h : n.mayInsert nm.length = true
    · rw [if_pos h]; exact ⟨hm.put hn _ _, he⟩
    rw [if_neg h]
    dsimp only
    cases hc : s.d.nodes (child i (hashOrd hash (4 - k))) with
    | some n' =>
      dsimp only
      by_cases h1 : o.stage (4 - k) = true
      · rw [if_pos h1]; exact ⟨hm, he⟩
      · rw [if_neg h1]; exact ih _ _ _ hv hm he hc
    | none =>
      dsimp only
      by_cases h1 : validDepth (child i (hashOrd hash (4 - k))) = false
      · rw [if_pos h1]; exact ⟨hm, he⟩
      rw [if_neg h1]
      by_cases h2 : o.spawn (4 - k) = true
      · rw [if_pos h2]; exact ⟨hm, he⟩
      · rw [if_neg h2]
        have hi := (hv.range i n hn).1
        have ho := hashOrd_lt hash (4 - k)
        have hvd := (C12_valid_depth (child i (hashOrd hash (4 - k)))).1 (by simpa using h1)
        have hlive : s.t.live (child i (hashOrd hash (4 - k))) = none := by
          have := hm.same (child i (hashOrd hash (4 - k)))
          rw [hc] at this
          cases hl : s.t.live (child i (hashOrd hash (4 - k))) with
          | none => rfl
          | some a => rw [hl] at this; cases this
        exact ih _ _ _ (spawn_inv hv _ hc hvd.1 hvd.2 fun _ =>
          ⟨n, by rw [(C12_parent_of_child i _ hi ho).1]; exact hn⟩) (hm.spawn hv hn ho hc)
          ((he.spawn hlive).bind i) (setNode_eq _ _ _)

/-- What holds of a directory with its counters after any history. -/
structure SInv (s : Sized) : Prop where
  exact : Exact s.t
  ok : s.d.dangling = false → (Inv s.d ∧ ∃ m, Repr s.d m) ∧ Match s
  bad : s.d.dangling = true → s.d.ndents = 0 ∧ ∃ r, s.d.nodes 1 = some r

theorem SInv.fresh (hash : Name → Nat) : SInv (Sized.fresh hash) :=
  ⟨⟨[], List.nodup_nil, fun i => ⟨nofun, nofun⟩, rfl⟩,
    fun _ => ⟨⟨Inv.fresh hash, _, Repr.fresh hash⟩, Match.fresh hash⟩, nofun⟩

theorem sAddDentry_sim (s : Sized) (o : Orc) (nm : Name) (ino dt : Nat) :
    (s.addDentry o nm ino dt).1 = (s.d.addDentry o nm ino dt).1 ∧
    (s.addDentry o nm ino dt).2.d = (s.d.addDentry o nm ino dt).2 := by
  rw [Sized.addDentry, Dir.addDentry]
  cases s.d.nodes 1 with
  | some r =>
    dsimp only
    by_cases h1 : s.d.dangling = true
    · rw [if_pos h1, if_pos h1]; exact ⟨rfl, rfl⟩
    rw [if_neg h1, if_neg h1]
    by_cases h2 : o.stage 0 = true
    · rw [if_pos h2, if_pos h2]; exact ⟨rfl, rfl⟩
    · rw [if_neg h2, if_neg h2]; exact sAddAt_sim ..
  | none =>
    dsimp only
    by_cases h2 : o.spawn 0 = true
    · rw [if_pos h2, if_pos h2]; exact ⟨rfl, rfl⟩
    · rw [if_neg h2, if_neg h2]; exact sAddAt_sim ..

theorem sAddDentry_match {s : Sized} (hv : Inv s.d) (hm : Match s) (he : Exact s.t) (o : Orc) (nm : Name) (ino dt : Nat) :
    Match (s.addDentry o nm ino dt).2 ∧ Exact (s.addDentry o nm ino dt).2.t := by
  rw [Sized.addDentry]
  cases h1 : s.d.nodes 1 with
  | some r =>
    dsimp only
    rw [hv.live, if_neg Bool.false_ne_true]
    by_cases h2 : o.stage 0 = true
    · rw [if_pos h2]; exact ⟨hm, he⟩
    · rw [if_neg h2]; exact sAddAt_match _ _ _ _ _ _ _ _ _ hv hm he h1
  | none =>
    dsimp only
    by_cases h2 : o.spawn 0 = true
    · rw [if_pos h2]; exact ⟨hm, he⟩
    rw [if_neg h2]
    have hl := hv.lastz h1
    have hb : bumpLast s.d.last 1 = 1 := by unfold bumpLast; split <;> omega
    have hv2 := spawn_inv hv 1 h1 (by omega) (by omega) (by omega)
    rw [hb] at hv2
    have hnone : ∀ j, s.d.nodes j = none := by
      intro j
      cases hj : s.d.nodes j with
      | none => rfl
      | some n => have := hv.range j n hj; omega
    have hlive : ∀ j, s.t.live j = none := by
      intro j
      have := hm.same j
      rw [hnone j] at this
      cases hl : s.t.live j with
      | none => rfl
      | some a => rw [hl] at this; cases this
    have hb' : bumpLast s.t.last 1 = 1 := by rw [hm.last]; exact hb
    refine sAddAt_match _ _ _ _ _ _ _ _ _ hv2 ⟨fun j => ?_, fun j a ha => ?_, rfl, ?_⟩ (?_)
      (setNode_eq s.d.nodes 1 Node.empty)
    · show (if j = 1 then some 0 else s.t.live j).isSome = (if j = 1 then some Node.empty else s.d.nodes j).isSome
      rw [hlive j, hnone j]; split <;> rfl
    · have ha : (if j = 1 then some 0 else s.t.live j) = some a := ha
      by_cases hj : j = 1
      · rw [if_pos hj] at ha
        injection ha with ha
        rw [← ha]
        show 0 = setIn _ j ords
        unfold setIn
        symm
        rw [List.length_eq_zero_iff, List.filter_eq_nil_iff]
        intro x hx hb
        have hb : (if child j x = 1 then some Node.empty else s.d.nodes (child j x)).isSome = true := hb
        rw [if_neg (by have := child_gt (o := x) (i := j) (by omega); omega), hnone] at hb
        cases hb
      · rw [if_neg hj, hlive] at ha; cases ha
    · show indexToIsize (bumpLast s.t.last 1) = indexToIsize 1
      rw [hb']
    · exact (he.spawn (hlive 1)).live_map rfl fun _ => Iff.rfl

theorem sAdd_sim (s : Sized) (o : Orc) (nm : Name) (ino dt : Nat) :
    (s.add o nm ino dt).1 = (s.d.add o nm ino dt).1 ∧ (s.add o nm ino dt).2.d = (s.d.add o nm ino dt).2 := by
  rw [Sized.add, Dir.add]
  cases s.d.lookup o nm with
  | enoent =>
    dsimp only
    by_cases h : 480 * 16777216 ≤ s.d.ndents
    · rw [if_pos h, if_pos h]; exact ⟨rfl, rfl⟩
    · rw [if_neg h, if_neg h]; exact sAddDentry_sim ..
  | _ => exact ⟨rfl, rfl⟩

theorem sAdd_match {s : Sized} (hv : Inv s.d) (hm : Match s) (he : Exact s.t) (o : Orc) (nm : Name) (ino dt : Nat) :
    Match (s.add o nm ino dt).2 ∧ Exact (s.add o nm ino dt).2.t := by
  rw [Sized.add]
  cases s.d.lookup o nm with
  | enoent =>
    dsimp only
    by_cases h : 480 * 16777216 ≤ s.d.ndents
    · rw [if_pos h]; exact ⟨hm, he⟩
    · rw [if_neg h]; exact sAddDentry_match hv hm he ..
  | _ => exact ⟨hm, he⟩

/-- The tree is given back without failure. -/
def emptied (s : Sized) (q : DropOrc) : Bool × Tally := discard q (fun j => (s.d.nodes j).isSome) 5 1 s.t

/-- Without failure all nodes are given back, and no blocks are left. -/
theorem emptied_all {s : Sized} (hv : Inv s.d) (hm : Match s) (he : Exact s.t) {q : DropOrc}
    (h : (emptied s q).1 = true) : (∀ j, (emptied s q).2.live j = none) ∧ (emptied s q).2.blocks = 0 := by
  have h1 : ∀ j, (emptied s q).2.live j = none := by
    intro j
    cases hj : s.d.nodes j with
    | none =>
      apply (discard_frame q _ 5 1 (by omega) s.t).gone
      have := hm.same j
      rw [hj] at this
      cases hl : s.t.live j with
      | none => rfl
      | some a => rw [hl] at this; cases this
    | some n =>
      exact discard_all q _ 4 1 (by omega) s.t (fun j a _ hl => hm.counts j a hl) h j
        ((hv.reach j n hj).mono (hv.depth_le hj))
  obtain ⟨L, h2, h3, h4⟩ := (discard_frame q (fun j => (s.d.nodes j).isSome) 5 1 (by omega) s.t).exact he
  refine ⟨h1, ?_⟩
  have : L = [] := List.eq_nil_iff_forall_not_mem.2 fun j hj => by
    obtain ⟨a, ha⟩ := (h3 j).1 hj
    have := h1 j
    unfold emptied at this
    rw [this] at ha
    cases ha
  rw [this] at h4
  exact h4

/-- The removal with its failures is that of the model without counters. -/
theorem sRemove_sim (s : Sized) (o : Orc) (q : DropOrc) (nm : Name) :
    (s.remove o q nm).1 = (s.d.remove { o with drop := !(emptied s q).1 } nm).1 ∧
    (s.remove o q nm).2.d = (s.d.remove { o with drop := !(emptied s q).1 } nm).2 := by
  rw [Sized.remove, Dir.remove]
  have hf : s.d.find { o with drop := !(emptied s q).1 } nm = s.d.find o nm := rfl
  rw [hf]
  cases s.d.find o nm with
  | ok x =>
    obtain ⟨i, sl, e⟩ := x
    dsimp only
    by_cases h1 : o.inode = true
    · rw [if_pos h1, if_pos h1]; exact ⟨rfl, rfl⟩
    rw [if_neg h1, if_neg h1]
    cases s.d.nodes i with
    | none => exact ⟨rfl, rfl⟩
    | some n =>
      dsimp only
      by_cases h2 : s.d.ndents - 1 = 0
      · rw [if_pos h2, if_pos h2]
        unfold emptied
        generalize discard q (fun j => (s.d.nodes j).isSome) 5 1 s.t = y
        obtain ⟨r, t'⟩ := y
        cases r <;> exact ⟨rfl, rfl⟩
      · rw [if_neg h2, if_neg h2]; exact ⟨rfl, rfl⟩
  | _ => exact ⟨rfl, rfl⟩

theorem find_dangling {d : Dir} (h : d.dangling = true) (h0 : d.ndents = 0) (o : Orc) (nm : Name) :
    d.find o nm = .enoent ∨ d.find o nm = .einval ∨ d.find o nm = .enametoolong := by
  unfold Dir.find
  by_cases h1 : nm.length = 0
  · rw [if_pos h1]; exact Or.inr (Or.inl rfl)
  rw [if_neg h1]
  by_cases h2 : 255 < nm.length
  · rw [if_pos h2]; exact Or.inr (Or.inr rfl)
  rw [if_neg h2, if_pos h0]; exact Or.inl rfl

/-- A directory whose removal failed half-way is not changed by operations of the model. -/
theorem sStep_bad {s : Sized} (h : s.d.dangling = true) (h0 : s.d.ndents = 0) {r : Node} (h1 : s.d.nodes 1 = some r)
    (o : Orc) (q : DropOrc) (op : Op) : (sStep s o q op).2 = s := by
  cases op with
  | add nm ino dt =>
    show (s.add o nm ino dt).2 = s
    rw [Sized.add, Dir.lookup]
    rcases find_dangling h h0 o nm with hf | hf | hf
    · rw [hf]
      dsimp only
      rw [h0, if_neg (by decide), Sized.addDentry, h1]
      dsimp only
      rw [if_pos h]
    · rw [hf]
    · rw [hf]
  | remove nm =>
    show (s.remove o q nm).2 = s
    rw [Sized.remove]
    rcases find_dangling h h0 o nm with hf | hf | hf <;> rw [hf]

theorem sinv_step {s : Sized} (h : SInv s) (o : Orc) (q : DropOrc) (op : Op) : SInv (sStep s o q op).2 := by
  cases hd : s.d.dangling with
  | true =>
    obtain ⟨h0, r, h1⟩ := h.bad hd
    rw [sStep_bad hd h0 h1]; exact h
  | false =>
    obtain ⟨⟨hv, m, hr⟩, hm⟩ := h.ok hd
    cases op with
    | add nm ino dt =>
      show SInv (s.add o nm ino dt).2
      have h1 := sAdd_match hv hm h.exact o nm ino dt
      have h2 := step_spec hv hr { o with drop := false } (.add nm ino dt) rfl
      have h3 := (sAdd_sim s o nm ino dt).2
      have h4 : (step s.d { o with drop := false } (.add nm ino dt)).2 = (s.d.add o nm ino dt).2 := by
        show (s.d.add { o with drop := false } nm ino dt).2 = _
        have : ∀ k i n d, addAt { o with drop := false } (s.d.hash nm) nm ino dt k i n d =
            addAt o (s.d.hash nm) nm ino dt k i n d := by
          intro k
          induction k with
          | zero => intro i n d; rw [addAt, addAt]
          | succ k ih =>
            intro i n d
            rw [addAt, addAt]
            simp only [ih]
        unfold Dir.add Dir.addDentry
        simp only [this]
        rfl
      rw [h4, ← h3] at h2
      exact ⟨h1.2, fun _ => ⟨⟨h2.1, _, h2.2.1⟩, h1.1⟩, fun hb => by rw [h2.1.live] at hb; cases hb⟩
    | remove nm =>
      show SInv (s.remove o q nm).2
      have h3 := sRemove_sim s o q nm
      cases hq : (emptied s q).1 with
      | true =>
        rw [hq] at h3
        have h2 := step_spec hv hr { o with drop := false } (.remove nm) rfl
        have h4 : (step s.d { o with drop := false } (.remove nm)).2 = (s.remove o q nm).2.d := h3.2.symm
        rw [h4] at h2
        have h1 : Match (s.remove o q nm).2 ∧ Exact (s.remove o q nm).2.t := by
          rw [Sized.remove]
          cases s.d.find o nm with
          | ok x =>
            obtain ⟨i, sl, e⟩ := x
            dsimp only
            by_cases h1 : o.inode = true
            · rw [if_pos h1]; exact ⟨hm, h.exact⟩
            rw [if_neg h1]
            cases hn : s.d.nodes i with
            | none => exact ⟨hm, h.exact⟩
            | some n =>
              dsimp only
              by_cases h2 : s.d.ndents - 1 = 0
              · rw [if_pos h2]
                have ha := emptied_all hv hm h.exact hq
                revert ha hq
                unfold emptied
                generalize discard q (fun j => (s.d.nodes j).isSome) 5 1 s.t = y
                obtain ⟨r, t'⟩ := y
                intro hq ha
                dsimp only at hq ha
                subst hq
                dsimp only
                exact ⟨⟨fun j => by show (t'.live j).isSome = _; rw [ha.1 j]; rfl,
                    fun j a hl => (by have hl : t'.live j = some a := hl; rw [ha.1 j] at hl; cases hl), rfl, rfl⟩,
                  [], List.nodup_nil, fun j => ⟨nofun, fun ⟨a, hl⟩ => (by
                    have hl : t'.live j = some a := hl
                    rw [ha.1 j] at hl; cases hl)⟩, rfl⟩
              · rw [if_neg h2]; exact ⟨hm.put hn _ _, h.exact⟩
          | _ => exact ⟨hm, h.exact⟩
        exact ⟨h1.2, fun _ => ⟨⟨h2.1, _, h2.2.1⟩, h1.1⟩, fun hb => by rw [h2.1.live] at hb; cases hb⟩
      | false =>
        rw [Sized.remove]
        by_cases hl : nm.length = 0 ∨ 255 < nm.length
        · rcases find_badname s.d o nm hl with hf | hf <;> rw [hf] <;> exact h
        rcases find_spec hv o nm (by omega) (by omega) with ⟨i, sl, e, hf, hee, hne⟩ | ⟨hf, _⟩ | ⟨hf, _⟩ | ⟨hf, _⟩
        · rw [hf]
          dsimp only
          by_cases h1 : o.inode = true
          · rw [if_pos h1]; exact h
          rw [if_neg h1]
          obtain ⟨n, hn, hs⟩ := id hee
          rw [hn]
          dsimp only
          by_cases h2 : s.d.ndents - 1 = 0
          · rw [if_pos h2]
            have hx := (discard_frame q (fun j => (s.d.nodes j).isSome) 5 1 (by omega) s.t).exact h.exact
            revert hq hx
            unfold emptied
            generalize discard q (fun j => (s.d.nodes j).isSome) 5 1 s.t = y
            obtain ⟨r, t'⟩ := y
            intro hq hx
            dsimp only at hq hx
            subst hq
            dsimp only
            refine ⟨hx, nofun, fun _ => ⟨rfl, ?_⟩⟩
            obtain ⟨r, hr⟩ := hv.root_of_ent hee
            exact setNode_isSome _ _ _ _ ⟨r, hr⟩
          · rw [if_neg h2]
            have hv2 := remove_inv hv i sl e n hn hee
            have hrem := remove_spec hv { o with drop := false } nm (by omega) (by omega) rfl
            have hr2 : ∃ m', Repr { s.d with nodes := setNode s.d.nodes i (n.remove sl e), ndents := s.d.ndents - 1 } m' := by
              have h5 := step_spec hv hr { o with drop := false } (.remove nm) rfl
              have h6 : (step s.d { o with drop := false } (.remove nm)).2 =
                  { s.d with nodes := setNode s.d.nodes i (n.remove sl e), ndents := s.d.ndents - 1 } := by
                show (s.d.remove { o with drop := false } nm).2 = _
                rw [Dir.remove, show s.d.find { o with drop := false } nm = s.d.find o nm from rfl, hf]
                dsimp only
                rw [if_neg h1, hn]
                dsimp only
                rw [if_neg h2]
              rw [h6] at h5
              exact ⟨_, h5.2.1⟩
            exact ⟨h.exact, fun _ => ⟨⟨hv2, hr2⟩, hm.put hn _ _⟩, fun hb => by
              have hb : s.d.dangling = true := hb
              rw [hd] at hb; cases hb⟩
        · rw [hf]; exact h
        · rw [hf]; exact h
        · rw [hf]; exact h

theorem sinv_run {s : Sized} (h : SInv s) (ops : List (Op × Orc × DropOrc)) : SInv (sRun s ops) := by
  induction ops generalizing s with
  | nil => exact h
  | cons x ops ih => obtain ⟨op, o, q⟩ := x; exact ih (sinv_step h o q op)

/-! ### Only failures make it fail -/

/-- So many steps up. -/
def up : Nat → Nat → Nat
  | 0, j => j
  | n + 1, j => parent (up n j)

/-- In the tree at `i`. -/
def Under (i j : Nat) : Prop := depth i ≤ depth j ∧ up (depth j - depth i) j = i

theorem Under.self (i : Nat) : Under i i := ⟨Nat.le_refl _, by rw [Nat.sub_self]; rfl⟩

theorem Under.parent {i o j : Nat} (hi : 1 ≤ i) (ho : o < 64) (h : Under (child i o) j) : Under i j := by
  have hd := C12_depth_child i o hi ho
  have h1 := h.1
  refine ⟨by omega, ?_⟩
  rw [show depth j - depth i = (depth j - depth (child i o)) + 1 by omega, up, h.2]
  exact (C12_parent_of_child i o hi ho).1

theorem Under.sibling {i o o' j : Nat} (hi : 1 ≤ i) (ho : o < 64) (ho' : o' < 64) (h : Under (child i o) j)
    (h' : Under (child i o') j) : o = o' := by
  have h1 := h.2
  have h2 := h'.2
  rw [C12_depth_child i o hi ho] at h1
  rw [C12_depth_child i o' hi ho', h1] at h2
  exact (C12_child_inj i i o o' hi hi ho ho' h2).2

theorem Under.not_up {i o : Nat} (hi : 1 ≤ i) (ho : o < 64) : ¬ Under (child i o) i := fun h => by
  have := h.1
  rw [C12_depth_child i o hi ho] at this
  omega

theorem kids_outside {f : Nat → Tally → Bool × Tally} {ptr : Nat → Bool} {i : Nat} (hi : 1 ≤ i)
    (hf : ∀ o t j, o < 64 → ¬ Under (child i o) j → (f (child i o) t).2.live j = t.live j) (os : List Nat)
    (hos : ∀ o ∈ os, o < 64) (t : Tally) (j : Nat) (hj : ¬ Under i j) : (kids f ptr i os t).2.live j = t.live j := by
  induction os generalizing t with
  | nil => rfl
  | cons o os ih =>
    have ho := hos o List.mem_cons_self
    rw [kids]
    split
    · rfl
    · rfl
    · split
      · have h1 := hf o t j ho (fun h => hj (h.parent hi ho))
        revert h1
        generalize f (child i o) t = y
        obtain ⟨r, t'⟩ := y
        intro h1
        cases r with
        | false => exact h1
        | true =>
          dsimp only at h1 ⊢
          rw [ih (fun x hx => hos x (List.mem_cons_of_mem _ hx)), decr_live,
            if_neg (fun h : j = i => hj (by rw [h]; exact Under.self _)), h1]
      · exact ih (fun x hx => hos x (List.mem_cons_of_mem _ hx)) t

theorem discard_outside (q : DropOrc) (ptr : Nat → Bool) (k i : Nat) (hi : 1 ≤ i) (t : Tally) (j : Nat)
    (hj : ¬ Under i j) : (discard q ptr k i t).2.live j = t.live j := by
  induction k generalizing i t j with
  | zero => rfl
  | succ k ih =>
    rw [discard, level]
    split
    · rfl
    · split
      · rfl
      · have h1 := kids_outside (f := discard q ptr k) (ptr := ptr) hi
          (fun o t j ho h => ih (child i o) (by have := child_gt (o := o) hi; omega) t j h) ords
          (fun o ho => mem_ords.mp ho) t j hj
        revert h1
        generalize kids (discard q ptr k) ptr i ords t = y
        obtain ⟨r, t'⟩ := y
        intro h1
        cases r with
        | false => exact h1
        | true =>
          dsimp only at h1 ⊢
          split
          · exact h1
          · show (if j = i then none else t'.live j) = _
            rw [if_neg (fun h : j = i => hj (by rw [h]; exact Under.self _)), h1]

theorem kids_good {f : Nat → Tally → Bool × Tally} {ptr : Nat → Bool} {i : Nat} (hi : 1 ≤ i)
    (hf : ∀ o t j, o < 64 → ¬ Under (child i o) j → (f (child i o) t).2.live j = t.live j)
    (hs : ∀ o t, o < 64 → ptr (child i o) = true →
      (∀ j, Under (child i o) j → ptr j = true → (t.live j).isSome = true) → (f (child i o) t).1 = true)
    (os : List Nat) (hos : ∀ o ∈ os, o < 64) (hnd : os.Nodup) (t : Tally) (hti : (t.live i).isSome = true)
    (ht : ∀ o ∈ os, ∀ j, Under (child i o) j → ptr j = true → (t.live j).isSome = true) :
    (kids f ptr i os t).1 = true := by
  induction os generalizing t with
  | nil => rfl
  | cons o os ih =>
    have ho := hos o List.mem_cons_self
    rw [List.nodup_cons] at hnd
    rw [kids]
    split
    · rename_i h; rw [h] at hti; cases hti
    · rfl
    · split
      · rename_i hp
        have h1 := hf o t
        have h2 := hs o t ho hp (ht o List.mem_cons_self)
        revert h1 h2
        generalize f (child i o) t = y
        obtain ⟨r, t'⟩ := y
        intro h1 h2
        dsimp only at h1 h2
        subst h2
        dsimp only
        refine ih (fun x hx => hos x (List.mem_cons_of_mem _ hx)) hnd.2 (t'.decr i) ?_ ?_
        · rw [decr_live, if_pos rfl, h1 i ho (Under.not_up hi ho)]
          cases hl : t.live i with
          | none => rw [hl] at hti; cases hti
          | some a => rfl
        · intro o' ho' j hj hpj
          have ho64 := hos o' (List.mem_cons_of_mem _ ho')
          rw [decr_live, if_neg (fun h : j = i => Under.not_up hi ho64 (by rw [h] at hj; exact hj)),
            h1 j ho (fun h => hnd.1 ((Under.sibling hi ho ho64 h hj) ▸ ho'))]
          exact ht o' (List.mem_cons_of_mem _ ho') j hj hpj
      · exact ih (fun x hx => hos x (List.mem_cons_of_mem _ hx)) hnd.2 t hti
          (fun o' ho' => ht o' (List.mem_cons_of_mem _ ho'))

/-- Without failures a whole tree of five levels is given back. -/
theorem discard_good (q : DropOrc) (ptr : Nat → Bool) (hq : ∀ j, q.stage j = false ∧ q.rm j = false)
    (hd : ∀ j, ptr j = true → depth j ≤ 4) (k i : Nat) (hi : 1 ≤ i) (hk : k + depth i = 5) (hpi : ptr i = true) (t : Tally)
    (ht : ∀ j, Under i j → ptr j = true → (t.live j).isSome = true) : (discard q ptr k i t).1 = true := by
  induction k generalizing i t with
  | zero => have := hd i hpi; omega
  | succ k ih =>
    have hti := ht i (Under.self i) hpi
    have h1 := kids_good (f := discard q ptr k) (ptr := ptr) hi
      (fun o t j ho h => discard_outside q ptr k _ (by have := child_gt (o := o) hi; omega) t j h)
      (fun o t ho hp h => ih (child i o) (by have := child_gt (o := o) hi; omega)
        (by rw [C12_depth_child i o hi ho]; omega) hp t h) ords (fun o ho => mem_ords.mp ho) ords_nodup t hti
      (fun o ho j hj => ht j (hj.parent hi (mem_ords.mp ho)))
    rw [discard, level]
    split
    · rename_i h; rw [h] at hti; cases hti
    · rw [(hq i).1, if_neg Bool.false_ne_true]
      revert h1
      generalize kids (discard q ptr k) ptr i ords t = y
      obtain ⟨r, t'⟩ := y
      intro h1
      dsimp only at h1
      subst h1
      dsimp only
      rw [(hq i).2, if_neg Bool.false_ne_true]

/-! ### The property -/

/-- C38 for directories.  After any history of additions and removals, with any failures of reading, of taking and
of giving back nodes, st_blocks of the directory is 16 for each node it has in storage; and unless giving back a
tree failed, those are the nodes of the directory, the size is the one by the last of them, and the offset of each
entry is below the size. -/
theorem C38_dir_blocks (hash : Name → Nat) (ops : List (Op × Orc × DropOrc)) :
    (∃ L : List Nat, L.Nodup ∧ (∀ i, i ∈ L ↔ ((sRun (Sized.fresh hash) ops).t.live i).isSome = true) ∧
      dirStatBlocks (sRun (Sized.fresh hash) ops).t = 16 * L.length) ∧
    ((sRun (Sized.fresh hash) ops).d.dangling = false →
      (∀ i, ((sRun (Sized.fresh hash) ops).t.live i).isSome = ((sRun (Sized.fresh hash) ops).d.nodes i).isSome) ∧
      (sRun (Sized.fresh hash) ops).t.size = indexToIsize (sRun (Sized.fresh hash) ops).d.last ∧
      ∀ i s e, EntAt (sRun (Sized.fresh hash) ops).d.nodes i s e → mkDoff i s < (sRun (Sized.fresh hash) ops).t.size) := by
  have h := sinv_run (SInv.fresh hash) ops
  refine ⟨?_, fun hd => ?_⟩
  · obtain ⟨L, h1, h2, h3⟩ := h.exact
    refine ⟨L, h1, fun i => ?_, ?_⟩
    · rw [h2 i]
      cases (sRun (Sized.fresh hash) ops).t.live i with
      | none => exact ⟨nofun, nofun⟩
      | some a => exact ⟨fun _ => rfl, fun _ => ⟨a, rfl⟩⟩
    · unfold dirStatBlocks
      rw [h3]; omega
  · obtain ⟨⟨hv, _⟩, hm⟩ := h.ok hd
    refine ⟨hm.same, hm.size, fun i s e he => ?_⟩
    have hs := he.slot_lt hv
    obtain ⟨n, hn, _⟩ := he
    have hl := (hv.range i n hn).2.2.1
    have hi := (hv.range i n hn).1
    rw [hm.size]
    unfold indexToIsize
    rw [if_neg (by omega), mkDoff_eq i s (by omega), mkDoff_eq _ 0 (by omega)]
    omega

/-- Removing the last entry of a directory gives back every node of it, unless reading or giving back one of them
fails; then the directory has no blocks and the size of a new one. -/
theorem C38_dir_emptied (hash : Name → Nat) (ops : List (Op × Orc × DropOrc)) (o : Orc) (q : DropOrc) (nm : Name)
    (hr : ((sRun (Sized.fresh hash) ops).remove o q nm).1 = .ok ())
    (h1 : (sRun (Sized.fresh hash) ops).d.ndents = 1) :
    (∀ i, ((sRun (Sized.fresh hash) ops).remove o q nm).2.t.live i = none) ∧
    (emptied (sRun (Sized.fresh hash) ops) q).2.blocks = 0 ∧
    dirStatBlocks ((sRun (Sized.fresh hash) ops).remove o q nm).2.t = 0 ∧
    ((sRun (Sized.fresh hash) ops).remove o q nm).2.t.size = 1024 := by
  have h := sinv_run (SInv.fresh hash) ops
  revert hr h1 h
  generalize sRun (Sized.fresh hash) ops = s
  intro hr h1 h
  cases hd : s.d.dangling with
  | true => have := (h.bad hd).1; omega
  | false =>
    obtain ⟨⟨hv, _⟩, hm⟩ := h.ok hd
    rw [Sized.remove] at hr ⊢
    revert hr
    cases s.d.find o nm with
    | ok x =>
      obtain ⟨i, sl, e⟩ := x
      dsimp only
      by_cases h2 : o.inode = true
      · rw [if_pos h2]; exact nofun
      rw [if_neg h2]
      cases hn : s.d.nodes i with
      | none => exact nofun
      | some n =>
        dsimp only
        rw [if_pos (by omega)]
        have ha := fun hq => emptied_all (q := q) hv hm h.exact hq
        revert ha
        unfold emptied
        generalize discard q (fun j => (s.d.nodes j).isSome) 5 1 s.t = y
        obtain ⟨r, t'⟩ := y
        intro ha hr
        cases r with
        | false => cases hr
        | true =>
          have := ha rfl
          exact ⟨this.1, this.2, rfl, rfl⟩
    | _ => exact nofun

/-- Giving back the tree of a directory fails only if reading or giving back some node fails. -/
theorem C38_dir_emptied_ok (hash : Name → Nat) (ops : List (Op × Orc × DropOrc)) (q : DropOrc)
    (hd : (sRun (Sized.fresh hash) ops).d.dangling = false) (h1 : (sRun (Sized.fresh hash) ops).d.ndents ≠ 0)
    (hq : ∀ j, q.stage j = false ∧ q.rm j = false) : (emptied (sRun (Sized.fresh hash) ops) q).1 = true := by
  obtain ⟨⟨hv, _⟩, hm⟩ := (sinv_run (SInv.fresh hash) ops).ok hd
  revert hv hm h1
  generalize sRun (Sized.fresh hash) ops = s
  intro h1 hm hv
  have hroot : ∃ r, s.d.nodes 1 = some r := by
    cases hr : s.d.nodes 1 with
    | some r => exact ⟨r, rfl⟩
    | none =>
      exfalso
      refine h1 (hv.ndents_zero.2 fun i sl e he => ?_)
      obtain ⟨r, h⟩ := hv.root_of_ent he
      rw [hr] at h; cases h
  obtain ⟨r, hr⟩ := hroot
  refine discard_good q _ hq (fun j hj => ?_) 5 1 (by omega) (by rw [depth_le_one 1 (by omega)]) ?_ s.t
    (fun j _ hj => by rw [hm.same j]; exact hj)
  · cases hn : s.d.nodes j with
    | none => rw [hn] at hj; cases hj
    | some n => exact hv.depth_le hn
  · show (s.d.nodes 1).isSome = true
    rw [hr]; rfl

/-- A directory of one entry has one node; it is gone with the entry, and it stays, and is counted, when giving it
back fails. -/
example :
    let o := Orc.good (fun _ => 0)
    let s := sRun (Sized.fresh fun _ => 0) [(.add [97] 5 1, o, ⟨fun _ => false, fun _ => false⟩)]
    let r := s.remove o ⟨fun _ => false, fun _ => false⟩ [97]
    let f := s.remove o ⟨fun _ => false, fun i => i == 1⟩ [97]
    s.d.ndents = 1 ∧ dirStatBlocks s.t = 16 ∧ s.t.size = 65536 ∧ r.1 = .ok () ∧ dirStatBlocks r.2.t = 0 ∧
    f.1 = .eio ∧ dirStatBlocks f.2.t = 16 := by decide +kernel

end Silofs.Dir
