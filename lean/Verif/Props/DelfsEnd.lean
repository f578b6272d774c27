import Verif.Props.DelfsStep
/-
C44: deletion removes exactly the volume, can be repeated after a stop that left all the space maps, and can be part of any history; but
the storage of a closed volume cannot be given back.
-/
set_option linter.unusedSimpArgs false
set_option linter.unusedVariables false
namespace Silofs.Snap

/-- The specification: the repository without volume `v`. -/
def erase (v : Lvid) (s : St) : St :=
  { s with
    vol := fun w => if w = v then none else s.vol w
    un := fun w k i => if w = v then {} else s.un w k i
    dat := fun w b j => if w = v then fun _ => 0 else s.dat w b j }

/-- The space maps below each node grow in order: of the nodes with one parent, those before one that is
there are there (claim.c:251-268: a search for free space goes on leaf by leaf). -/
def InOrder (s : St) (v : Lvid) : Prop :=
  ∀ k i i', k < 4 → s.loc v (k + 1) i ≠ none → i' / 256 = i / 256 → i' < i → s.loc v (k + 1) i' ≠ none

theorem dense_of {s : St} {v : Lvid} (g : Good s) (h : InOrder s v) : Dense s v := by
  intro k i w c c' hk hl hc hcc hne
  rw [← loc_child hl hc] at hne
  rw [← loc_child hl (by omega : c' < 256)]
  by_cases h4 : k = 4
  · subst h4
    exact g.full v i c' (by omega) (by rw [hl]; exact fun z => (nomatch z))
  · exact h k _ _ (by omega) hne (by omega) (by omega)

/-- A deletion that starts with all the segments in place. -/
def start (s : St) (o : Option Nat) : Del := { st := s, gas := o }

theorem inv_start (v : Lvid) (s : St) (o : Option Nat) : Inv v s (start s o) :=
  ⟨Only.refl v s, Less.refl v s, fun _ _ _ _ => Or.inl rfl, fun _ _ => Or.inl rfl, fun _ _ _ h => (nomatch h)⟩

/-- Nothing of the volume left: the repository without the volume. -/
theorem erased {v : Lvid} {s : St} {x : Del} (g : Good s) (h : Inv v s x) (he : Empty v s x.st) :
    { x.st with vol := fun w => if w = v then none else x.st.vol w } = erase v s := by
  have hu : x.st.un = fun w k i => if w = v then {} else s.un w k i := by
    funext w k i
    by_cases e : w = v
    · subst e
      rw [if_pos rfl]
      rcases h.less.un k i with e1 | e1
      · by_cases e2 : s.un w k i = {}
        · rw [e1, e2]
        · obtain ⟨h1, h2⟩ := g.un w k i e2
          have := he k i (by omega) h2
          unfold Removed at this
          rw [if_neg (by omega)] at this
          exact this
      · exact e1
    · rw [if_neg e]; exact h.only.un w k i e
  have hd : x.st.dat = fun w b j => if w = v then fun _ => 0 else s.dat w b j := by
    funext w b j
    by_cases e : w = v
    · subst e
      rw [if_pos rfl]
      rcases h.less.dat b j with e1 | e1
      · by_cases e2 : s.dat w b j = fun _ => 0
        · rw [e1, e2]
        · have := he 5 b (by omega) (g.dat w b j e2)
          unfold Removed at this
          rw [if_pos rfl] at this
          exact this j
      · exact e1
    · rw [if_neg e]; exact h.only.dat w b j e
  have hv : (fun w => if w = v then none else x.st.vol w) = fun w => if w = v then none else s.vol w := by
    funext w
    by_cases e : w = v
    · rw [if_pos e, if_pos e]
    · rw [if_neg e, if_neg e]; exact h.only.vol w e
  have h1 := h.only.cur
  have h2 := h.only.cache
  have h3 := h.only.big
  have h4 := h.only.per
  simp only [erase, hu, hd, hv, h1, h2, h3, h4]

theorem unref_some {v : Lvid} {x : Del} {V : Vol} (h1 : x.st.vol v = some V) (h2 : V.fossil = false)
    (h3 : x.st.cur ≠ v) : unrefFs v x = some ((travSuper v x).rmVol v) := by
  unfold unrefFs
  rw [h1]
  simp only
  rw [if_neg (by simp [h2, h3])]

theorem unref_exact {v : Lvid} {s0 : St} {x y : Del} (g : Good s0) (hD : Dense s0 v) (hi : Inv v s0 x)
    (hg : x.gas = none) (hk : ∀ u k j, x.gone u k j = false) (e : unrefFs v x = some y) : y.st = erase v s0 := by
  obtain ⟨V, h1, h2, h3, h4⟩ := unref_ok e
  obtain ⟨i1, _, i2⟩ := travSuper_inv hD hi
  have hn := travSuper_none (v := v) hg hk
  have ha : (travSuper v x).alive := by unfold Del.alive; rw [hn]; exact fun z => (nomatch z)
  rw [h4]
  unfold Del.rmVol
  rw [(act_none hn).2.1]
  exact erased g i1 (i2 ha).1

/-- **C44**: a deletion that runs to its end leaves the repository as it would be without the volume:
nothing of it stays, everything else is the same. -/
theorem C44_complete {v : Lvid} {s : St} {y : Del} (g : Good s) (hO : InOrder s v)
    (e : unrefFs v (start s none) = some y) : y.st = erase v s :=
  unref_exact g (dense_of g hO) (inv_start v s none) rfl (fun _ _ _ => rfl) e

/-- **C44** (in part): a deletion that was stopped after any number of removals has either removed everything, or, if
the segments with its space maps are all still there, can be run again and then removes the rest.  Missing: the
case that a segment with space maps was removed, in which it is false (`C44_stuck`). -/
theorem C44_again_partial {v : Lvid} {s : St} {n : Nat} {x : Del} (g : Good s) (hO : InOrder s v)
    (e : unrefFs v (start s (some n)) = some x) :
    x.st = erase v s ∨ ((∀ u k j, x.gone u k j = false) →
      ∃ y, unrefFs v { x with gas := none } = some y ∧ y.st = erase v s) := by
  obtain ⟨V, h1, h2, h3, h4⟩ := unref_ok e
  have hD := dense_of g hO
  obtain ⟨i1, _, i2⟩ := travSuper_inv hD (inv_start v s (some n))
  by_cases ha : (travSuper v (start s (some n))).alive
  · refine Or.inl ?_
    rw [h4]
    unfold Del.rmVol
    rw [(act_live ha).1]
    exact erased g i1 (i2 ha).1
  · refine Or.inr (fun hk => ?_)
    have hx : x = travSuper v (start s (some n)) := by rw [h4]; unfold Del.rmVol; rw [act_dead ha]
    have hi : Inv v s { x with gas := none } := by rw [hx]; exact ⟨i1.only, i1.less, i1.shut, i1.mark, i1.src⟩
    have e2 : unrefFs v { x with gas := none } = some ((travSuper v { x with gas := none }).rmVol v) :=
      unref_some (V := V) (by show x.st.vol v = some V; rw [hi.less.vol]; exact h1) h2
        (by show x.st.cur ≠ v; rw [hi.only.cur]; exact h3)
    exact ⟨_, e2, unref_exact g hD hi rfl hk e2⟩

/-- Any number of further attempts to delete the volume, each of them left alone or stopped. -/
inductive Tries (v : Lvid) : Del → Del → Prop
  | refl {x : Del} : Tries v x x
  | again {x y z : Del} (o : Option Nat) : Tries v x y → unrefFs v { y with gas := o } = some z → Tries v x z

/-- **C44**: once a stopped deletion has removed a segment with space maps but not the volume, no later attempt
gets to the end: the volume stays in the repository. -/
theorem C44_stuck {v : Lvid} {s : St} {n : Nat} {x y : Del} (g : Good s) (hO : InOrder s v)
    (e : unrefFs v (start s (some n)) = some x) {u : Lvid} {k j : Nat} (hx : x.gone u k j = true)
    (hv : x.st.vol v ≠ none) (t : Tries v x y) : y.st.vol v = s.vol v ∧ y.st.vol v ≠ none := by
  have hD := dense_of g hO
  have one : ∀ {a b : Del}, Inv v s a → a.gone u k j = true → unrefFs v a = some b →
      Inv v s b ∧ b.gone u k j = true := by
    intro a b ha hu hb
    obtain ⟨V, h1, h2, h3, h4⟩ := unref_ok hb
    obtain ⟨i1, l, i2⟩ := travSuper_inv hD ha
    have hd : ¬ (travSuper v a).alive := by
      intro al
      have := (i2 al).2 k j
      rw [← (ha.src u k j hu).1, hu] at this
      cases this
    have hb' : b = travSuper v a := by rw [h4]; unfold Del.rmVol; rw [act_dead hd]
    rw [hb']
    exact ⟨i1, l.gone _ _ _ hu⟩
  have first : Inv v s x := by
    obtain ⟨V, h1, h2, h3, h4⟩ := unref_ok e
    obtain ⟨i1, _, i2⟩ := travSuper_inv hD (inv_start v s (some n))
    by_cases ha : (travSuper v (start s (some n))).alive
    · refine absurd ?_ hv
      rw [h4]
      unfold Del.rmVol
      rw [(act_live ha).1]
      exact if_pos rfl
    · have hx : x = travSuper v (start s (some n)) := by rw [h4]; unfold Del.rmVol; rw [act_dead ha]
      rw [hx]; exact i1
  have all : Inv v s y ∧ y.gone u k j = true := by
    induction t with
    | refl => exact ⟨first, hx⟩
    | @again y' z' o _ hz ih =>
      obtain ⟨a, b⟩ := ih
      exact one (a := { y' with gas := o }) ⟨a.only, a.less, a.shut, a.mark, a.src⟩ b hz
  rw [all.1.less.vol]
  exact ⟨rfl, by rw [← first.less.vol]; exact hv⟩

/-! ### Histories with deletions -/

theorem erase_only (v : Lvid) (s : St) : Only v s (erase v s) :=
  ⟨rfl, rfl, rfl, rfl, fun w hw => if_neg hw, fun w _ _ hw => if_neg hw, fun w _ _ hw => if_neg hw⟩

theorem erase_fos {v w : Lvid} {s : St} (nf : ¬ s.fos v) (h : s.fos w) : (erase v s).fos w := by
  have hw : w ≠ v := fun e => nf (by rw [← e]; exact h)
  obtain ⟨W, h1, h2⟩ := h
  exact ⟨W, (if_neg hw).trans h1, h2⟩

theorem root_none {s : St} {v : Lvid} (h : s.root v = none) : ∀ k i, s.loc v k i = none := by
  intro k
  induction k with
  | zero => intro i; simp only [St.loc, walk, h, ite_self]
  | succ k ih =>
    intro i
    have := loc_child_none (ih (i / 256)) (Nat.mod_lt i (show 256 > 0 by decide))
    rwa [show i / 256 * 256 + i % 256 = i by omega] at this

/-- The invariants of the other properties hold after a deletion, so any history can go on. -/
theorem C44_wf {v : Lvid} {s : St} (h : Wf s) (g : Good s) (nf : ¬ s.fos v) (hc : s.cur ≠ v) :
    Wf (erase v s) ∧ Good (erase v s) := by
  have o := erase_only v s
  have lo : ∀ w, w ≠ v → ∀ k i, (erase v s).loc w k i = s.loc w k i := fun w hw k i => only_loc h nf o hw k i
  have l0 : ∀ k i, (erase v s).loc v k i = none := root_none (by simp [St.root, erase])
  have ff : ∀ w, s.fos w → (erase v s).fos w := fun w => erase_fos nf
  refine ⟨⟨?_, fun u V w hu hr => ?_, fun u k i c w e => ?_, fun u k i c hu => ?_, fun hm b j e he => ?_⟩,
    fun u k i hu => ?_, fun u b j hu => ?_, fun u i c hx hl => ?_, fun b j e he => ?_⟩
  · show ((if s.cur = v then none else s.vol s.cur) : Option Vol).isSome = true
    rw [if_neg hc]; exact h.mounted
  · have hu' : (if u = v then none else s.vol u) = some V := hu
    by_cases e : u = v
    · rw [if_pos e] at hu'; cases hu'
    · rw [if_neg e] at hu'
      rcases h.root u V w hu' hr with e1 | e1
      · exact Or.inl e1
      · exact Or.inr (ff w e1)
  · have e' : ((if u = v then {} else s.un u k i) : UNode).child c = some w := e
    by_cases hu : u = v
    · rw [if_pos hu] at e'; cases e'
    · rw [if_neg hu] at e'
      rcases h.child u k i c w e' with e1 | e1
      · exact Or.inl e1
      · exact Or.inr (ff w e1)
  · show ((if u = v then {} else s.un u k i) : UNode).child c = none
    by_cases e : u = v
    · rw [if_pos e]
    · rw [if_neg e]
      have hu' : (if u = v then none else s.vol u) = none := hu
      rw [if_neg e] at hu'
      exact h.fresh u k i c hu'
  · refine h.clean ?_ b j e he
    have : (erase v s).mut = s.mut := by
      simp only [St.mut, o.cur, o.vol s.cur hc]
    rw [← this]; exact hm
  · have hu' : (if u = v then {} else s.un u k i) ≠ {} := hu
    by_cases e : u = v
    · rw [if_pos e] at hu'; exact absurd rfl hu'
    · rw [if_neg e] at hu'; rw [lo u e]; exact g.un u k i hu'
  · have hu' : (if u = v then fun _ => 0 else s.dat u b j) ≠ fun _ => 0 := hu
    by_cases e : u = v
    · rw [if_pos e] at hu'; exact absurd rfl hu'
    · rw [if_neg e] at hu'; rw [lo u e]; exact g.dat u b j hu'
  · by_cases e : u = v
    · rw [e, l0] at hl; exact absurd rfl hl
    · rw [lo u e] at hl ⊢; exact g.full u i c hx hl
  · rcases g.link b j e he with ⟨h1, h2⟩ | h1
    · refine Or.inl ⟨h1, ?_⟩
      show (erase v s).loc s.cur 5 b = some s.cur
      rw [lo s.cur hc]; exact h2
    · exact Or.inr (ff _ h1)

/-- A history of requests and deletions; `P` restricts the states, `D` the deleted volumes. -/
inductive Life (P : St → Prop) (D : Lvid → Prop) : St → St → Prop
  | refl {s : St} : Life P D s s
  | step {s s' s'' : St} {a : Act} : Life P D s s' → P s' → Step a s' s'' → Life P D s s''
  | del {s s' : St} {v : Lvid} {y : Del} : Life P D s s' → D v → InOrder s' v → unrefFs v (start s' none) = some y →
      Life P D s y.st

/-- **C44** over histories: requests, snapshots and deletions of other volumes in any order leave a volume that
is neither mounted nor deleted as it is. -/
theorem C44_history {v : Lvid} {s s' : St} (h : Wf s) (g : Good s) (hv : (s.vol v).isSome = true)
    (l : Life (fun t => v ≠ t.cur) (fun u => u ≠ v) s s') :
    Wf s' ∧ Good s' ∧ (s'.vol v).isSome = true ∧ ∀ b j, s'.content v b j = s.content v b j := by
  induction l with
  | refl => exact ⟨h, g, hv, fun _ _ => rfl⟩
  | step _ p one ih =>
    obtain ⟨i1, i2, i3, i4⟩ := ih
    exact ⟨wf_step i1 one, good_step i1 i2 one, (step_known one i1 i3).1,
      fun b j => (C24_step i1 one i3 (Or.inl p) b j).trans (i4 b j)⟩
  | @del s1 u y _ hu hO e ih =>
    obtain ⟨i1, i2, i3, i4⟩ := ih
    obtain ⟨V, h1, h2, h3, _⟩ := unref_ok e
    have nf : ¬ s1.fos u := by
      rintro ⟨W, h4, h5⟩
      have h1 : s1.vol u = some V := h1
      rw [h1] at h4
      cases h4
      rw [h2] at h5
      cases h5
    have o := C44_others i1 e hu.symm
    have w := C44_wf i1 i2 nf h3
    rw [← C44_complete i2 hO e] at w
    refine ⟨w.1, w.2, ?_, fun b j => (o.2.1 b j).trans (i4 b j)⟩
    rw [o.1]; exact i3

/-- The maps of all volumes are in order after any step that adds nodes in order. -/
theorem C44_order {a : Act} {s s' : St} (h : Wf s) (st : Step a s s') (hO : ∀ v, InOrder s v)
    (new : ∀ k i, k < 4 → s.loc s.cur (k + 1) i = none → s'.loc s.cur (k + 1) i ≠ none →
      ∀ i', i' / 256 = i / 256 → i' < i → s.loc s.cur (k + 1) i' ≠ none) : ∀ v, InOrder s' v := by
  have same : (∀ v k i, s'.loc v k i = s.loc v k i) → ∀ v, InOrder s' v := by
    intro hl v k i i' hk hi hd hlt
    rw [hl] at hi ⊢
    exact hO v k i i' hk hi hd hlt
  have fine : s.mut = true → Fine s s' → ∀ v, InOrder s' v := by
    intro m f v k i i' hk hl hd hlt
    by_cases e : v = s.cur
    · subst e
      refine f.grow.keep _ _ (by omega) ?_
      by_cases hn : s.loc s.cur (k + 1) i = none
      · exact new k i hk hn hl i' hd hlt
      · exact hO _ k i i' hk hn hd hlt
    · rw [loc_other h m f.own e] at hl ⊢
      exact hO v k i i' hk hl hd hlt
  cases st with
  | cow mk k i m hk => exact fine m (fine_cow mk k i s hk h.mounted)
  | load b j e =>
    obtain ⟨a1, a2, _, _, _, _⟩ := load_same e
    exact same fun v k i => by simp only [loc_walk, a2, St.root, a1]
  | touch b j m e => exact fine m (fine_cowBlk h m e)
  | failClone raw b j m e => exact fine m (fine_failClone h m e)
  | flush b j e =>
    unfold flush at e
    split at e
    · cases e
    · split at e
      · split at e
        · cases e; exact same fun v k i => rfl
        · cases e
      · cases e
  | evict b j e =>
    unfold evict at e
    split at e
    · cases e
    · split at e
      · cases e
      · cases e; exact same fun v k i => rfl
  | write b j g m e => exact fine m (fine_write h m e)
  | spawn b j m e => exact fine m (fine_spawn h m e)
  | free b j m e => exact fine m (fine_free h m e)
  | fork x n m hc hx hn hne =>
    intro v
    by_cases hv : v = x ∨ v = n
    · have hl : ∀ k i, (fork x n s).loc v k i = s.loc s.cur k i := by
        intro k i
        have hr : (fork x n s).root v = s.root s.cur := by
          rcases hv with e | e <;> subst e <;> simp [St.root, fork]
        simp only [loc_walk, hr]
        rfl
      intro k i i' hk hi hd hlt
      rw [hl] at hi ⊢
      exact hO _ k i i' hk hi hd hlt
    · have hl : ∀ k i, (fork x n s).loc v k i = s.loc v k i := by
        intro k i
        have hr : (fork x n s).root v = s.root v := by
          have h1 : v ≠ x := fun e => hv (Or.inl e)
          have h2 : v ≠ n := fun e => hv (Or.inr e)
          by_cases e : v = s.cur
          · subst e
            simp only [St.root, fork, if_neg hv, if_true]
            cases s.vol s.cur <;> rfl
          · simp only [St.root, fork, if_neg hv, if_neg e]
        simp only [loc_walk, hr]
        rfl
      intro k i i' hk hi hd hlt
      rw [hl] at hi ⊢
      exact hO _ k i i' hk hi hd hlt
  | mount v hc hv => exact same fun v k i => rfl

/-! ### Cases -/

theorem fresh_good (v : Lvid) (big : Bool) (per : Nat) : Good (fresh v big per) ∧ ∀ u, InOrder (fresh v big per) u := by
  have l0 : ∀ u k i, (fresh v big per).loc u k i = none := fun u => root_none (by
    simp only [St.root, fresh]
    by_cases e : u = v
    · rw [if_pos e]; rfl
    · rw [if_neg e]; rfl)
  exact ⟨⟨fun _ _ _ hu => absurd rfl hu, fun _ _ _ hu => absurd rfl hu, fun u i c _ hl => absurd (l0 u 4 i) hl,
    fun _ _ _ he => (nomatch he)⟩, fun u k i i' _ hl => absurd (l0 u _ i) hl⟩

/-- Volume 1 of `one`: where its nodes are. -/
theorem one_loc : ∀ k i, k ≤ 4 → one.loc 1 k i = if i = 0 then some 1 else none := by
  intro k
  induction k with
  | zero => intro i _; rfl
  | succ k ih =>
    intro i hk
    have h := ih (i / 256) (by omega)
    simp only [loc_walk] at h ⊢
    rw [walk_succ, h]
    by_cases e : i / 256 = 0
    · rw [if_pos e]
      simp only [one]
      rw [if_pos ⟨trivial, e, by omega⟩]
      show (if i % 256 = 0 ∨ k = 4 then some 1 else none) = _
      by_cases e2 : i = 0
      · rw [if_pos e2, if_pos (Or.inl (by omega))]
      · rw [if_neg e2, if_neg (by omega)]
    · rw [if_neg e, if_neg (by omega)]

theorem one_blk (b : Nat) : one.loc 1 5 b = if b / 256 = 0 then some 1 else none := by
  have h := one_loc 4 (b / 256) (by omega)
  simp only [loc_walk] at h ⊢
  rw [walk_succ, h]
  by_cases e : b / 256 = 0
  · rw [if_pos e]
    simp only [one]
    rw [if_pos ⟨trivial, e, by omega⟩]
    simp [e]
  · rw [if_neg e]

theorem one_good : Good one := by
  have l0 : ∀ u, u ≠ 1 → ∀ k i, one.loc u k i = none := fun u hu => root_none (by simp [St.root, one, hu])
  refine ⟨fun v k i hu => ?_, fun v b j hu => ?_, fun v i c hc hl => ?_, fun _ _ _ he => (nomatch he)⟩
  · simp only [one] at hu
    by_cases e : v = 1 ∧ i = 0 ∧ k ≤ 4
    · obtain ⟨rfl, rfl, hk⟩ := e
      exact ⟨hk, by rw [one_loc k 0 hk]; rfl⟩
    · rw [if_neg e] at hu; exact absurd rfl hu
  · by_cases e : v = 1 ∧ b = 1 ∧ j = 0
    · obtain ⟨rfl, rfl, rfl⟩ := e
      rw [one_blk]; rfl
    · exact absurd (by funext x; simp [one, e]) hu
  · by_cases e : v = 1
    · subst e
      rw [one_loc 4 i (by omega)] at hl
      by_cases e2 : i = 0
      · rw [one_blk, if_pos (by omega)]; exact fun z => (nomatch z)
      · rw [if_neg e2] at hl; exact absurd rfl hl
    · exact absurd (l0 v e 4 i) hl

/-- All nodes of a volume made by forking `one` are the first ones. -/
theorem order_of_one {s : St} {v : Lvid} (h : ∀ k i, s.loc v k i = one.loc 1 k i) : InOrder s v := by
  intro k i i' hk hl _ hlt
  rw [h, one_loc _ _ (by omega)] at hl
  by_cases e : i = 0
  · omega
  · rw [if_neg e] at hl; exact absurd rfl hl

/-- The state after a snapshot, deleting it, mounting the old volume and deleting the new one. -/
def alone : St := erase 3 (mount 1 (erase 2 two))

theorem alone_life : Life (fun _ => True) (fun _ => True) one alone := by
  have nf2 : ¬ two.fos 2 := by rintro ⟨W, h1, h2⟩; cases h1; cases h2
  have g2 : Good two := good_step one_wf.1 one_good two_fork
  have w2 : Wf two := two_wf.1
  have o2 : InOrder two 2 := order_of_one (fun k i => rfl)
  have e2 : unrefFs 2 (start two none) = some ((travSuper 2 (start two none)).rmVol 2) :=
    unref_some (V := { root := some 1 }) rfl rfl (by show two.cur ≠ 2; decide)
  have c2 := C44_complete g2 o2 e2
  have h2 := C44_wf w2 g2 nf2 (show two.cur ≠ 2 by decide)
  have l1 : Life (fun _ => True) (fun _ => True) one (erase 2 two) := by
    rw [← c2]
    exact .del (.step .refl trivial two_fork) trivial o2 e2
  have m : Step (.mount 1) (erase 2 two) (mount 1 (erase 2 two)) :=
    .mount 1 (fun b j e he => (nomatch he)) rfl
  have g3 : Good (mount 1 (erase 2 two)) := good_step h2.1 h2.2 m
  have o3 : InOrder (mount 1 (erase 2 two)) 3 := order_of_one (fun k i => by
    show (erase 2 two).loc 3 k i = _
    rw [only_loc w2 nf2 (erase_only 2 two) (by decide) k i]
    rfl)
  have e3 : unrefFs 3 (start (mount 1 (erase 2 two)) none) = some ((travSuper 3 (start (mount 1 (erase 2 two)) none)).rmVol 3) :=
    unref_some (V := { root := some 1 }) rfl rfl (by show (1 : Nat) ≠ 3; decide)
  have c3 := C44_complete g3 o3 e3
  have := Life.del (.step l1 trivial m) trivial o3 e3
  rw [c3] at this
  exact this

/-- **C44 is violated** for space: after a snapshot, deleting both file-systems leaves all their common
storage in the repository, with no file-system left that could be used, and deletion of it is
refused, now and after anything else that happens (execlib.c:1022-1026). -/
theorem C44_space_violated :
    ∃ s s', Wf s ∧ Good s ∧ Life (fun _ => True) (fun _ => True) s s' ∧
      (∀ v, s'.vol v ≠ none → s'.fos v) ∧ s'.dat 1 1 0 5 = 7 ∧
      ∀ s'' g, Steps (fun _ => True) s' s'' → unrefFs 1 (start s'' g) = none := by
  have hf : alone.fos 1 := ⟨{ root := some 1, fossil := true }, rfl, rfl⟩
  have hw : Wf alone := by
    have nf2 : ¬ two.fos 2 := by rintro ⟨W, h1, h2⟩; cases h1; cases h2
    have h2 := C44_wf two_wf.1 (good_step one_wf.1 one_good two_fork) nf2 (show two.cur ≠ 2 by decide)
    have m : Step (.mount 1) (erase 2 two) (mount 1 (erase 2 two)) := .mount 1 (fun b j e he => (nomatch he)) rfl
    refine (C44_wf (wf_step h2.1 m) (good_step h2.1 h2.2 m) ?_ (by show (1 : Nat) ≠ 3; decide)).1
    rintro ⟨W, h1, h2⟩; cases h1; cases h2
  refine ⟨one, alone, one_wf.1, one_good, alone_life, fun v hv => ?_, rfl, fun s'' g st => ?_⟩
  · have : v = 1 := by
      by_cases e : v = 1
      · exact e
      · exfalso
        apply hv
        by_cases e3 : v = 3
        · simp [alone, erase, e3]
        · by_cases e2 : v = 2
          · simp [alone, erase, mount, e2]
          · simp [alone, erase, mount, two, fork, one, e, e2, e3]
    rw [this]; exact hf
  · obtain ⟨_, ⟨W, h1, h2⟩, _⟩ := C24_closed hw hf st
    unfold unrefFs
    show (match s''.vol 1 with | none => _ | some V => _) = _
    rw [h1]
    simp [h2]

/-- Volume 1 with a block of its own, while another, empty, volume is in use. -/
def beside : St := { one with cur := 2, vol := fun v => if v = 2 then some {} else one.vol v }

theorem beside_loc (k i : Nat) : beside.loc 1 k i = one.loc 1 k i := by
  simp only [loc_walk]
  rfl

theorem beside_good : Good beside ∧ ∀ v, InOrder beside v := by
  have l0 : ∀ u, u ≠ 1 → ∀ k i, beside.loc u k i = none := fun u hu => root_none (by
    by_cases e : u = 2 <;> simp [St.root, beside, one, hu, e])
  have l1 : ∀ u k i, one.loc u k i = some u → beside.loc u k i = some u := by
    intro u k i h
    by_cases e : u = 1
    · subst e; rw [beside_loc]; exact h
    · have : one.loc u k i = none := root_none (by simp [St.root, one, e]) k i
      rw [this] at h; cases h
  refine ⟨⟨fun v k i hu => ?_, fun v b j hu => ?_, fun v i c hc hl => ?_, fun _ _ _ he => (nomatch he)⟩, fun v => ?_⟩
  · exact ⟨(one_good.un v k i hu).1, l1 _ _ _ (one_good.un v k i hu).2⟩
  · exact l1 _ _ _ (one_good.dat v b j hu)
  · by_cases e : v = 1
    · subst e
      rw [beside_loc] at hl ⊢
      exact one_good.full 1 i c hc hl
    · exact absurd (l0 v e 4 i) hl
  · by_cases e : v = 1
    · subst e; exact order_of_one beside_loc
    · exact fun k i i' _ hl => absurd (l0 v e _ i) hl

theorem beside_stop : ∃ x, unrefFs 1 (start beside (some 257)) = some x ∧ x.gone 1 4 0 = true ∧
    (x.st.vol 1).isSome = true := by
  have h : (match unrefFs 1 (start beside (some 257)) with
    | some x => x.gone 1 4 0 && (x.st.vol 1).isSome | none => false) = true := by decide +kernel
  cases e : unrefFs 1 (start beside (some 257)) with
  | none => rw [e] at h; cases h
  | some x =>
    rw [e] at h
    simp only [Bool.and_eq_true] at h
    exact ⟨x, rfl, h.1, h.2⟩

/-- **C44 is violated** for a deletion that is stopped: there is a file-system whose deletion, stopped at one point,
leaves a volume which no later deletion removes (lib/ustage.c:252-264). -/
theorem C44_again_violated : ∃ s v n x, Good s ∧ (∀ u, InOrder s u) ∧ unrefFs v (start s (some n)) = some x ∧
    ∀ y, Tries v x y → y.st.vol v ≠ none := by
  obtain ⟨x, h1, h2, h3⟩ := beside_stop
  refine ⟨beside, 1, 257, x, beside_good.1, beside_good.2, h1, fun y t => ?_⟩
  refine (C44_stuck beside_good.1 (beside_good.2 1) h1 h2 ?_ t).2
  intro e
  rw [e] at h3
  cases h3

/-- One removal earlier the deletion can be repeated. -/
example : (match unrefFs 1 (start beside (some 256)) with
    | some x => (x.st.vol 1).isSome && !x.gone 1 4 0 && !x.gone 1 3 0 && !x.gone 1 0 0 | none => false) = true := by
  decide +kernel

/-- The hypotheses of the other theorems are met: a snapshot that is deleted while the live volume is in
use. -/
example : Wf two ∧ Good two ∧ InOrder two 2 ∧ (unrefFs 2 (start two none)).isSome = true ∧ (two.vol 3).isSome = true :=
  ⟨two_wf.1, good_step one_wf.1 one_good two_fork, order_of_one (fun _ _ => rfl), rfl, rfl⟩

/-- The live volume, after a write, has its own nodes; all of them go when it is deleted. -/
example : (got (write 1 0 setFirst two)).loc 3 5 1 = some 3 ∧ (got (write 1 0 setFirst two)).loc 3 4 0 = some 3 ∧
    (got (write 1 0 setFirst two)).loc 3 5 2 = some 1 := by decide +kernel

end Silofs.Snap
