import Verif.Props.Delfs
/-
C44: a deletion which is not stopped removes everything that is stored in the volume, and never
stops over a segment that it has removed itself.
-/
set_option linter.unusedSimpArgs false
set_option linter.unusedVariables false
namespace Silofs.Snap

/-- Storage of node (or block) `i` of level `k` of volume `v` is gone. -/
def Removed (v : Lvid) (s : St) (k i : Nat) : Prop :=
  if k = 5 then ∀ j, s.dat v i j = fun _ => 0 else s.un v k i = {}

/-- Everything of volume `v` in the `d` levels below a node is gone; `s0` says what that is. -/
def Gone (v : Lvid) (s0 s : St) : Nat → Nat → Nat → Prop
  | 0, _, _ => True
  | d + 1, k, i => ∀ c, c < 256 → (s0.loc v (k + 1) (i * 256 + c) = some v → Removed v s (k + 1) (i * 256 + c)) ∧
      Gone v s0 s d (k + 1) (i * 256 + c)

/-- Removals only. -/
structure Less (v : Lvid) (s s' : St) : Prop where
  un : ∀ k i, s'.un v k i = s.un v k i ∨ s'.un v k i = {}
  dat : ∀ b j, s'.dat v b j = s.dat v b j ∨ s'.dat v b j = fun _ => 0
  vol : s'.vol v = s.vol v

theorem Less.refl (v : Lvid) (s : St) : Less v s s := ⟨fun _ _ => Or.inl rfl, fun _ _ => Or.inl rfl, rfl⟩

theorem Less.trans {v : Lvid} {s s' s'' : St} (a : Less v s s') (b : Less v s' s'') : Less v s s'' where
  un k i := by
    rcases b.un k i with e | e
    · rw [e]; exact a.un k i
    · exact Or.inr e
  dat k i := by
    rcases b.dat k i with e | e
    · rw [e]; exact a.dat k i
    · exact Or.inr e
  vol := b.vol.trans a.vol

theorem Removed.mono {v : Lvid} {s s' : St} {k i : Nat} (h : Removed v s k i) (l : Less v s s') :
    Removed v s' k i := by
  unfold Removed at h ⊢
  by_cases e : k = 5
  · rw [if_pos e] at h ⊢
    intro j
    rcases l.dat i j with e | e
    · rw [e]; exact h j
    · exact e
  · rw [if_neg e] at h ⊢
    rcases l.un k i with e | e
    · rw [e]; exact h
    · exact e

theorem Gone.mono {v : Lvid} {s0 s s' : St} (l : Less v s s') : ∀ {d k i}, Gone v s0 s d k i → Gone v s0 s' d k i := by
  intro d
  induction d with
  | zero => intro k i _; trivial
  | succ d ih =>
    intro k i h c hc
    exact ⟨fun e => ((h c hc).1 e).mono l, ih (h c hc).2⟩

theorem less_rmSeg (v : Lvid) (k i : Nat) (s : St) : Less v s (s.rmSeg v k i) := by
  unfold St.rmSeg
  by_cases h : k = 4
  · rw [if_pos h]
    refine ⟨fun _ _ => Or.inl rfl, fun b j => ?_, rfl⟩
    show (if _ then _ else _) = _ ∨ (if _ then _ else _) = _
    split
    · exact Or.inr rfl
    · exact Or.inl rfl
  · rw [if_neg h]
    refine ⟨fun k' i' => ?_, fun _ _ => Or.inl rfl, rfl⟩
    show (if _ then _ else _) = _ ∨ (if _ then _ else _) = _
    split
    · exact Or.inr rfl
    · exact Or.inl rfl

theorem less_rmRoot (v : Lvid) (s : St) : Less v s (s.rmRoot v) := by
  refine ⟨fun k' i' => ?_, fun _ _ => Or.inl rfl, rfl⟩
  show (if _ then _ else _) = _ ∨ (if _ then _ else _) = _
  split
  · exact Or.inr rfl
  · exact Or.inl rfl

theorem less_act {v : Lvid} {x : Del} {f : St → St} {g} (h : ∀ s, Less v s (f s)) : Less v x.st (x.act f g).st := by
  rcases act_cases x f g with e | e
  · rw [e]; exact Less.refl v _
  · rw [e]; exact h _

/-! ### Children -/

theorem loc_child {s : St} {v : Lvid} {k i : Nat} {w : Lvid} (h : s.loc v k i = some w) {c : Nat} (hc : c < 256) :
    s.loc v (k + 1) (i * 256 + c) = (s.un w k i).child c := by
  simp only [loc_walk] at h ⊢
  have h1 : (i * 256 + c) / 256 = i := by omega
  have h2 : (i * 256 + c) % 256 = c := by omega
  rw [walk_succ, h1, h2, h]

theorem loc_child_none {s : St} {v : Lvid} {k i : Nat} (h : s.loc v k i = none) {c : Nat} (hc : c < 256) :
    s.loc v (k + 1) (i * 256 + c) = none := by
  simp only [loc_walk] at h ⊢
  have h1 : (i * 256 + c) / 256 = i := by omega
  rw [walk_succ, h1, h]

theorem loc_parent {s : St} {v : Lvid} {k i : Nat} (h : s.loc v (k + 1) i ≠ none) : s.loc v k (i / 256) ≠ none := by
  intro e
  apply h
  have := loc_child_none e (Nat.mod_lt i (show 256 > 0 by decide))
  rwa [show i / 256 * 256 + i % 256 = i by omega] at this

theorem gone_none {v : Lvid} {s0 s : St} : ∀ {d k i}, s0.loc v k i = none → Gone v s0 s d k i := by
  intro d
  induction d with
  | zero => intro k i _; trivial
  | succ d ih =>
    intro k i h c hc
    have e := loc_child_none h hc
    exact ⟨fun e' => (by rw [e] at e'; cases e'), ih e⟩

/-- The nodes and blocks that are there are the first ones below each node: a search for free space goes on
leaf by leaf (claim.c:251-268), and a new leaf has all its blocks (vstage.c:1577-1607). -/
def Dense (s : St) (v : Lvid) : Prop :=
  ∀ k i w c c', k ≤ 4 → s.loc v k i = some w → c < 256 → c' < c → (s.un w k i).child c ≠ none →
    (s.un w k i).child c' ≠ none

/-! ### Invariant of the traversal -/

/-- `x` is on the way from `s0`: a node of the volume that is gone has nothing of the volume left below, and the
removed segments are those of nodes which changed. -/
structure Inv (v : Lvid) (s0 : St) (x : Del) : Prop where
  only : Only v s0 x.st
  less : Less v s0 x.st
  shut : ∀ k i, k ≤ 4 → s0.loc v k i = some v → x.st.un v k i = s0.un v k i ∨ Gone v s0 x.st (5 - k) k i
  mark : ∀ k i, x.st.un v k i = s0.un v k i ∨ x.gone v k (i / 256) = true
  src : ∀ w k j, x.gone w k j = true → w = v ∧ k ≤ 4 ∧ ∃ i, i / 256 = j ∧ s0.loc v k i = some v

/-- Removals only, those of segments counted. -/
structure LessD (v : Lvid) (x y : Del) : Prop where
  less : Less v x.st y.st
  gone : ∀ w k j, x.gone w k j = true → y.gone w k j = true

theorem LessD.refl (v : Lvid) (x : Del) : LessD v x x := ⟨Less.refl v _, fun _ _ _ h => h⟩

theorem LessD.trans {v : Lvid} {x y z : Del} (a : LessD v x y) (b : LessD v y z) : LessD v x z :=
  ⟨a.less.trans b.less, fun w k j h => b.gone w k j (a.gone w k j h)⟩

/-- Not stopped yet. -/
def Del.alive (x : Del) : Prop := x.gas ≠ some 0

theorem act_alive {x : Del} {f : St → St} {g} (h : (x.act f g).alive) :
    x.alive ∧ (x.act f g).st = f x.st ∧ (x.act f g).gone = g x.gone := by
  unfold Del.act Del.alive at *
  cases hg : x.gas with
  | none => exact ⟨fun e => (nomatch e), rfl, rfl⟩
  | some n =>
    cases n with
    | zero => rw [hg] at h; exact absurd hg h
    | succ n => exact ⟨fun e => (nomatch e), rfl, rfl⟩

theorem act_live {x : Del} {f : St → St} {g} (h : x.alive) :
    (x.act f g).st = f x.st ∧ (x.act f g).gone = g x.gone := by
  unfold Del.act
  unfold Del.alive at h
  cases hg : x.gas with
  | none => exact ⟨rfl, rfl⟩
  | some n =>
    cases n with
    | zero => exact absurd hg h
    | succ n => exact ⟨rfl, rfl⟩

theorem act_dead {x : Del} {f : St → St} {g} (h : ¬ x.alive) : x.act f g = x := by
  unfold Del.alive at h
  unfold Del.act
  cases hg : x.gas with
  | none => exact absurd (by rw [hg]; exact fun e => (nomatch e)) h
  | some n =>
    cases n with
    | zero => rfl
    | succ n => exact absurd (by rw [hg]; exact fun e => (nomatch e)) h

theorem act_none {x : Del} {f : St → St} {g} (h : x.gas = none) :
    (x.act f g).gas = none ∧ (x.act f g).st = f x.st ∧ (x.act f g).gone = g x.gone := by
  unfold Del.act
  rw [h]
  exact ⟨rfl, rfl, rfl⟩

/-- A node that is staged has its segment. -/
theorem stage_alive {x : Del} {w : Lvid} {k i : Nat} (h : (x.stage w k i).alive) :
    x.stage w k i = x ∧ x.gone w k (i / 256) = false := by
  unfold Del.stage at *
  by_cases e : x.gone w k (i / 256) = true
  · rw [if_pos e] at h
    exact absurd rfl h
  · rw [if_neg e]
    exact ⟨rfl, by simpa using e⟩

theorem stage_gone (x : Del) (w : Lvid) (k i : Nat) : (x.stage w k i).gone = x.gone := by
  unfold Del.stage
  split <;> rfl

theorem Inv.stage {v : Lvid} {s0 : St} {x : Del} (h : Inv v s0 x) (w : Lvid) (k i : Nat) :
    Inv v s0 (x.stage w k i) := by
  unfold Del.stage
  split
  · exact ⟨h.only, h.less, h.shut, h.mark, h.src⟩
  · exact h

theorem lessD_stage (v : Lvid) (x : Del) (w : Lvid) (k i : Nat) : LessD v x (x.stage w k i) :=
  ⟨by rw [stage_st]; exact Less.refl v _, by rw [stage_gone]; exact fun _ _ _ h => h⟩

theorem mark_mono (v : Lvid) (k i : Nat) (g : Lvid → Nat → Nat → Bool) (w : Lvid) (k' j : Nat) (h : g w k' j = true) :
    mark v k i g w k' j = true := by
  unfold Snap.mark
  split
  · rfl
  · exact h

theorem lessD_rmSeg (v : Lvid) (k i : Nat) (x : Del) : LessD v x (x.rmSeg v k i) := by
  refine ⟨less_act (less_rmSeg v k i), ?_⟩
  by_cases ha : x.alive
  · unfold Del.rmSeg
    rw [(act_live ha).2]
    intro w k' j h
    split
    · exact h
    · exact mark_mono _ _ _ _ _ _ _ h
  · unfold Del.rmSeg
    rw [act_dead ha]
    exact fun _ _ _ h => h

theorem lessD_rmRoot (v : Lvid) (x : Del) : LessD v x (x.rmRoot v) := by
  refine ⟨less_act (less_rmRoot v), ?_⟩
  by_cases ha : x.alive
  · unfold Del.rmRoot
    rw [(act_live ha).2]
    exact fun w k' j h => mark_mono _ _ _ _ _ _ _ h
  · unfold Del.rmRoot
    rw [act_dead ha]
    exact fun _ _ _ h => h

theorem inv_rmSeg {v : Lvid} {s0 : St} {x : Del} {d k i c : Nat} (hd : k + d = 4) (h : Inv v s0 x)
    (hc : c < 256) (hl : s0.loc v (k + 1) (i * 256 + c) = some v)
    (hg : x.alive → ∀ c, c < 256 → Gone v s0 x.st d (k + 1) (i * 256 + c)) :
    Inv v s0 (x.rmSeg v k i) := by
  unfold Del.rmSeg
  by_cases ha : x.alive
  · have l := less_act (x := x) (g := if k = 4 then id else Snap.mark v (k + 1) i) (less_rmSeg v k i)
    have hu : ∀ k' i', ¬ (k' = k + 1 ∧ i' / 256 = i) →
        (x.act (·.rmSeg v k i) (if k = 4 then id else Snap.mark v (k + 1) i)).st.un v k' i' = x.st.un v k' i' := by
      intro k' i' e
      rw [(act_live ha).1]
      simp only [St.rmSeg]
      by_cases h4 : k = 4
      · rw [if_pos h4]
      · rw [if_neg h4]
        exact if_neg (fun z => e z.2)
    refine ⟨h.only.trans (only_act (only_rmSeg v k i)), h.less.trans l, fun k' i' hk hl => ?_, fun k' i' => ?_,
      fun w k' j hw => ?_⟩
    · by_cases e : k' = k + 1 ∧ i' / 256 = i
      · obtain ⟨e1, e2⟩ := e
        have := (hg ha (i' % 256) (Nat.mod_lt i' (by decide))).mono l
        rw [show i * 256 + i' % 256 = i' by omega, show d = 5 - (k + 1) by omega] at this
        rw [e1]
        exact Or.inr this
      · rw [hu k' i' e]
        rcases h.shut k' i' hk hl with e1 | e1
        · exact Or.inl e1
        · exact Or.inr (e1.mono l)
    · by_cases e : k' = k + 1 ∧ i' / 256 = i
      · by_cases h4 : k = 4
        · rw [(act_live ha).1, (act_live ha).2]
          simp only [St.rmSeg, if_pos h4, id_eq]
          exact h.mark k' i'
        · refine Or.inr ?_
          rw [(act_live ha).2, if_neg h4]
          unfold Snap.mark
          rw [if_pos ⟨rfl, e.1, e.2⟩]
      · rw [hu k' i' e]
        rcases h.mark k' i' with e1 | e1
        · exact Or.inl e1
        · exact Or.inr ((lessD_rmSeg v k i x).gone _ _ _ e1)
    · rw [(act_live ha).2] at hw
      by_cases h4 : k = 4
      · rw [if_pos h4] at hw
        exact h.src w k' j hw
      · rw [if_neg h4] at hw
        unfold Snap.mark at hw
        split at hw
        · rename_i hh
          obtain ⟨rfl, rfl, rfl⟩ := hh
          exact ⟨rfl, by omega, _, by omega, hl⟩
        · exact h.src w k' j hw
  · rw [act_dead ha]; exact h

theorem removed_rmSeg {v : Lvid} {s : St} {k i c : Nat} (hk : k ≤ 4) (hc : c < 256) :
    Removed v (s.rmSeg v k i) (k + 1) (i * 256 + c) := by
  have e : (i * 256 + c) / 256 = i := by omega
  unfold Removed St.rmSeg
  by_cases h : k = 4
  · subst h
    rw [if_pos rfl, if_pos rfl]
    intro j
    show (if _ then _ else _) = _
    rw [if_pos ⟨rfl, e⟩]
  · rw [if_neg (by omega), if_neg h]
    show (if _ then _ else _) = _
    rw [if_pos ⟨rfl, rfl, e⟩]

/-- The node was not changed since `s0`, or it and all of the volume below it is gone. -/
theorem Inv.node {v : Lvid} {s0 : St} {x : Del} (h : Inv v s0 x) {d k i : Nat} {w : Lvid} (hd : k + d = 4)
    (hl : s0.loc v k i = some w) :
    x.st.un w k i = s0.un w k i ∨ (x.st.un w k i = {} ∧ Gone v s0 x.st (d + 1) k i) := by
  by_cases e : w = v
  · subst e
    rcases h.shut k i (by omega) hl with e1 | e1
    · exact Or.inl e1
    · rcases h.less.un k i with e2 | e2
      · exact Or.inl e2
      · rw [show 5 - k = d + 1 by omega] at e1
        exact Or.inr ⟨e2, e1⟩
  · exact Or.inl (h.only.un w k i e)

theorem upTo_empty {f : Nat → Lvid → Del → Del} {n c : Nat} {x : Del} : upTo (fun _ => none) f n c x = x := by
  cases n <;> rfl

theorem postNode_inv {v : Lvid} {s0 : St} (hD : Dense s0 v) {d k i : Nat} {w : Lvid} {x : Del} (hd : k + d = 4)
    (hl : s0.loc v k i = some w) (h : Inv v s0 x)
    (hg : x.alive → ∀ c, c < 256 → Gone v s0 x.st d (k + 1) (i * 256 + c)) :
    Inv v s0 (postNode v w k i x) ∧ LessD v x (postNode v w k i x) ∧
      ((postNode v w k i x).alive → x.alive ∧ Gone v s0 (postNode v w k i x).st (d + 1) k i) := by
  rcases h.node hd hl with hn | ⟨hn, hgone⟩
  · have key := upTo_done (child := (x.st.un w k i).child) (f := fun _ u => tryRemove v u (·.rmSeg v k i)) (m := 256)
      (P := fun y => Inv v s0 y ∧ LessD v x y ∧ (y.alive → x.alive))
      (Q := fun c y => y.alive → s0.loc v (k + 1) (i * 256 + c) = some v → Removed v y.st (k + 1) (i * 256 + c))
      (fun c u y hc hu hy => by
        show _ ∧ _
        by_cases e : u = v
        · have e1 : tryRemove v u (·.rmSeg v k i) y = y.rmSeg v k i := by unfold tryRemove; rw [if_pos e]
          rw [e1]
          exact ⟨inv_rmSeg hd hy.1 hc (by rw [loc_child hl hc, ← hn, hu, e])
              (fun ha c hc => (hg (hy.2.2 ha) c hc).mono hy.2.1.less),
            hy.2.1.trans (lessD_rmSeg v k i y), fun ha => hy.2.2 (act_alive ha).1⟩
        · have e1 : tryRemove v u (·.rmSeg v k i) y = y := by unfold tryRemove; rw [if_neg e]
          rw [e1]; exact hy)
      (fun c u y hc hu hy => by
        intro ha hloc
        rw [loc_child hl hc, ← hn, hu] at hloc
        cases hloc
        have e1 : tryRemove v v (·.rmSeg v k i) y = y.rmSeg v k i := by unfold tryRemove; rw [if_pos rfl]
        rw [e1] at ha ⊢
        unfold Del.rmSeg at ha ⊢
        rw [(act_alive ha).2.1]
        exact removed_rmSeg (by omega) hc)
      (fun c u y c' hc hu hy hq => by
        intro ha hloc
        by_cases e : u = v
        · have e1 : tryRemove v u (·.rmSeg v k i) y = y.rmSeg v k i := by unfold tryRemove; rw [if_pos e]
          rw [e1] at ha ⊢
          exact (hq (act_alive ha).1 hloc).mono (lessD_rmSeg v k i y).less
        · have e1 : tryRemove v u (·.rmSeg v k i) y = y := by unfold tryRemove; rw [if_neg e]
          rw [e1] at ha ⊢
          exact hq ha hloc)
      (fun c c' hc hcc hne => by
        rw [hn] at hne ⊢
        exact hD k i w c c' (by omega) hl hc hcc hne)
      256 0 x rfl ⟨h, LessD.refl v _, id⟩ (fun c hc => by omega)
    obtain ⟨⟨k1, k2, k3⟩, k4⟩ := key
    refine ⟨k1, k2, fun ha => ⟨k3 ha, fun c hc => ⟨fun hloc => ?_, (hg (k3 ha) c hc).mono k2.less⟩⟩⟩
    refine k4 c hc ?_ ha hloc
    rw [hn, ← loc_child hl hc, hloc]
    exact fun e => (nomatch e)
  · have e : postNode v w k i x = x := by
      unfold postNode
      rw [hn]
      exact upTo_empty
    rw [e]
    exact ⟨h, LessD.refl v _, fun ha => ⟨ha, hgone⟩⟩

/-- The segments of all the space maps below a node, and of the node, are there. -/
def Kept (v : Lvid) (s0 : St) (g : Lvid → Nat → Nat → Bool) : Nat → Nat → Nat → Prop
  | 0, _, _ => True
  | d + 1, k, i => (∀ u, s0.loc v k i = some u → g u k (i / 256) = false) ∧
      ∀ c, c < 256 → Kept v s0 g d (k + 1) (i * 256 + c)

theorem kept_mono {v : Lvid} {s0 : St} {g g' : Lvid → Nat → Nat → Bool} (h : ∀ w k j, g w k j = true → g' w k j = true) :
    ∀ {d k i}, Kept v s0 g' d k i → Kept v s0 g d k i := by
  intro d
  induction d with
  | zero => intro k i _; trivial
  | succ d ih =>
    intro k i a
    refine ⟨fun u hu => ?_, fun c hc => ih (a.2 c hc)⟩
    cases e : g u k (i / 256) with
    | false => rfl
    | true => have := h _ _ _ e; rw [a.1 u hu] at this; cases this

theorem kept_none {v : Lvid} {s0 : St} {g : Lvid → Nat → Nat → Bool} : ∀ {d k i}, s0.loc v k i = none → Kept v s0 g d k i := by
  intro d
  induction d with
  | zero => intro k i _; trivial
  | succ d ih =>
    intro k i h
    exact ⟨fun u hu => (by rw [h] at hu; cases hu), fun c hc => ih (loc_child_none h hc)⟩

theorem travNode_inv {v : Lvid} {s0 : St} (hD : Dense s0 v) (d : Nat) : ∀ k i w x, k + d = 4 →
    s0.loc v k i = some w → Inv v s0 x →
    Inv v s0 (travNode v d k i w x) ∧ LessD v x (travNode v d k i w x) ∧
      ((travNode v d k i w x).alive → x.alive ∧ Gone v s0 (travNode v d k i w x).st (d + 1) k i ∧
        Kept v s0 x.gone (d + 1) k i) := by
  induction d with
  | zero =>
    intro k i w x hd hl h
    simp only [travNode]
    obtain ⟨p1, p2, p3⟩ := postNode_inv hD hd hl (h.stage w k i) (fun _ _ _ => trivial)
    refine ⟨p1, (lessD_stage v x w k i).trans p2, fun ha => ?_⟩
    obtain ⟨q1, q2⟩ := p3 ha
    obtain ⟨r1, r2⟩ := stage_alive q1
    rw [r1] at q1
    exact ⟨q1, q2, fun u hu => (by rw [hl] at hu; cases hu; exact r2), fun _ _ => trivial⟩
  | succ d ih =>
    intro k i w x hd hl h
    simp only [travNode]
    by_cases hn : x.st.un w k i = s0.un w k i
    · have key := upTo_done (child := (x.st.un w k i).child) (f := fun c u => travNode v d (k + 1) (i * 256 + c) u) (m := 256)
        (P := fun y => Inv v s0 y ∧ LessD v x y ∧ (y.alive → (x.stage w k i).alive))
        (Q := fun c y => y.alive → Gone v s0 y.st (d + 1) (k + 1) (i * 256 + c) ∧
          Kept v s0 x.gone (d + 1) (k + 1) (i * 256 + c))
        (fun c u y hc hu hy => by
          have hlc : s0.loc v (k + 1) (i * 256 + c) = some u := by rw [loc_child hl hc, ← hn, hu]
          obtain ⟨a1, a2, a3⟩ := ih (k + 1) (i * 256 + c) u y (by omega) hlc hy.1
          exact ⟨a1, hy.2.1.trans a2, fun ha => hy.2.2 (a3 ha).1⟩)
        (fun c u y hc hu hy => by
          have hlc : s0.loc v (k + 1) (i * 256 + c) = some u := by rw [loc_child hl hc, ← hn, hu]
          obtain ⟨a1, a2, a3⟩ := ih (k + 1) (i * 256 + c) u y (by omega) hlc hy.1
          exact fun ha => ⟨(a3 ha).2.1, kept_mono hy.2.1.gone (a3 ha).2.2⟩)
        (fun c u y c' hc hu hy hq => by
          have hlc : s0.loc v (k + 1) (i * 256 + c) = some u := by rw [loc_child hl hc, ← hn, hu]
          obtain ⟨a1, a2, a3⟩ := ih (k + 1) (i * 256 + c) u y (by omega) hlc hy.1
          exact fun ha => ⟨(hq (a3 ha).1).1.mono a2.less, (hq (a3 ha).1).2⟩)
        (fun c c' hc hcc hne => by
          rw [hn] at hne ⊢
          exact hD k i w c c' (by omega) hl hc hcc hne)
        256 0 (x.stage w k i) rfl ⟨h.stage w k i, lessD_stage v x w k i, id⟩ (fun c hc => by omega)
      obtain ⟨⟨k1, k2, k3⟩, k4⟩ := key
      obtain ⟨p1, p2, p3⟩ := postNode_inv hD (i := i) (w := w) hd hl k1 (fun ha c hc => by
        by_cases hne : (x.st.un w k i).child c = none
        · exact gone_none (by rw [loc_child hl hc, ← hn, hne])
        · exact (k4 c hc hne ha).1)
      refine ⟨p1, k2.trans p2, fun ha => ?_⟩
      obtain ⟨r1, r2⟩ := stage_alive (k3 (p3 ha).1)
      refine ⟨by have := k3 (p3 ha).1; rwa [r1] at this, (p3 ha).2,
        fun u hu => (by rw [hl] at hu; cases hu; exact r2), fun c hc => ?_⟩
      by_cases hne : (x.st.un w k i).child c = none
      · exact kept_none (by rw [loc_child hl hc, ← hn, hne])
      · exact (k4 c hc hne (p3 ha).1).2
    · -- the node was removed, so its segment is gone and it cannot be staged
      have hw : w = v := by
        by_cases ew : w = v
        · exact ew
        · exact absurd (h.only.un w k i ew) hn
      subst hw
      have hz : x.st.un w k i = {} := (h.less.un k i).resolve_left hn
      have hg : x.gone w k (i / 256) = true := (h.mark k i).resolve_left hn
      have e : upTo (x.st.un w k i).child (fun c u => travNode w d (k + 1) (i * 256 + c) u) 256 0 (x.stage w k i) =
          x.stage w k i := by
        rw [hz]
        exact upTo_empty
      rw [e]
      have e2 : postNode w w k i (x.stage w k i) = x.stage w k i := by
        unfold postNode
        rw [stage_st, hz]
        exact upTo_empty
      rw [e2]
      refine ⟨h.stage w k i, lessD_stage w x w k i, fun ha => ?_⟩
      have r := (stage_alive ha).2
      rw [hg] at r
      cases r

theorem kept_at {v : Lvid} {s0 : St} {g : Lvid → Nat → Nat → Bool} (h : Kept v s0 g 5 0 0) : ∀ k i, k ≤ 4 →
    s0.loc v k i ≠ none → Kept v s0 g (5 - k) k i := by
  intro k
  induction k with
  | zero =>
    intro i _ hl
    have : i = 0 := by
      by_cases e : i = 0
      · exact e
      · exact absurd (by simp only [St.loc, walk, if_neg e]) hl
    subst this
    exact h
  | succ k ih =>
    intro i hk hl
    have a := ih (i / 256) (by omega) (loc_parent hl)
    rw [show 5 - k = (5 - (k + 1)) + 1 by omega] at a
    have := a.2 (i % 256) (Nat.mod_lt i (by decide))
    rwa [show i / 256 * 256 + i % 256 = i by omega] at this

theorem gone_at {v : Lvid} {s0 s : St} (h : Gone v s0 s 5 0 0) : ∀ k i, k ≤ 5 → s0.loc v k i ≠ none →
    Gone v s0 s (5 - k) k i ∧ (0 < k → s0.loc v k i = some v → Removed v s k i) := by
  intro k
  induction k with
  | zero =>
    intro i _ hl
    have : i = 0 := by
      by_cases e : i = 0
      · exact e
      · exact absurd (by simp only [St.loc, walk, if_neg e]) hl
    subst this
    exact ⟨h, fun z => by omega⟩
  | succ k ih =>
    intro i hk hl
    have g := (ih (i / 256) (by omega) (loc_parent hl)).1
    rw [show 5 - k = (5 - (k + 1)) + 1 by omega] at g
    have := g (i % 256) (Nat.mod_lt i (by decide))
    rw [show i / 256 * 256 + i % 256 = i by omega] at this
    exact ⟨this.2, fun _ e => this.1 e⟩

/-- All that volume `v` stored is gone. -/
def Empty (v : Lvid) (s0 s : St) : Prop := ∀ k i, k ≤ 5 → s0.loc v k i = some v → Removed v s k i

theorem travSuper_inv {v : Lvid} {s0 : St} (hD : Dense s0 v) {x : Del} (h : Inv v s0 x) :
    Inv v s0 (travSuper v x) ∧ LessD v x (travSuper v x) ∧ ((travSuper v x).alive → Empty v s0 (travSuper v x).st ∧
      ∀ k j, x.gone v k j = false) := by
  have hr : x.st.root v = s0.root v := by simp only [St.root, h.less.vol]
  have whole : ∀ {i : Nat} {w}, s0.loc v 0 i = some w → i = 0 := by
    intro i w hlk
    by_cases ei : i = 0
    · exact ei
    · simp [St.loc, walk, ei] at hlk
  have noGone : Kept v s0 x.gone 5 0 0 → ∀ k j, x.gone v k j = false := by
    intro hk k j
    cases e : x.gone v k j with
    | false => rfl
    | true =>
      obtain ⟨_, h1, i, h2, h3⟩ := h.src v k j e
      have a := kept_at hk k i h1 (by rw [h3]; exact fun z => (nomatch z))
      rw [show 5 - k = (4 - k) + 1 by omega] at a
      have := a.1 v h3
      rw [h2, e] at this
      cases this
  unfold travSuper
  rw [hr]
  cases hw : s0.root v with
  | none =>
    have hn : ∀ k i, s0.loc v k i = none := by
      intro k
      induction k with
      | zero => intro i; simp only [St.loc, walk, hw, ite_self]
      | succ k ih =>
        intro i
        have := loc_child_none (ih (i / 256)) (Nat.mod_lt i (show 256 > 0 by decide))
        rwa [show i / 256 * 256 + i % 256 = i by omega] at this
    refine ⟨h, LessD.refl v _, fun _ => ⟨fun k i hk hl => ?_, fun k j => ?_⟩⟩
    · rw [hn k i] at hl
      cases hl
    · cases e : x.gone v k j with
      | false => rfl
      | true =>
        obtain ⟨_, _, i, _, h3⟩ := h.src v k j e
        rw [hn k i] at h3
        cases h3
  | some w =>
    have hl : s0.loc v 0 0 = some w := by simp only [St.loc, walk, if_true, hw]
    obtain ⟨a1, a2, a3⟩ := travNode_inv hD 4 0 0 w x rfl hl h
    by_cases e : w = v
    · subst e
      have e1 : ∀ y, tryRemove w w (·.rmRoot w) y = y.rmRoot w := fun y => by unfold tryRemove; rw [if_pos rfl]
      simp only [e1]
      have l := lessD_rmRoot w (travNode w 4 0 0 w x)
      refine ⟨⟨a1.only.trans (only_act (only_rmRoot w)), a1.less.trans l.less, fun k i hk hlk => ?_, fun k i => ?_,
        fun u k j hu => ?_⟩, a2.trans l, fun ha => ⟨fun k i hk hlk => ?_, noGone (a3 (act_alive ha).1).2.2⟩⟩
      · by_cases ha : (travNode w 4 0 0 w x).alive
        · have g := gone_at ((a3 ha).2.1.mono l.less) k i (by omega) (by rw [hlk]; exact fun e => (nomatch e))
          exact Or.inr g.1
        · unfold Del.rmRoot; rw [act_dead ha]; exact a1.shut k i hk hlk
      · by_cases ha : (travNode w 4 0 0 w x).alive
        · by_cases e0 : k = 0 ∧ i = 0
          · refine Or.inr ?_
            unfold Del.rmRoot
            rw [(act_live ha).2, e0.1, e0.2]
            unfold Snap.mark
            rw [if_pos ⟨rfl, rfl, rfl⟩]
          · rcases a1.mark k i with e2 | e2
            · refine Or.inl (Eq.trans ?_ e2)
              unfold Del.rmRoot
              rw [(act_live ha).1]
              exact if_neg (fun z => e0 ⟨z.2.1, z.2.2⟩)
            · exact Or.inr (l.gone _ _ _ e2)
        · unfold Del.rmRoot; rw [act_dead ha]; exact a1.mark k i
      · by_cases ha : (travNode w 4 0 0 w x).alive
        · unfold Del.rmRoot at hu
          rw [(act_live ha).2] at hu
          unfold Snap.mark at hu
          split at hu
          · rename_i hh
            obtain ⟨rfl, rfl, rfl⟩ := hh
            exact ⟨rfl, by omega, 0, rfl, hl⟩
          · exact a1.src u k j hu
        · unfold Del.rmRoot at hu; rw [act_dead ha] at hu; exact a1.src u k j hu
      · obtain ⟨b1, b2, _⟩ := act_alive ha
        by_cases hk0 : k = 0
        · subst hk0
          have hi := whole hlk
          subst hi
          unfold Del.rmRoot
          rw [b2]
          unfold Removed
          rw [if_neg (by decide)]
          show (if _ then _ else _) = _
          rw [if_pos ⟨rfl, rfl, rfl⟩]
        · exact (gone_at ((a3 b1).2.1.mono l.less) k i hk (by rw [hlk]; exact fun e => (nomatch e))).2 (by omega) hlk
    · have e1 : ∀ y, tryRemove v w (·.rmRoot v) y = y := fun y => by unfold tryRemove; rw [if_neg e]
      simp only [e1]
      refine ⟨a1, a2, fun ha => ⟨fun k i hk hlk => ?_, noGone (a3 ha).2.2⟩⟩
      by_cases hk0 : k = 0
      · subst hk0
        have hi := whole hlk
        subst hi
        rw [hl] at hlk
        cases hlk
        exact absurd rfl e
      · exact (gone_at (a3 ha).2.1 k i hk (by rw [hlk]; exact fun e => (nomatch e))).2 (by omega) hlk

/-! ### A run that is not stopped from outside is not stopped by what it removed itself -/

theorem upTo_idx {child : Nat → Option Lvid} {f : Nat → Lvid → Del → Del} {P : Nat → Del → Prop}
    {m : Nat} (hP : ∀ c u y, c < m → child c = some u → P c y → P (c + 1) (f c u y)) :
    ∀ n c0 y, c0 + n = m → P c0 y → ∃ c, P c (upTo child f n c0 y) := by
  intro n
  induction n with
  | zero => intro c0 y _ h; exact ⟨c0, h⟩
  | succ n ih =>
    intro c0 y hm h
    simp only [upTo]
    cases hu : child c0 with
    | none => exact ⟨c0, h⟩
    | some u => exact ih (c0 + 1) _ (by omega) (hP c0 u y (by omega) hu h)

/-- Segment `(k', j)` lies below node `(k, i)`. -/
def Below (k i k' j : Nat) : Prop := k < k' ∧ j / 256 ^ (k' - 1 - k) = i

theorem below_child {k i c k' j : Nat} (hc : c < 256) (h : Below (k + 1) (i * 256 + c) k' j) : Below k i k' j := by
  obtain ⟨h1, h2⟩ := h
  refine ⟨by omega, ?_⟩
  rw [show k' - 1 - k = (k' - 1 - (k + 1)) + 1 by omega, Nat.pow_succ, ← Nat.div_div_eq_div_mul, h2]
  omega

theorem post_calm {v : Lvid} {w : Lvid} {k i : Nat} {x : Del} (h : x.gas = none) :
    (postNode v w k i x).gas = none ∧
      ∀ u k' j, ¬ Below k i k' j → (postNode v w k i x).gone u k' j = x.gone u k' j := by
  refine upTo_inv (P := fun y => y.gas = none ∧ ∀ u k' j, ¬ Below k i k' j → y.gone u k' j = x.gone u k' j)
    (fun c u y _ hy => ?_) 256 0 x ⟨h, fun _ _ _ _ => rfl⟩
  show (tryRemove v u (·.rmSeg v k i) y).gas = none ∧ ∀ u' k' j, ¬ Below k i k' j →
    (tryRemove v u (·.rmSeg v k i) y).gone u' k' j = x.gone u' k' j
  unfold tryRemove
  by_cases e : u = v
  · rw [if_pos e]
    unfold Del.rmSeg
    refine ⟨(act_none hy.1).1, fun u' k' j hb => ?_⟩
    rw [(act_none hy.1).2.2]
    split
    · exact hy.2 u' k' j hb
    · unfold Snap.mark
      rw [if_neg (fun z => hb ⟨by omega, by rw [z.2.1, show k + 1 - 1 - k = 0 by omega, z.2.2]; simp⟩)]
      exact hy.2 u' k' j hb
  · rw [if_neg e]; exact hy

theorem trav_calm {v : Lvid} (d : Nat) : ∀ k i w (x : Del), x.gas = none → (∀ u, x.gone u k (i / 256) = false) →
    (∀ u k' j, Below k i k' j → x.gone u k' j = false) →
    (travNode v d k i w x).gas = none ∧
      ∀ u k' j, ¬ Below k i k' j → (travNode v d k i w x).gone u k' j = x.gone u k' j := by
  induction d with
  | zero =>
    intro k i w x h h1 h2
    have e : x.stage w k i = x := by unfold Del.stage; rw [h1]; rfl
    simp only [travNode, e]
    exact post_calm h
  | succ d ih =>
    intro k i w x h h1 h2
    have e : x.stage w k i = x := by unfold Del.stage; rw [h1]; rfl
    simp only [travNode, e]
    have key := upTo_idx (child := (x.st.un w k i).child) (f := fun c u => travNode v d (k + 1) (i * 256 + c) u)
      (P := fun c y => y.gas = none ∧ (∀ u k' j, ¬ Below k i k' j → y.gone u k' j = x.gone u k' j) ∧
        (∀ u, y.gone u (k + 1) i = false) ∧
        ∀ u k' j, (∃ c', c ≤ c' ∧ Below (k + 1) (i * 256 + c') k' j) → y.gone u k' j = x.gone u k' j)
      (m := 256) (fun c u y hc hu hy => ?_) 256 0 x rfl ⟨h, fun _ _ _ _ => rfl, fun u => h2 u _ _ ⟨by omega, by simp⟩, fun _ _ _ _ => rfl⟩
    · obtain ⟨c, hy1, hy2, _, _⟩ := key
      obtain ⟨p1, p2⟩ := post_calm (v := v) (w := w) (k := k) (i := i) hy1
      exact ⟨p1, fun u k' j hb => (p2 u k' j hb).trans (hy2 u k' j hb)⟩
    · obtain ⟨y1, y2, y3, y4⟩ := hy
      have hd : (i * 256 + c) / 256 = i := by omega
      obtain ⟨t1, t2⟩ := ih (k + 1) (i * 256 + c) u y y1 (by rw [hd]; exact y3)
        (fun u' k' j hb => (y4 u' k' j ⟨c, Nat.le_refl c, hb⟩).trans (h2 u' k' j (below_child hc hb)))
      refine ⟨t1, fun u' k' j hb => (t2 u' k' j (fun z => hb (below_child hc z))).trans (y2 u' k' j hb),
        fun u' => (t2 u' _ _ (fun z => Nat.lt_irrefl _ z.1)).trans (y3 u'), fun u' k' j hb => ?_⟩
      obtain ⟨c', hle, hb⟩ := hb
      refine (t2 u' k' j (fun z => ?_)).trans (y4 u' k' j ⟨c', by omega, hb⟩)
      have := z.2.symm.trans hb.2
      omega

theorem travSuper_none {v : Lvid} {x : Del} (h : x.gas = none) (hg : ∀ u k j, x.gone u k j = false) :
    (travSuper v x).gas = none := by
  unfold travSuper
  cases x.st.root v with
  | none => exact h
  | some w =>
    show (tryRemove v w (·.rmRoot v) _).gas = none
    have t := (trav_calm (v := v) 4 0 0 w x h (fun u => hg u _ _) (fun u k j _ => hg u k j)).1
    unfold tryRemove
    by_cases e : w = v
    · rw [if_pos e]; exact (act_none t).1
    · rw [if_neg e]; exact t

end Silofs.Snap
