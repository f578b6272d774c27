import Verif.Props.StageNode

/-! Binding a new node to its parent (C58). -/

set_option linter.unusedSimpArgs false
set_option linter.unusedVariables false

namespace Silofs.Stage

theorem loc_bind {s s' : St} (c : Nat) (hk : k ≤ 4) (h0 : k = 0 → i = 0 ∧ s'.sb.root = some c)
    (h1 : k ≠ 0 → s'.sb.root = s.sb.root ∧ s.loc (k - 1) (i / 256) = some c)
    (href : ∀ v k' i' j, k' < 4 → s'.ref v k' i' j =
      if v = c ∧ k' + 1 = k ∧ i' = i / 256 ∧ j = i % 256 then some c else s.ref v k' i' j)
    (hc : k < 4 → ∀ j, s.ref c k i j = (s.loc k i).bind fun v => s.ref v k i j) :
    ∀ k' i', k' ≤ 4 → s'.loc k' i' = if k' = k ∧ i' = i then some c else s.loc k' i' := by
  intro k'
  induction k' with
  | zero =>
    intro i' _
    show (if i' = 0 then s'.sb.root else none) = if 0 = k ∧ i' = i then some c else
      if i' = 0 then s.sb.root else none
    by_cases hk0 : k = 0
    · obtain ⟨rfl, hr⟩ := h0 hk0
      rw [hr]
      subst hk0
      by_cases hi : i' = 0
      · rw [if_pos hi, if_pos ⟨rfl, hi⟩]
      · rw [if_neg hi, if_neg (fun z => hi z.2), if_neg hi]
    · rw [(h1 hk0).1, if_neg (c := 0 = k ∧ i' = i) (fun z => hk0 z.1.symm)]
  | succ k' ih =>
    intro i' hk'
    rw [loc_succ, loc_succ, ih _ (by omega)]
    by_cases hh : k' = k ∧ i' / 256 = i
    · rw [if_pos hh, if_neg (by omega)]
      obtain ⟨rfl, rfl⟩ := hh
      show s'.ref c k' (i' / 256) (i' % 256) = _
      rw [href _ _ _ _ (by omega), if_neg (by omega), hc (by omega)]
    · rw [if_neg hh]
      by_cases he : k' + 1 = k ∧ i' = i
      · obtain ⟨rfl, rfl⟩ := he
        have := (h1 (by omega)).2
        rw [show k' + 1 - 1 = k' from by omega] at this
        rw [this, if_pos ⟨rfl, rfl⟩]
        show s'.ref c k' (i' / 256) (i' % 256) = _
        rw [href _ _ _ _ (by omega), if_pos ⟨rfl, rfl, rfl, rfl⟩]
      · rw [if_neg he]
        cases s.loc k' (i' / 256) with
        | none => rfl
        | some v =>
          show s'.ref v k' (i' / 256) (i' % 256) = s.ref v k' (i' / 256) (i' % 256)
          rw [href _ _ _ _ (by omega), if_neg (by omega)]

theorem Inv.bindDone (h : Inv (one k i) s) (hp : s.pChild k i = some s.cur)
    (hr : ∀ v l, (k < 4 ∨ s.half i = false) → s.rng k i = v :: l → s.mem v k i ≠ none → s.loc k i = some v) :
    Inv none2 s :=
  { h with
    bound := fun k' i' _ hh => by
      by_cases he : k' = k ∧ i' = i
      · obtain ⟨rfl, rfl⟩ := he; exact hp
      · exact h.bound k' i' he hh
    rngOk := fun k' i' v l a b _ d e => by
      by_cases he : k' = k ∧ i' = i
      · obtain ⟨rfl, rfl⟩ := he; exact hr v l b d e
      · exact h.rngOk k' i' v l a b he d e }

/-- The parent is told. -/
theorem setChild_spec (h : Inv (one k i) s) (hk : k ≤ 4) (hp : Par s k i) (hm : s.mem s.cur k i ≠ none)
    (hrng : k < 4 ∨ s.half i = false → ∃ l, s.rng k i = s.cur :: l)
    (hc : k < 4 → ∀ j, s.ref s.cur k i j = (s.loc k i).bind fun v => s.ref v k i j)
    (hfull : k = 4 → s.full s.cur i) :
    Inv none2 (s.setChild s.cur k i s.cur) ∧ (s.setChild s.cur k i s.cur).cur = s.cur ∧
    (s.setChild s.cur k i s.cur).half = s.half ∧ (s.setChild s.cur k i s.cur).io = s.io ∧
    (∀ v k' i', (s.setChild s.cur k i s.cur).mem v k' i' = none ↔ s.mem v k' i' = none) ∧
    (∀ v i', (s.setChild s.cur k i s.cur).view v 4 i' = s.view v 4 i') ∧
    ∀ k' i', k' ≤ 4 → (s.setChild s.cur k i s.cur).loc k' i' =
      if k' = k ∧ i' = i then some s.cur else s.loc k' i' := by
  cases k with
  | zero =>
    have hp : i = 0 := hp
    subst hp
    have hloc : ∀ k' i', k' ≤ 4 → (s.setChild s.cur 0 0 s.cur).loc k' i' =
        if k' = 0 ∧ i' = 0 then some s.cur else s.loc k' i' :=
      loc_bind s.cur hk (fun _ => ⟨rfl, rfl⟩) (fun h => absurd rfl h)
        (fun v k' i' j _ => by rw [if_neg (by omega)]; rfl) hc
    refine ⟨?_, rfl, rfl, rfl, fun _ _ _ => Iff.rfl, fun _ _ => rfl, hloc⟩
    have h1 : Inv (one 0 0) (s.setChild s.cur 0 0 s.cur) := by
      refine { nostray := ?_, hasseg := ?_, bound := ?_, kids := h.kids, root := ?_, clean := h.clean
               dskSeg := h.dskSeg, memSeg := h.memSeg, sbClean := fun h => (nomatch h), own := h.own, blocks := h.blocks
               rngOk := ?_ }
      · intro k p a b
        cases k with
        | zero => exact h.nostray 0 p a b
        | succ k => exact h.nostray (k + 1) p a b
      · intro k p a b
        cases k with
        | zero => exact h.hasseg 0 p a b
        | succ k => exact h.hasseg (k + 1) p a b
      · intro k i' a b
        cases k with
        | zero =>
          have := h.bound 0 i' a b
          by_cases hi : i' = 0
          · exact (a ⟨rfl, hi⟩).elim
          · simp only [St.pChild, if_neg hi] at this; cases this
        | succ k => exact h.bound (k + 1) i' a b
      · intro w hw
        have : some s.cur = some w := hw
        cases this
        exact cont_of_mem hm
      · intro k' i' v l a b c d e
        rw [hloc k' i' a, if_neg (show ¬ (k' = 0 ∧ i' = 0) from c)]
        exact h.rngOk k' i' v l a b c d e
    refine h1.bindDone rfl ?_
    intro v l a b _
    obtain ⟨l', hl⟩ := hrng a
    have b : s.rng 0 0 = v :: l := b
    rw [hl] at b
    cases b
    exact (hloc 0 0 hk).trans (if_pos ⟨rfl, rfl⟩)
  | succ k =>
    have hp : s.mem s.cur k (i / 256) ≠ none := hp
    cases hpm : s.mem s.cur k (i / 256) with
    | none => exact (hp hpm).elim
    | some e =>
      have hce : s.cont s.cur k (i / 256) = some e.n := by unfold St.cont; rw [hpm]
      have heq : s.setChild s.cur (k + 1) i s.cur = s.setMem s.cur k (i / 256)
          (some ⟨{ e.n with child := fun j => if j = i % 256 then some s.cur else e.n.child j }, true⟩) :=
        by
        simp only [St.setChild]
        rw [modNode_some hpm]
      generalize hnn : ({ e.n with child := fun j => if j = i % 256 then some s.cur else e.n.child j } : Node) = n
        at heq
      have hnc : ∀ j, n.child j = if j = i % 256 then some s.cur else e.n.child j := by
        intro j; rw [← hnn]
      have hnm : n.main = e.n.main := by rw [← hnn]
      rw [heq]
      have hb0 : ∀ k' i', k' < k + 1 → s.here k' i' → s.pChild k' i' = some s.cur := fun k' i' a b =>
        h.bound k' i' (fun z => by have := z.1; omega) b
      have hpl : s.loc k (i / 256) = some s.cur :=
        loc_cur hb0 k (i / 256) (by omega) (.inl ⟨by omega, cont_of_mem hp⟩)
      have href : ∀ v k' i' j, k' < 4 →
          (s.setMem s.cur k (i / 256) (some ⟨n, true⟩)).ref v k' i' j =
          if v = s.cur ∧ k' + 1 = k + 1 ∧ i' = i / 256 ∧ j = i % 256 then some s.cur else s.ref v k' i' j := by
        intro v k' i' j _
        unfold St.ref
        rw [cont_setMem]
        by_cases hh : v = s.cur ∧ k' = k ∧ i' = i / 256
        · rw [if_pos hh]
          obtain ⟨rfl, rfl, rfl⟩ := hh
          show n.child j = _
          rw [hnc, hce]
          by_cases hj : j = i % 256
          · rw [if_pos hj, if_pos ⟨rfl, rfl, rfl, hj⟩]
          · rw [if_neg hj, if_neg (fun z => hj z.2.2.2)]; rfl
        · rw [if_neg hh, if_neg (fun z => hh ⟨z.1, by omega, z.2.2.1⟩)]
      have hloc : ∀ k' i', k' ≤ 4 → (s.setMem s.cur k (i / 256) (some ⟨n, true⟩)).loc k' i' =
          if k' = k + 1 ∧ i' = i then some s.cur else s.loc k' i' :=
        loc_bind s.cur hk (fun h => nomatch h) (fun _ => ⟨rfl, hpl⟩) href hc
      have hmem : ∀ v k' i', (s.setMem s.cur k (i / 256) (some ⟨n, true⟩)).mem v k' i' = none ↔
          s.mem v k' i' = none := by
        intro v k' i'
        rw [mem_setMem]
        by_cases hh : v = s.cur ∧ k' = k ∧ i' = i / 256
        · rw [if_pos hh]
          obtain ⟨rfl, rfl, rfl⟩ := hh
          rw [hpm]
          exact ⟨fun h => (nomatch h), fun h => (nomatch h)⟩
        · rw [if_neg hh]
      refine ⟨?_, rfl, rfl, rfl, hmem, ?_, hloc⟩
      · have h1 : Inv (one (k + 1) i) (s.setMem s.cur k (i / 256) (some ⟨n, true⟩)) := by
          refine h.setNode n (h.memSeg _ _ _ hp) ?_ ?_ ?_ ?_ ?_ ?_ (fun z => absurd z (by omega)) ?_
          · intro _ hs
            obtain ⟨n', a, b⟩ := h.nostray (k + 1) (i / 256) (by omega) hs
            rw [hce] at a; cases a
            rw [hnm]; exact b
          · intro _ hs
            exact h.hasseg (k + 1) (i / 256) (by omega) ⟨e.n, hce, by rw [← hnm]; exact hs⟩
          · intro j hj hx hh
            have := h.bound (k + 1) j hx hh
            rw [pChild_succ, hj] at this
            unfold St.ref at this
            rw [hce] at this
            rw [hnc]
            by_cases hj' : j % 256 = i % 256
            · rw [if_pos hj']
            · rw [if_neg hj']; exact this
          · intro _ _
            exact hb0 k (i / 256) (by omega) (.inl ⟨by omega, cont_of_mem hp⟩)
          · intro j w hk4 hj hn
            rw [hnc] at hn
            by_cases hj' : j % 256 = i % 256
            · rw [if_pos hj'] at hn
              cases hn
              have : j = i := by omega
              subst this
              exact cont_of_mem hm
            · rw [if_neg hj'] at hn
              exact h.kids s.cur k j e.n w hk4 (by rw [hj]; exact hce) hn
          · intro hk3 j w hj hn
            subst hk3
            rw [hnc] at hn
            by_cases hj' : j % 256 = i % 256
            · rw [if_pos hj'] at hn
              cases hn
              have : j = i := by omega
              subst this
              exact hfull rfl
            · rw [if_neg hj'] at hn
              exact h.blocks s.cur j e.n w (by rw [hj]; exact hce) hn
          · intro k' i' v l a b c d hmm
            rw [hloc k' i' a, if_neg (show ¬ (k' = k + 1 ∧ i' = i) from c)]
            refine h.rngOk k' i' v l a b c d ?_
            rcases hmm with hmm | ⟨rfl, rfl, rfl⟩
            · exact hmm
            · exact hp
        refine h1.bindDone ?_ ?_
        · show St.ref (s.setMem s.cur k (i / 256) (some ⟨n, true⟩)) s.cur k (i / 256) (i % 256) = some s.cur
          rw [href _ _ _ _ (by omega), if_pos ⟨rfl, rfl, rfl, rfl⟩]
        · intro v l a b _
          obtain ⟨l', hl⟩ := hrng a
          have b : s.rng (k + 1) i = v :: l := b
          rw [hl] at b
          cases b
          rw [hloc _ _ hk, if_pos ⟨rfl, rfl⟩]
      · intro v i'
        unfold St.view
        rw [cont_setMem, if_neg (by omega)]

/-! ### Outcome of a function -/

/-- The invariant is kept and no leaf lost; with `same` none is added either. -/
structure Good (same : Bool) (s s' : St) : Prop where
  inv : Inv none2 s'
  cur : s'.cur = s.cur
  keep : ∀ i x, s.leaf i = some x → s'.leaf i = some x
  back : same = true → ∀ i, s'.leaf i = s.leaf i

theorem Good.ofSame (h1 : Inv none2 s') (h2 : s'.cur = s.cur) (h3 : ∀ i, s'.leaf i = s.leaf i) :
    Good b s s' := ⟨h1, h2, fun i x h => by rw [h3]; exact h, fun _ => h3⟩

theorem Good.trans (h : Good b s s') (h' : Good b s' s'') : Good b s s'' :=
  ⟨h'.inv, h'.cur.trans h.cur, fun i x a => h'.keep i x (h.keep i x a),
    fun hb i => (h'.back hb i).trans (h.back hb i)⟩

theorem Good.refl (h : Inv none2 s) : Good b s s := .ofSame h rfl (fun _ => rfl)

/-- `E`: errors that do not come from the storage. -/
def Does (same : Bool) (m : M α) (E : Nat → Prop) (Q : α → St → Prop) (s : St) : Prop :=
  ∃ r s', m s = (r, s') ∧ Good same s s' ∧
    match r with
    | .ok a => s'.half = s.half ∧ (s.io = [] → s'.io = []) ∧ Q a s'
    | .err e => s.io ≠ [] ∨ E e

theorem Does.bind {m : M α} {f : α → M β} (h : Does b m E Q s)
    (hf : ∀ a s', Good b s s' → s'.half = s.half → Q a s' → Does b (f a) E R s') :
    Does b (m >>= f) E R s := by
  obtain ⟨r, s', he, hg, hr⟩ := h
  cases r with
  | err e =>
    refine ⟨.err e, s', ?_, hg, hr⟩
    show M.bind m f s = _
    simp only [M.bind, he]
  | ok a =>
    obtain ⟨h1, h2, h3⟩ := hr
    obtain ⟨r, s'', he', hg', hr'⟩ := hf a s' hg h1 h3
    refine ⟨r, s'', ?_, hg.trans hg', ?_⟩
    · show M.bind m f s = _
      simp only [M.bind, he, he']
    · cases r with
      | err e => exact hr'.imp_left (fun z w => z (h2 w))
      | ok c => exact ⟨hr'.1.trans h1, fun w => hr'.2.1 (h2 w), hr'.2.2⟩

theorem Does.mono {m : M α} (h : Does b m E Q s) (hE : ∀ e, E e → E' e) (hQ : ∀ a s', Good b s s' → s'.half = s.half → Q a s' → Q' a s') :
    Does b m E' Q' s := by
  obtain ⟨r, s', he, hg, hr⟩ := h
  refine ⟨r, s', he, hg, ?_⟩
  cases r with
  | err e => exact hr.imp_right (hE e)
  | ok a => exact ⟨hr.1, hr.2.1, hQ a s' hg hr.1 hr.2.2⟩

theorem Does.pure {α : Type} {a : α} {Q : α → St → Prop} (h : Inv none2 s) (hQ : Q a s) :
    Does b (Pure.pure a : M α) E Q s :=
  ⟨.ok a, s, rfl, .refl h, rfl, fun h => h, hQ⟩

theorem Does.weak {m : M α} (h : Does true m E Q s) : Does false m E Q s := by
  obtain ⟨r, s', he, hg, hr⟩ := h
  exact ⟨r, s', he, ⟨hg.inv, hg.cur, hg.keep, fun h => nomatch h⟩, hr⟩

/-! ### Making a node -/

/-- What holds of a node that was made. -/
def Made (k i : Nat) (s s' : St) : Prop := s'.mem s.cur k i ≠ none ∧ s'.loc k i = some s.cur

theorem cloneFrom_spec (h : Inv (one k i) s) (hk : k ≤ 4) (hm : s.mem s.cur k i = some ⟨n, true⟩)
    (h0 : k < 4 → n = {}) (hl : s.loc k i ≠ some s.cur) (hw : s.cont w k i = some old)
    (hn : s.pChild k i ≠ some s.cur) :
    Inv (one k i) (s.setMem s.cur k i (some ⟨cloneFrom old n, true⟩)) := by
  have hce : s.cont s.cur k i = some n := by unfold St.cont; rw [hm]
  have hmm : s.mem s.cur k i ≠ none := by rw [hm]; exact fun h => nomatch h
  refine h.setNode _ (h.memSeg _ _ _ hmm) ?_ ?_ ?_ (fun _ z => (z ⟨rfl, rfl⟩).elim) ?_ ?_ ?_ ?_
  · intro hk4 hs
    obtain ⟨n', a, b⟩ := h.nostray (k + 1) i (by omega) hs
    rw [hce] at a; cases a; exact b
  · intro _ hs
    exact h.hasseg (k + 1) i (by omega) ⟨n, hce, hs⟩
  · intro j hj _ hh
    have hk4 : k < 4 := by
      rcases hh with ⟨a, _⟩ | ⟨a, _⟩ <;> omega
    have := h.bound (k + 1) j (fun z => by have := z.1; omega) hh
    rw [pChild_succ, hj] at this
    unfold St.ref at this
    rw [hce, h0 hk4] at this
    cases this
  · intro j w' hk4 hj hn
    exact h.kids w k j old w' hk4 (by rw [hj]; exact hw) hn
  · intro hk3 j w' hj hc
    subst hk3
    exact h.blocks w j old w' (by rw [hj]; exact hw) hc
  · intro hk4 hpc
    subst hk4
    exact (hn hpc).elim
  · intro k' i' v l a b c d e
    have := (Fx.setMem (k := k) (i := i) s s.io s.rng ⟨cloneFrom old n, true⟩ (fun h => h)).loc hl k' i'
    refine this.trans (h.rngOk k' i' v l a b c d ?_)
    rcases e with e | e
    · exact e
    · exact (c e.2).elim

theorem cloneNode_spec (h : Inv none2 s) (hk : k ≤ 4) (hp : Par s k i) (hw : s.pChild k i = some w)
    (hne : w ≠ s.cur) (hm : s.mem w k i ≠ none) :
    Does true (cloneNode s.cur k i w) (fun _ => False) (fun _ s' => Made k i s s') s := by
  have hn : s.pChild k i ≠ some s.cur := by rw [hw]; intro z; cases z; exact hne rfl
  have hlw : s.loc k i = some w := by rw [par_loc h hk (fun _ _ _ h => h) hp]; exact hw
  have hl : s.loc k i ≠ some s.cur := by rw [hlw]; intro z; cases z; exact hne rfl
  cases hmw : s.mem w k i with
  | none => exact (hm hmw).elim
  | some ew =>
    have hcw : s.cont w k i = some ew.n := by unfold St.cont; rw [hmw]
    have heq : cloneNode s.cur k i w s =
        match spawnNode s.cur k i s with
        | (.err e, s1) => (.err e, s1)
        | (.ok _, s1) => (.ok (), (s1.modNode s1.cur k i (cloneFrom ew.n)).setChild s.cur k i s1.cur) := by
      simp only [cloneNode, Bind.bind, M.bind, get, hmw]
      cases spawnNode s.cur k i s with
      | mk r s1 =>
        cases r with
        | err e => rfl
        | ok a => simp only [upd]
    unfold Does
    rw [heq]
    rcases spawnNode_spec h hk hp hn with ⟨s1, n, e1, f1, i1, m1, z1, r1, g1⟩ | ⟨e, s1, e1, hio, i1, c1, l1⟩
    · rw [e1]
      simp only
      refine ⟨_, _, rfl, ?_⟩
      have m1' : s1.mem s1.cur k i = some ⟨n, true⟩ := by rw [f1.cur]; exact m1
      have hl1 : s1.loc k i ≠ some s1.cur := by rw [f1.loc hl, f1.cur]; exact hl
      rw [modNode_some m1', ← f1.cur]
      have hvw : s1.view w k i = s.view w k i := f1.view w k i (fun z => hne z.1)
      have hcw1 : ∃ old, s1.cont w k i = some old ∧ old.view = ew.n.view := by
        unfold St.view at hvw
        rw [hcw] at hvw
        cases hc : s1.cont w k i with
        | none => rw [hc] at hvw; cases hvw
        | some old => rw [hc] at hvw; exact ⟨old, rfl, Option.some.inj hvw⟩
      obtain ⟨old, hco, hov⟩ := hcw1
      have hcf : cloneFrom ew.n n = cloneFrom old n := by
        unfold Node.view at hov
        unfold cloneFrom
        rw [← (Prod.mk.inj hov).1, ← (Prod.mk.inj hov).2]
      rw [show (({ n := n, dirty := true } : Ent).n) = n from rfl, hcf]
      have hn1 : s1.pChild k i ≠ some s1.cur := by rw [f1.pChild _ _ (by omega), f1.cur]; exact hn
      have i2 := cloneFrom_spec i1 hk m1' z1 hl1 hco hn1
      have f2 : Fx k i s1 (s1.setMem s1.cur k i (some ⟨cloneFrom old n, true⟩)) :=
        Fx.setMem s1 s1.io s1.rng _ (fun h => h)
      have m2 : (s1.setMem s1.cur k i (some ⟨cloneFrom old n, true⟩)).mem s1.cur k i =
          some ⟨cloneFrom old n, true⟩ := by rw [mem_setMem, if_pos ⟨rfl, rfl, rfl⟩]
      generalize hs2 : s1.setMem s1.cur k i (some ⟨cloneFrom old n, true⟩) = s2 at *
      have f := f1.trans f2
      have hs2c : s2.cur = s1.cur := f2.cur
      have hl2 : s2.loc k i = some w := by rw [f.loc hl]; exact hlw
      have hv2 : s2.view s2.cur k i = s2.view w k i := by
        have h1 : s2.view w k i = some old.view := by
          rw [f2.view _ _ _ (fun z => hne (z.1.trans f1.cur))]
          unfold St.view; rw [hco]; rfl
        rw [h1]
        unfold St.view St.cont
        rw [hs2c, m2]; rfl
      obtain ⟨j1, j2, j3, j4, j5, j6, j7⟩ := setChild_spec i2 hk (f.par hp)
        (by rw [hs2c, m2]; exact fun h => nomatch h)
        (by
          rw [f.half]
          intro z
          obtain ⟨l, hl⟩ := r1 z
          refine ⟨l, ?_⟩
          have hr2 : s2.rng = s1.rng := by rw [← hs2]; rfl
          rw [f.cur, hr2]; exact hl)
        (by
          intro _ j
          rw [hl2]
          show _ = s2.ref w k i j
          rw [ref_view, ref_view, hv2])
        (by
          intro hk4 m hcm q
          subst hk4
          have hpc : s2.pChild 4 i = some w := by
            rw [f.pChild _ _ (by omega)]; exact hw
          have hb : s2.full w i := by
            simp only [St.pChild] at hpc
            cases hcp : s2.cont s2.cur 3 (i / 256) with
            | none => rw [hcp] at hpc; cases hpc
            | some np => rw [hcp] at hpc; exact i2.blocks s2.cur i np w hcp hpc
          unfold St.view at hv2
          rw [hcm] at hv2
          cases hcw2 : s2.cont w 4 i with
          | none => rw [hcw2] at hv2; cases hv2
          | some m' =>
            rw [hcw2] at hv2
            have hv2 : (m.child, m.used) = (m'.child, m'.used) := Option.some.inj hv2
            rw [(Prod.mk.inj hv2).1]
            exact hb m' hcw2 q)
      rw [← hs2c]
      refine ⟨.ofSame j1 (j2.trans f.cur) ?_, j3.trans f.half, fun z => j4.trans (f.io z), ?_, ?_⟩
      · intro i'
        show ((s2.setChild s2.cur k i s2.cur).loc 4 i').bind _ = _
        rw [j7 4 i' (by omega)]
        rw [← f.leaf hl]
        unfold St.leaf
        by_cases hh : 4 = k ∧ i' = i
        · rw [if_pos hh]
          obtain ⟨rfl, rfl⟩ := hh
          rw [hl2]
          show (s2.setChild s2.cur 4 i' s2.cur).view s2.cur 4 i' = s2.view w 4 i'
          rw [j6, hv2]
        · rw [if_neg hh]
          cases s2.loc 4 i' with
          | none => rfl
          | some v => exact j6 v i'
      · rw [← f.cur, ne_eq, j5, hs2c, m2]; exact fun h => nomatch h
      · rw [j7 k i hk, if_pos ⟨rfl, rfl⟩, f.cur]
    · rw [e1]
      exact ⟨_, _, rfl, .ofSame i1 c1 l1, .inl hio⟩

end Silofs.Stage
