import Verif.Props.StageMake

/-! Making a node and binding it keeps the invariant (C58). -/

set_option linter.unusedSimpArgs false
set_option linter.unusedVariables false

namespace Silofs.Stage

/-- Nothing changes but node `(cur, k, i)` and the addresses of its range. -/
structure Fx (k i : Nat) (s s' : St) : Prop where
  cur : s'.cur = s.cur
  root : s'.sb.root = s.sb.root
  half : s'.half = s.half
  mem : ∀ v' k' i', ¬ (v' = s.cur ∧ k' = k ∧ i' = i) → (s'.mem v' k' i' = none ↔ s.mem v' k' i' = none)
  view : ∀ v' k' i', ¬ (v' = s.cur ∧ k' = k ∧ i' = i) → s'.view v' k' i' = s.view v' k' i'
  io : s.io = [] → s'.io = []

theorem Fr.fx (f : Fr s s') (k i : Nat) : Fx k i s s' :=
  ⟨f.cur, f.root, f.half, fun v k i _ => f.mem v k i, fun v k i _ => f.view v k i, f.io⟩

theorem Fx.trans (h : Fx k i s s') (h' : Fx k i s' s'') : Fx k i s s'' :=
  ⟨h'.cur.trans h.cur, h'.root.trans h.root, h'.half.trans h.half,
    fun v' k' i' n => (h'.mem v' k' i' (h.cur ▸ n)).trans (h.mem v' k' i' n),
    fun v' k' i' n => (h'.view v' k' i' (h.cur ▸ n)).trans (h.view v' k' i' n), fun a => h'.io (h.io a)⟩

theorem Fx.loc (f : Fx k i s s') (hl : s.loc k i ≠ some s.cur) (k' i' : Nat) :
    s'.loc k' i' = s.loc k' i' := by
  refine loc_congr k' f.root (fun v k'' i'' j _ hloc => ?_) k' i' (by omega)
  rw [ref_view, ref_view, f.view]
  rintro ⟨rfl, rfl, rfl⟩
  exact hl hloc

theorem Fx.leaf (f : Fx k i s s') (hl : s.loc k i ≠ some s.cur) (i' : Nat) : s'.leaf i' = s.leaf i' := by
  unfold St.leaf
  rw [f.loc hl]
  cases hv : s.loc 4 i' with
  | none => rfl
  | some v =>
    exact f.view v 4 i' (fun z => hl (by obtain ⟨rfl, rfl, rfl⟩ := z; exact hv))

theorem Fr.leaf (f : Fr s s') (i' : Nat) : s'.leaf i' = s.leaf i' := by
  unfold St.leaf
  rw [f.loc]
  cases hv : s.loc 4 i' with
  | none => rfl
  | some v => exact f.view v 4 i'

theorem Fx.setMem (s : St) (io : List Nat) (rng : Nat → Nat → List Nat) (e : Ent) (h : s.io = [] → io = []) :
    Fx k i s ({ s with io, rng }.setMem s.cur k i (some e)) := by
  refine ⟨rfl, rfl, rfl, ?_, ?_, h⟩
  · intro v k i n
    rw [mem_setMem, if_neg n]
  · intro v k i n
    unfold St.view
    rw [cont_setMem, if_neg n]
    rfl

/-- A node whose parent is in memory is found by it. -/
theorem par_loc (h : Inv x s) (hk : k ≤ 4) (hx : ∀ i', ∀ k' < k, ¬ x k' i') (hp : Par s k i) :
    s.loc k i = s.pChild k i := by
  cases k with
  | zero => rfl
  | succ k =>
    have hp : s.mem s.cur k (i / 256) ≠ none := hp
    have hc : s.cont s.cur k (i / 256) ≠ none := by
      unfold St.cont
      cases hm : s.mem s.cur k (i / 256) with
      | none => exact (hp hm).elim
      | some e => exact fun h => nomatch h
    rw [loc_succ, loc_cur (m := k + 1) (fun k' i' a b => h.bound k' i' (hx _ _ a) b) k (i / 256) (by omega)
      (.inl ⟨by omega, hc⟩)]
    rfl

theorem cont_of_mem {s : St} (h : s.mem v k i ≠ none) : s.cont v k i ≠ none := by
  unfold St.cont
  cases hm : s.mem v k i with
  | none => exact (h hm).elim
  | some e => exact fun h => nomatch h

/-! ### A new node in memory -/

theorem forget_eq {s : St} (hm : s.mem v k i = none) : s.forget v k i =
    { s with rng := fun k' i' => if k' = k ∧ i' = i then [] else s.rng k' i' } := by
  have : (s.setMem v k i none).mem = s.mem := by
    funext v' k' i'
    rw [mem_setMem]
    by_cases hh : v' = v ∧ k' = k ∧ i' = i
    · obtain ⟨rfl, rfl, rfl⟩ := hh; rw [if_pos ⟨rfl, rfl, rfl⟩, hm]
    · rw [if_neg hh]
  unfold St.forget
  show { s with mem := (s.setMem v k i none).mem, rng := _ } = _
  rw [this]

theorem leaf_same (s s' : St) (h1 : s'.sb.root = s.sb.root) (h2 : ∀ v k i, s'.view v k i = s.view v k i)
    (i' : Nat) : s'.leaf i' = s.leaf i' := by
  unfold St.leaf
  rw [loc_congr (s := s) (s' := s') 4 h1 (fun _ _ _ _ _ _ => by rw [ref_view, ref_view, h2]) 4 i' (by omega)]
  cases s.loc 4 i' with
  | none => rfl
  | some v => exact h2 _ _ _

theorem Inv.forget (h : Inv x s) (hm : s.mem v k i = none) : Inv x (s.forget v k i) := by
  rw [forget_eq hm]
  refine h.setRng _ (fun _ _ h => h) ?_
  intro k' i' v' l _ hr
  by_cases hh : k' = k ∧ i' = i
  · rw [if_pos hh] at hr; cases hr
  · rw [if_neg hh] at hr; exact ⟨l, hr⟩

/-- A node of the mounted volume that its parent does not refer to does not exist. -/
theorem Inv.absent (h : Inv none2 s) (hn : s.pChild k i ≠ some s.cur) (hk : k < 4) :
    s.cont s.cur k i = none := by
  cases hc : s.cont s.cur k i with
  | none => rfl
  | some n => exact (hn (h.bound k i (fun h => h) (.inl ⟨hk, by rw [hc]; exact fun h => nomatch h⟩))).elim

theorem Inv.newNode (h : Inv none2 s) (hk : k ≤ 4) (hp : Par s k i) (hn : s.pChild k i ≠ some s.cur)
    (hs : s.seg s.cur k (i / 256) = true) (rng : Nat → Nat → List Nat)
    (hr : ∀ k' i', ¬ (k' = k ∧ i' = i) → rng k' i' = s.rng k' i') (io : List Nat) (hio : s.io = [] → io = []) :
    Inv (one k i) ({ s with io, rng }.setMem s.cur k i (some ⟨{}, true⟩)) := by
  have hl : s.loc k i ≠ some s.cur := by rw [par_loc h hk (fun _ _ _ h => h) hp]; exact hn
  have h1 : Inv (one k i) { s with io, rng } := by
    refine (h.setIo io).setRng rng (fun _ _ h => h.elim) ?_
    intro k' i' v l a b
    rw [hr k' i' a] at b
    exact ⟨l, b⟩
  refine h1.setNode {} hs ?_ (fun _ h => nomatch h) ?_ (fun _ z => (z ⟨rfl, rfl⟩).elim)
    (fun _ _ _ _ h => nomatch h) (fun _ _ _ _ h => nomatch h) ?_ ?_
  · intro hk4 hs'
    obtain ⟨n, a, _⟩ := h.nostray (k + 1) i (by omega) hs'
    rw [h.absent hn hk4] at a
    cases a
  · intro j hj _ hh
    have hh' : s.here (k + 1) j := hh
    have hk4 : k < 4 := by
      rcases hh' with ⟨a, _⟩ | ⟨a, _⟩ <;> omega
    have := h.bound (k + 1) j (fun h => h) hh'
    simp only [St.pChild, hj, h.absent hn hk4] at this
    cases this
  · intro hk4 hpc
    subst hk4
    exact (hn hpc).elim
  · intro k' i' v l a b c d e
    rw [(Fx.setMem (k := k) (i := i) s io rng _ hio).loc hl k' i']
    have d : rng k' i' = v :: l := d
    rw [hr k' i' c] at d
    refine h.rngOk k' i' v l a b (fun h => h) d ?_
    rcases e with e | e
    · exact e
    · exact (c e.2).elim

theorem spawnU_spec (h : Inv none2 s) (hk : k ≤ 4) (hp : Par s k i) (hn : s.pChild k i ≠ some s.cur)
    (hs : s.seg s.cur k (i / 256) = true) :
    (∃ s', spawnU s.cur k i s = (.ok (), s') ∧ Fx k i s s' ∧ Inv (one k i) s' ∧
      s'.mem s.cur k i = some ⟨{}, true⟩ ∧ (k < 4 ∨ s.half i = false → ∃ l, s'.rng k i = s.cur :: l)) ∨
    ∃ e s', spawnU s.cur k i s = (.err e, s') ∧ s.io ≠ [] ∧ Inv none2 s' ∧ s'.cur = s.cur ∧
      ∀ i', s'.leaf i' = s.leaf i' := by
  unfold spawnU
  cases hm : s.mem s.cur k i with
  | some e =>
    left
    refine ⟨_, rfl, ?_⟩
    have hx : ¬ (k < 4 ∨ s.half i = false) := by
      intro hx
      refine hn (h.bound k i (fun h => h) ?_)
      by_cases hk4 : k < 4
      · exact .inl ⟨hk4, cont_of_mem (by rw [hm]; exact fun h => nomatch h)⟩
      · have : k = 4 := by omega
        subst this
        exact .inr ⟨rfl, hx.resolve_left hk4, by rw [hm]; exact fun h => nomatch h⟩
    have ht : ∃ rng, s.track s.cur k i = { s with rng } ∧
        ∀ k' i', ¬ (k' = k ∧ i' = i) → rng k' i' = s.rng k' i' := by
      unfold St.track
      by_cases hr : s.rng k i = []
      · rw [if_pos hr]
        exact ⟨_, rfl, fun k' i' n => if_neg n⟩
      · rw [if_neg hr]
        exact ⟨s.rng, rfl, fun _ _ _ => rfl⟩
    obtain ⟨rng, he, hr⟩ := ht
    rw [he]
    have f : Fx k i s ({ s with rng }.setMem s.cur k i (some ⟨{}, true⟩)) :=
      Fx.setMem s s.io rng _ (fun h => h)
    have := h.newNode hk hp hn hs rng hr s.io (fun h => h)
    refine ⟨f, this, ?_, fun z => (hx z).elim⟩
    rw [mem_setMem, if_pos ⟨rfl, rfl, rfl⟩]
  | none =>
    rcases requireLseg_cases s.cur k (i / 256) s with ⟨_, a⟩ | ⟨a, _⟩
    · simp only [a]
      rcases sys_cases s with ⟨io, b, c⟩ | ⟨e, io, b, c⟩
      · left
        simp only [b]
        refine ⟨_, rfl, ?_⟩
        refine ⟨Fx.setMem s io (fun k' i' => if k' = k ∧ i' = i then s.cur :: s.rng k i else s.rng k' i') _ c,
          h.newNode hk hp hn hs _ (fun k' i' n => if_neg n) io c, ?_, fun _ => ⟨s.rng k i, ?_⟩⟩
        · rw [mem_setMem, if_pos ⟨rfl, rfl, rfl⟩]
        · exact if_pos ⟨rfl, rfl⟩
      · right
        simp only [b]
        refine ⟨e, _, rfl, c, (h.setIo io).forget hm, ?_, ?_⟩
        · rw [forget_eq (s := { s with io }) hm]
        · intro i'
          rw [forget_eq (s := { s with io }) hm]
          exact leaf_same s _ rfl (fun _ _ _ => rfl) i'
    · rw [hs] at a; cases a

/-! ### The data segment of a leaf -/

theorem Inv.mkSeg5 (h : Inv x s) (hs : s.seg s.cur 5 p = false) : Inv x (s.mkSeg s.cur 5 p) := by
  have hd := mkSeg_dsk h.dskSeg hs
  have hc := mkSeg_cont h.dskSeg hs
  have f : Fr s (s.mkSeg s.cur 5 p) :=
    ⟨rfl, rfl, rfl, rfl, fun _ _ _ => Iff.rfl, fun v k i => by unfold St.view; rw [hc], fun h => h⟩
  have hpm : ∀ k q, (s.mkSeg s.cur 5 p).pMain k q ↔ s.pMain k q := by
    intro k q
    cases k with
    | zero => exact Iff.rfl
    | succ k => unfold St.pMain; rw [hc]; exact Iff.rfl
  refine h.ofFr f ?_ ?_ ?_ ?_ ?_ h.sbClean (fun _ _ _ z => mkSeg_mono _ _ _ _ _ _ _ z)
  · intro k q hk hs'
    have hs' : (s.mkSeg s.cur 5 p).seg s.cur k q = true := hs'
    rw [mkSeg_seg, if_neg (fun z => by omega)] at hs'
    exact (hpm k q).2 (h.nostray k q hk hs')
  · intro k q hk hm
    exact mkSeg_mono _ _ _ _ _ _ _ (h.hasseg k q hk ((hpm k q).1 hm))
  · intro v k i e a b
    rw [hd]
    exact h.clean v k i e a b
  · intro v k i a
    rw [hd] at a
    exact mkSeg_mono _ _ _ _ _ _ _ (h.dskSeg v k i a)
  · intro v k i a
    exact mkSeg_mono _ _ _ _ _ _ _ (h.memSeg v k i a)

theorem modNode_some {s : St} (hm : s.mem v k i = some e) (f : Node → Node) :
    s.modNode v k i f = s.setMem v k i (some ⟨f e.n, true⟩) := by
  unfold St.modNode
  rw [hm]

/-- The content of the leaf being made is set. -/
theorem Inv.setLeaf (h : Inv (one 4 i) s) (hm : s.mem s.cur 4 i ≠ none) (hl : s.loc 4 i ≠ some s.cur)
    (hn : s.pChild 4 i ≠ some s.cur) (n : Node) (hs : n.main = true → s.seg s.cur 5 i = true) :
    Inv (one 4 i) (s.setMem s.cur 4 i (some ⟨n, true⟩)) := by
  refine h.setNode n (h.memSeg _ _ _ hm) (fun h => absurd h (by omega)) (fun _ => hs) ?_
    (fun _ z => (z ⟨rfl, rfl⟩).elim) (fun _ _ h => absurd h (by omega)) (fun h => absurd h (by omega))
    (fun _ z => (hn z).elim) ?_
  · intro j _ _ hh
    rcases hh with ⟨a, _⟩ | ⟨a, _⟩ <;> omega
  · intro k' i' v l a b c d e
    have := (Fx.setMem (k := 4) (i := i) s s.io s.rng ⟨n, true⟩ (fun h => h)).loc hl k' i'
    refine this.trans (h.rngOk k' i' v l a b c d ?_)
    rcases e with e | e
    · exact e
    · exact (c e.2).elim

theorem leafMain_eq (hm : s.mem s.cur 4 i = some e) (h0 : e.n.main = false) :
    leafMain i s = M.bind (requireLseg s.cur 5 i) (fun _ => upd (·.modNode s.cur 4 i (bindBlocks s.cur))) s := by
  have : s.getMain s.cur 5 i = false := by
    unfold St.getMain
    simp only [hm, h0]
  simp [leafMain, bind, M.bind, get, this]

theorem leafMain_spec (h : Inv (one 4 i) s) (hm : s.mem s.cur 4 i = some e) (h0 : e.n.main = false)
    (hl : s.loc 4 i ≠ some s.cur) (hn : s.pChild 4 i ≠ some s.cur) :
    (∃ s' n, leafMain' i s = (.ok (), s') ∧ Fx 4 i s s' ∧ Inv (one 4 i) s' ∧
      s'.mem s.cur 4 i = some ⟨n, true⟩ ∧ s'.rng = s.rng ∧ s'.full s.cur i) ∨
    ∃ e s', leafMain' i s = (.err e, s') ∧ s.io ≠ [] ∧ Inv none2 s' ∧ s'.cur = s.cur ∧
      ∀ i', s'.leaf i' = s.leaf i' := by
  have hh : ∀ e' io', s.io ≠ [] → leafMain i s = (.err e', { s with io := io' }) →
      ∃ e s', leafMain' i s = (.err e, s') ∧ s.io ≠ [] ∧ Inv none2 s' ∧ s'.cur = s.cur ∧
        ∀ i', s'.leaf i' = s.leaf i' := by
    intro e' io' hne he
    refine ⟨e', { s with io := io', half := fun j => j == i || s.half j }, ?_, hne, ?_, rfl, ?_⟩
    · unfold leafMain'; rw [he]
    · have h1 : Inv (one 4 i) { s with io := io', half := fun j => j == i || s.half j } :=
        h.congr rfl rfl rfl rfl rfl rfl rfl rfl (fun j z => by
          have z : (j == i || s.half j) = false := z
          exact (Bool.or_eq_false_iff.1 z).2)
      have hi : ({ s with io := io', half := fun j => j == i || s.half j } : St).half i = true := by simp
      refine { h1 with bound := ?_, rngOk := ?_ }
      · intro k j _ hh
        refine h1.bound k j ?_ hh
        rintro ⟨rfl, rfl⟩
        rcases hh with ⟨a, _⟩ | ⟨_, b, _⟩
        · omega
        · rw [hi] at b; cases b
      · intro k j v l a b _
        refine h1.rngOk k j v l a b ?_
        rintro ⟨rfl, rfl⟩
        rcases b with a | b
        · omega
        · rw [hi] at b; cases b
    · exact leaf_same s _ rfl (fun _ _ _ => rfl)
  have hok : ∀ t, Inv (one 4 i) t → Fx 4 i s t → t.mem = s.mem → t.rng = s.rng → t.seg s.cur 5 i = true →
      requireLseg s.cur 5 i s = (.ok (), t) →
      (∃ s' n, leafMain' i s = (.ok (), s') ∧ Fx 4 i s s' ∧ Inv (one 4 i) s' ∧
        s'.mem s.cur 4 i = some ⟨n, true⟩ ∧ s'.rng = s.rng ∧ s'.full s.cur i) := by
    intro t ht hf htm htr hts he
    have hm' : t.mem t.cur 4 i = some e := by rw [hf.cur, htm]; exact hm
    have hl' : t.loc 4 i ≠ some t.cur := by rw [hf.loc hl, hf.cur]; exact hl
    have hn' : t.pChild 4 i ≠ some t.cur := by
      rw [pChild_succ, ref_view, hf.view _ _ _ (by omega), ← ref_view, hf.cur]
      exact hn
    refine ⟨t.setMem s.cur 4 i (some ⟨bindBlocks s.cur e.n, true⟩), bindBlocks s.cur e.n, ?_, ?_, ?_, ?_, htr, ?_⟩
    · unfold leafMain'
      rw [leafMain_eq hm h0]
      simp only [M.bind, he, upd]
      rw [modNode_some (e := e) (by rw [htm]; exact hm)]
    · refine hf.trans ?_
      rw [← hf.cur]
      exact Fx.setMem t t.io t.rng _ (fun h => h)
    · rw [← hf.cur]
      exact ht.setLeaf (by rw [hm']; exact fun h => nomatch h) hl' hn' _ (fun _ => hf.cur ▸ hts)
    · rw [mem_setMem, if_pos ⟨rfl, rfl, rfl⟩]
    · intro m hm q
      rw [cont_setMem, if_pos ⟨rfl, rfl, rfl⟩] at hm
      cases hm
      exact ⟨s.cur, rfl, hts⟩
  rcases requireLseg_cases s.cur 5 i s with ⟨a, b⟩ | ⟨a, ⟨io, b, c⟩ | ⟨e', io, b, c⟩⟩
  · rcases sys_cases s with ⟨io, c, d⟩ | ⟨e', io, c, d⟩
    · left
      exact hok { s with io } (h.setIo io) ((Fr.setIo s io d).fx 4 i) rfl rfl a (b.trans c)
    · right
      refine hh e' io d ?_
      rw [leafMain_eq hm h0]
      simp only [M.bind, b, c]
  · left
    have h5 := (h.setIo io).mkSeg5 (p := i) a
    refine hok _ h5 ?_ rfl rfl ?_ c
    · refine ((Fr.setIo s io b).trans (s'' := { s with io }.mkSeg s.cur 5 i) ⟨rfl, rfl, rfl, rfl, fun _ _ _ => Iff.rfl, ?_, fun h => h⟩).fx 4 i
      intro v k i'
      unfold St.view
      exact congrArg _ (congrFun (congrFun (congrFun (mkSeg_cont (s := { s with io }) h.dskSeg a) v) k) i')
    · rw [mkSeg_seg, if_pos ⟨rfl, rfl, rfl⟩]
  · right
    refine hh e' io b ?_
    rw [leafMain_eq hm h0]
    simp only [M.bind, c]

theorem Fx.pChild (f : Fx k i s s') (k' i' : Nat) (hk : k' ≤ k) : s'.pChild k' i' = s.pChild k' i' := by
  cases k' with
  | zero => simp only [St.pChild, f.root]
  | succ k' =>
    rw [pChild_succ, pChild_succ, ref_view, ref_view, f.cur, f.view]
    omega

theorem Fx.par (f : Fx k i s s') (hp : Par s k i) : Par s' k i := by
  cases k with
  | zero => exact hp
  | succ k =>
    show s'.mem s'.cur k (i / 256) ≠ none
    rw [f.cur, ne_eq, f.mem _ _ _ (by omega)]
    exact hp

/-- A new node is made, not yet bound. -/
theorem spawnNode_spec (h : Inv none2 s) (hk : k ≤ 4) (hp : Par s k i) (hn : s.pChild k i ≠ some s.cur) :
    (∃ s' n, spawnNode s.cur k i s = (.ok (), s') ∧ Fx k i s s' ∧ Inv (one k i) s' ∧
      s'.mem s.cur k i = some ⟨n, true⟩ ∧ (k < 4 → n = {}) ∧
      (k < 4 ∨ s.half i = false → ∃ l, s'.rng k i = s.cur :: l) ∧ (k = 4 → s'.full s.cur i)) ∨
    ∃ e s', spawnNode s.cur k i s = (.err e, s') ∧ s.io ≠ [] ∧ Inv none2 s' ∧ s'.cur = s.cur ∧
      ∀ i', s'.leaf i' = s.leaf i' := by
  have heq : spawnNode s.cur k i s =
      match requireMain s.cur k (i / 256) s with
      | (.err e, s1) => (.err e, s1)
      | (.ok _, s1) =>
        match spawnU s1.cur k i s1 with
        | (.err e, s2) => (.err e, s2)
        | (.ok _, s2) => if k = 4 then leafMain' i s2 else (.ok (), s2) := by
    simp only [spawnNode, bind, M.bind, get]
    cases requireMain s.cur k (i / 256) s with
    | mk r s1 =>
      cases r with
      | err e => rfl
      | ok a =>
        simp only
        cases spawnU s1.cur k i s1 with
        | mk r s2 =>
          cases r with
          | err e => rfl
          | ok a =>
            simp only
            by_cases h4 : k = 4
            · rw [if_pos h4, if_pos h4]
            · rw [if_neg h4, if_neg h4]; rfl
  rw [heq]
  have hl : s.loc k i ≠ some s.cur := by rw [par_loc h hk (fun _ _ _ h => h) hp]; exact hn
  rcases requireMain_spec h hk hp with ⟨s1, e1, f1, i1, g1⟩ | ⟨e, io, e1, hio⟩
  · rw [e1]
    simp only
    have hn1 : s1.pChild k i ≠ some s1.cur := by rw [f1.pChild, f1.cur]; exact hn
    have hl1 : s1.loc k i ≠ some s1.cur := by rw [f1.loc, f1.cur]; exact hl
    rcases spawnU_spec i1 hk (f1.par hp) hn1 (by rw [f1.cur]; exact g1) with
      ⟨s2, e2, f2, i2, m2, r2⟩ | ⟨e, s2, e2, hio, i2, c2, l2⟩
    · rw [e2]
      simp only
      have f2' : Fx k i s s2 := (f1.fx k i).trans f2
      have r2' : k < 4 ∨ s.half i = false → ∃ l, s2.rng k i = s.cur :: l := by
        rw [← f1.half, ← f1.cur]; exact r2
      have m2' : s2.mem s2.cur k i = some ⟨{}, true⟩ := by rw [f2.cur]; exact m2
      by_cases h4 : k = 4
      · subst h4
        rw [if_pos rfl]
        have hl2 : s2.loc 4 i ≠ some s2.cur := by rw [f2.loc hl1, f2.cur]; exact hl1
        have hn2 : s2.pChild 4 i ≠ some s2.cur := by rw [f2.pChild _ _ (by omega), f2.cur]; exact hn1
        rcases leafMain_spec i2 m2' rfl hl2 hn2 with ⟨s3, n, e3, f3, i3, m3, r3, g3⟩ | ⟨e, s3, e3, hio, i3, c3, l3⟩
        · left
          refine ⟨s3, n, e3, f2'.trans f3, i3, ?_, fun h => absurd h (by omega), ?_, ?_⟩
          · rw [← f2'.cur]; exact m3
          · rw [r3]; exact r2'
          · intro _; rw [← f2'.cur]; exact g3
        · right
          refine ⟨e, s3, e3, fun z => hio (f2'.io z), i3, c3.trans f2'.cur, ?_⟩
          intro i'
          rw [l3, f2'.leaf hl]
      · rw [if_neg h4]
        left
        exact ⟨s2, {}, rfl, f2', i2, by rw [← f2'.cur]; exact m2', fun _ => rfl, r2', fun z => (h4 z).elim⟩
    · right
      rw [e2]
      refine ⟨e, s2, rfl, fun z => hio (f1.io z), i2, c2.trans f1.cur, ?_⟩
      intro i'
      rw [l2, f1.leaf]
  · right
    rw [e1]
    refine ⟨e, _, rfl, hio, h.setIo io, rfl, ?_⟩
    exact leaf_same s _ rfl (fun _ _ _ => rfl)

end Silofs.Stage
