import Verif.Props.StageBind

/-! The way down: staging and growth keep the invariant and end at the right node (C58). -/

set_option linter.unusedSimpArgs false
set_option linter.unusedVariables false

namespace Silofs.Stage

/-! ### A node comes into being -/

/-- The second half of `requireDown`. -/
def growNode (pv k i : Nat) : M Nat := do
  spawnNode pv k i
  let cur ← get (·.cur)
  upd (·.setChild pv k i cur)
  pure cur

theorem growNode_spec (h : Inv none2 s) (hk : k ≤ 4) (hp : Par s k i) (hw : s.pChild k i = none) :
    Does false (growNode s.cur k i) (fun _ => False) (fun v s' => v = s.cur ∧ Made k i s s') s := by
  have hn : s.pChild k i ≠ some s.cur := by rw [hw]; exact fun h => nomatch h
  have hlw : s.loc k i = none := by rw [par_loc h hk (fun _ _ _ h => h) hp]; exact hw
  have hl : s.loc k i ≠ some s.cur := by rw [hlw]; exact fun h => nomatch h
  have heq : growNode s.cur k i s =
      match spawnNode s.cur k i s with
      | (.err e, s1) => (.err e, s1)
      | (.ok _, s1) => (.ok s1.cur, s1.setChild s.cur k i s1.cur) := by
    simp only [growNode, Bind.bind, M.bind, get]
    cases spawnNode s.cur k i s with
    | mk r s1 =>
      cases r with
      | err e => rfl
      | ok a => rfl
  unfold Does
  rw [heq]
  rcases spawnNode_spec h hk hp hn with ⟨s1, n, e1, f1, i1, m1, z1, r1, g1⟩ | ⟨e, s1, e1, hio, i1, c1, l1⟩
  · rw [e1]
    simp only
    refine ⟨_, _, rfl, ?_⟩
    have m1' : s1.mem s1.cur k i = some ⟨n, true⟩ := by rw [f1.cur]; exact m1
    have hl1 : s1.loc k i = none := by rw [f1.loc hl]; exact hlw
    rw [← f1.cur]
    obtain ⟨j1, j2, j3, j4, j5, j6, j7⟩ := setChild_spec i1 hk (f1.par hp)
      (by rw [m1']; exact fun h => nomatch h)
      (by rw [f1.half, f1.cur]; exact r1)
      (by
        intro h4 j
        rw [hl1]
        unfold St.ref St.cont
        rw [m1', z1 h4]; rfl)
      (by rw [f1.cur]; exact g1)
    refine ⟨⟨j1, j2.trans f1.cur, ?_, fun h => nomatch h⟩, j3.trans f1.half, fun z => j4.trans (f1.io z), rfl, ?_, ?_⟩
    · intro i' x hx
      rw [← f1.leaf hl] at hx
      unfold St.leaf at hx ⊢
      rw [j7 4 i' (by omega)]
      by_cases hh : 4 = k ∧ i' = i
      · obtain ⟨rfl, rfl⟩ := hh
        rw [hl1] at hx; cases hx
      · rw [if_neg hh]
        cases hv : s1.loc 4 i' with
        | none => rw [hv] at hx; cases hx
        | some v => rw [hv] at hx; exact (j6 v i').trans hx
    · rw [← f1.cur, ne_eq, j5, m1']; exact fun h => nomatch h
    · rw [j7 k i hk, if_pos ⟨rfl, rfl⟩, f1.cur]
  · rw [e1]
    exact ⟨_, _, rfl, .ofSame i1 c1 l1, .inl hio⟩

/-! ### A node comes into memory -/

theorem Inv.load (h : Inv none2 s) (hk : k ≤ 4) (hd : s.mem w k i = some ⟨n, b⟩ ∨ b = false ∧ s.dsk w k i = some n ∧ s.mem w k i = none)
    (hl : s.loc k i = some w) (rng : Nat → Nat → List Nat)
    (hr : ∀ k' i', ¬ (k' = k ∧ i' = i) → rng k' i' = s.rng k' i')
    (hr0 : (∃ l, rng k i = w :: l) ∨ rng k i = s.rng k i) :
    Inv none2 ({ s with rng }.setMem w k i (some ⟨n, b⟩)) ∧
    ∀ v k' i', ({ s with rng }.setMem w k i (some ⟨n, b⟩)).cont v k' i' = s.cont v k' i' := by
  have hcn : s.cont w k i = some n := by
    unfold St.cont
    rcases hd with hd | ⟨_, hd, hm⟩
    · rw [hd]
    · rw [hm]; exact hd
  have hc : ∀ v k' i', ({ s with rng }.setMem w k i (some ⟨n, b⟩)).cont v k' i' = s.cont v k' i' := by
    intro v k' i'
    rw [cont_setMem]
    by_cases hh : v = w ∧ k' = k ∧ i' = i
    · rw [if_pos hh]
      obtain ⟨rfl, rfl, rfl⟩ := hh
      exact hcn.symm
    · rw [if_neg hh]; rfl
  refine ⟨?_, hc⟩
  have hc' : ({ s with rng }.setMem w k i (some ⟨n, b⟩)).cont = s.cont := by
    funext v k' i'; exact hc v k' i'
  have hloc : ∀ k' i', ({ s with rng }.setMem w k i (some ⟨n, b⟩)).loc k' i' = s.loc k' i' := by
    intro k' i'
    refine loc_congr k' ?_ (fun v k i j _ _ => by unfold St.ref; rw [hc']) k' i' (by omega)
    rfl
  have hmem : ∀ v k' i', ({ s with rng }.setMem w k i (some ⟨n, b⟩)).mem v k' i' =
      if v = w ∧ k' = k ∧ i' = i then some ⟨n, b⟩ else s.mem v k' i' := fun v k' i' => mem_setMem _ _ _ _ _ _ _ _
  have hws : s.seg w k (i / 256) = true := by
    rcases hd with hd | ⟨_, hd, _⟩
    · exact h.memSeg w k i (by rw [hd]; exact fun h => nomatch h)
    · exact h.dskSeg w k i (by rw [hd]; exact fun h => nomatch h)
  have hpar : k = 4 → w = s.cur → s.pChild 4 i = some s.cur := by
    rintro rfl rfl
    rw [loc_succ] at hl
    cases hu : s.loc 3 (i / 256) with
    | none => rw [hu] at hl; cases hl
    | some u =>
      rw [hu] at hl
      have hl : s.ref u 3 (i / 256) (i % 256) = some s.cur := hl
      have hl' := hl
      unfold St.ref at hl
      cases hcu : s.cont u 3 (i / 256) with
      | none => rw [hcu] at hl; cases hl
      | some m =>
        rw [hcu] at hl
        have : u = s.cur := h.own u 3 i m (by omega) hcu hl
        subst this
        exact hl'
  have hcur : ({ s with rng }.setMem w k i (some ⟨n, b⟩)).cur = s.cur := rfl
  have hsb : ({ s with rng }.setMem w k i (some ⟨n, b⟩)).sb = s.sb := rfl
  have hsd : ({ s with rng }.setMem w k i (some ⟨n, b⟩)).sbDirty = s.sbDirty := rfl
  have hsD : ({ s with rng }.setMem w k i (some ⟨n, b⟩)).sbD = s.sbD := rfl
  have hdk : ({ s with rng }.setMem w k i (some ⟨n, b⟩)).dsk = s.dsk := rfl
  have hsg : ({ s with rng }.setMem w k i (some ⟨n, b⟩)).seg = s.seg := rfl
  have hhf : ({ s with rng }.setMem w k i (some ⟨n, b⟩)).half = s.half := rfl
  have hrg : ({ s with rng }.setMem w k i (some ⟨n, b⟩)).rng = rng := rfl
  generalize ({ s with rng }.setMem w k i (some ⟨n, b⟩)) = t at *
  have hpm : ∀ k q, t.pMain k q ↔ s.pMain k q := by
    intro k q
    cases k with
    | zero => unfold St.pMain; rw [hsb]
    | succ k => unfold St.pMain; rw [hc', hcur]
  have hpc : ∀ k q, t.pChild k q = s.pChild k q := by
    intro k q
    cases k with
    | zero => simp only [St.pChild, hsb]
    | succ k => simp only [St.pChild, hc', hcur]
  exact {
    nostray := fun k p a z => (hpm k p).2 (h.nostray k p a (by rw [← hsg, ← hcur]; exact z))
    hasseg := fun k p a z => by rw [hsg, hcur]; exact h.hasseg k p a ((hpm k p).1 z)
    bound := fun k' i' _ z => by
      rw [hpc, hcur]
      unfold St.here at z
      rw [hc', hcur, hhf, hmem] at z
      rcases z with ⟨z1, z2⟩ | ⟨z1, z2, z3⟩
      · exact h.bound k' i' (fun h => h) (.inl ⟨z1, z2⟩)
      · by_cases hh : s.cur = w ∧ 4 = k ∧ i' = i
        · obtain ⟨q1, q2, rfl⟩ := hh
          subst z1
          exact hpar q2.symm q1.symm
        · rw [if_neg hh] at z3
          exact h.bound k' i' (fun h => h) (.inr ⟨z1, z2, z3⟩)
    kids := by rw [hc']; exact h.kids
    root := by rw [hc', hsb]; exact h.root
    clean := fun v k' i' e a z => by
      rw [hmem] at a
      rw [hdk]
      by_cases hh : v = w ∧ k' = k ∧ i' = i
      · rw [if_pos hh] at a
        cases a
        obtain ⟨rfl, rfl, rfl⟩ := hh
        rcases hd with hd | ⟨_, hd, _⟩
        · exact h.clean _ _ _ _ hd z
        · exact hd
      · rw [if_neg hh] at a
        exact h.clean v k' i' e a z
    dskSeg := by rw [hdk, hsg]; exact h.dskSeg
    memSeg := fun v k' i' a => by
      rw [hmem] at a
      rw [hsg]
      by_cases hh : v = w ∧ k' = k ∧ i' = i
      · obtain ⟨rfl, rfl, rfl⟩ := hh; exact hws
      · rw [if_neg hh] at a; exact h.memSeg v k' i' a
    sbClean := by rw [hsd, hsD, hcur, hsb]; exact h.sbClean
    own := by rw [hc', hcur]; exact h.own
    blocks := by unfold St.full; rw [hc', hsg]; exact h.blocks
    rngOk := fun k' i' v l a z1 _ z2 z3 => by
      rw [hloc]
      rw [hrg] at z2
      rw [hmem] at z3
      by_cases hh : k' = k ∧ i' = i
      · obtain ⟨rfl, rfl⟩ := hh
        by_cases hv : v = w
        · rw [hv]; exact hl
        · rw [if_neg (fun z => hv z.1)] at z3
          rcases hr0 with ⟨l', hr0⟩ | hr0
          · rw [hr0] at z2; cases z2; exact (hv rfl).elim
          · rw [hr0] at z2
            exact h.rngOk k' i' v l a (hhf ▸ z1) (fun h => h) z2 z3
      · rw [hr k' i' hh] at z2
        rw [if_neg (fun z => hh z.2)] at z3
        exact h.rngOk k' i' v l a (hhf ▸ z1) (fun h => h) z2 z3 }

/-- Nothing changes but what is in memory. -/
structure Fm (s s' : St) : Prop where
  cur : s'.cur = s.cur
  root : s'.sb.root = s.sb.root
  cont : ∀ v k i, s'.cont v k i = s.cont v k i
  mem : ∀ v k i, s.mem v k i ≠ none → s'.mem v k i ≠ none

theorem Fm.loc (f : Fm s s') (k i : Nat) : s'.loc k i = s.loc k i :=
  loc_congr k f.root (fun v k i j _ _ => by unfold St.ref; rw [f.cont]) k i (by omega)

theorem Fm.leaf (f : Fm s s') (i : Nat) : s'.leaf i = s.leaf i :=
  leaf_same s s' f.root (fun v k i => by unfold St.view; rw [f.cont]) i

theorem setMem_self {s : St} (h : s.mem v k i = some e) : s.setMem v k i (some e) = s := by
  have : (s.setMem v k i (some e)).mem = s.mem := by
    funext v' k' i'
    rw [mem_setMem]
    by_cases hh : v' = v ∧ k' = k ∧ i' = i
    · obtain ⟨rfl, rfl, rfl⟩ := hh; rw [if_pos ⟨rfl, rfl, rfl⟩, h]
    · rw [if_neg hh]
  show { s with mem := (s.setMem v k i (some e)).mem } = s
  rw [this]

theorem stageU_spec (h : Inv none2 s) (hk : k ≤ 4) (hc : s.cont w k i ≠ none) (hl : s.loc k i = some w) :
    Does true (stageU w k i) (fun _ => False) (fun _ s' => Fm s s' ∧ s'.mem w k i ≠ none) s := by
  unfold Does stageU
  cases hm : s.mem w k i with
  | some e =>
    have hex : ∃ rng, s.track w k i = { s with rng } ∧
        (∀ k' i', ¬ (k' = k ∧ i' = i) → rng k' i' = s.rng k' i') ∧
        ((∃ l, rng k i = w :: l) ∨ rng k i = s.rng k i) := by
      unfold St.track
      by_cases hr : s.rng k i = []
      · rw [if_pos hr]
        exact ⟨_, rfl, fun k' i' n => if_neg n, .inl ⟨_, if_pos ⟨rfl, rfl⟩⟩⟩
      · rw [if_neg hr]
        exact ⟨s.rng, rfl, fun _ _ _ => rfl, .inr rfl⟩
    obtain ⟨rng, he, hr, hr0⟩ := hex
    simp only [he]
    obtain ⟨i1, c1⟩ := h.load (n := e.n) (b := e.dirty) hk (.inl hm) hl rng hr hr0
    rw [setMem_self (s := { s with rng }) hm] at i1 c1
    have f : Fm s { s with rng } := ⟨rfl, rfl, c1, fun _ _ _ h => h⟩
    exact ⟨_, _, rfl, .ofSame i1 rfl f.leaf, rfl, fun h => h, f, by
      show s.mem w k i ≠ none
      rw [hm]; exact fun h => nomatch h⟩
  | none =>
    simp only
    cases hd : s.dsk w k i with
    | none => exact (hc (by unfold St.cont; rw [hm]; exact hd)).elim
    | some n =>
      have hs : s.seg w k (i / 256) = true := h.dskSeg w k i (by rw [hd]; exact fun h => nomatch h)
      have herr : ∀ io, Good true s ({ s with io }.forget w k i) := fun io => by
        refine .ofSame ((h.setIo io).forget hm) ?_ ?_
        · rw [forget_eq (s := { s with io }) hm]
        · intro i'
          rw [forget_eq (s := { s with io }) hm]
          exact leaf_same s _ rfl (fun _ _ _ => rfl) i'
      have hlo : ∀ io, Good true s (({ s with io }.push w k i).setMem w k i (some ⟨n, false⟩)) ∧
          Fm s (({ s with io }.push w k i).setMem w k i (some ⟨n, false⟩)) ∧
          (({ s with io }.push w k i).setMem w k i (some ⟨n, false⟩)).mem w k i ≠ none := by
        intro io
        obtain ⟨i1, c1⟩ := (h.setIo io).load (n := n) (b := false) (w := w) (i := i) hk
          (.inr ⟨rfl, hd, hm⟩) (by
            rw [← hl]
            exact loc_congr (s := s) (s' := { s with io }) k rfl (fun _ _ _ _ _ _ => rfl) k i (by omega))
          (fun k' i' => if k' = k ∧ i' = i then w :: s.rng k i else s.rng k' i') (fun k' i' n => if_neg n)
          (.inl ⟨_, if_pos ⟨rfl, rfl⟩⟩)
        have hmm : (({ s with io }.push w k i).setMem w k i (some ⟨n, false⟩)).mem w k i ≠ none := by
          rw [mem_setMem, if_pos ⟨rfl, rfl, rfl⟩]; exact fun h => nomatch h
        have f : Fm s (({ s with io }.push w k i).setMem w k i (some ⟨n, false⟩)) := by
          refine ⟨rfl, rfl, c1, ?_⟩
          intro v k' i' z
          rw [mem_setMem]
          by_cases hh : v = w ∧ k' = k ∧ i' = i
          · rw [if_pos hh]; exact fun h => nomatch h
          · rw [if_neg hh]; exact z
        exact ⟨.ofSame i1 rfl f.leaf, f, hmm⟩
      have hlU : loadU w k i s =
          match sys s with
          | (.err e, s1) => (.err e, s1)
          | (.ok _, s1) =>
            match sys s1 with
            | (.err e, s2) => (.err e, s2)
            | (.ok _, s2) =>
              match s2.dsk w k i with
              | none => (.err EFSCORRUPTED, s2)
              | some n => (.ok n, s2) := by
        rcases requireLseg_cases w k (i / 256) s with ⟨_, a⟩ | ⟨a, _⟩
        · simp only [loadU, Bind.bind, M.bind, get, a]
          cases sys s with
          | mk r s1 =>
            cases r with
            | err e => rfl
            | ok _ =>
              simp only
              cases sys s1 with
              | mk r s2 =>
                cases r with
                | err e => rfl
                | ok _ =>
                  simp only
                  cases s2.dsk w k i <;> rfl
        · rw [hs] at a; cases a
      rcases sys_cases s with ⟨io, a, b⟩ | ⟨e, io, a, b⟩
      · rcases sys_cases { s with io } with ⟨io', c, d⟩ | ⟨e, io', c, d⟩
        · have : loadU w k i s = (.ok n, { s with io := io' }) := by
            rw [hlU, a]
            simp only [c, hd]
          rw [this]
          exact ⟨_, _, rfl, (hlo io').1, rfl, fun z => d (b z), (hlo io').2⟩
        · have : loadU w k i s = (.err e, { s with io := io' }) := by
            rw [hlU, a]
            simp only [c]
          rw [this]
          exact ⟨_, _, rfl, herr io', .inl (fun z => d (b z))⟩
      · have : loadU w k i s = (.err e, { s with io }) := by
          rw [hlU, a]
        rw [this]
        exact ⟨_, _, rfl, herr io, .inl b⟩

/-! ### One level -/

/-- The node above is in memory and on its way down. -/
def Above (s : St) (pv k i : Nat) : Prop :=
  match k with
  | 0 => i = 0
  | k + 1 => s.mem pv k (i / 256) ≠ none ∧ s.loc k (i / 256) = some pv

theorem Above.child (h : Above s pv k i) : s.getChild pv k i = s.loc k i := by
  cases k with
  | zero =>
    have h : i = 0 := h
    subst h
    rfl
  | succ k =>
    obtain ⟨hm, hl⟩ := h
    cases he : s.mem pv k (i / 256) with
    | none => exact (hm he).elim
    | some e =>
      rw [loc_succ, hl]
      simp [St.getChild, he, St.ref, St.cont]

theorem Above.par (h : Above s pv k i) (hc : k ≠ 0 → pv = s.cur) : Par s k i := by
  cases k with
  | zero => exact h
  | succ k =>
    have := hc (by omega)
    subst this
    exact h.1

theorem Above.has (hi : Inv x s) (h : Above s pv k i) (hk : k ≤ 4) (hl : s.loc k i = some w) :
    s.cont w k i ≠ none := by
  cases k with
  | zero =>
    have h : i = 0 := h
    subst h
    exact hi.root w hl
  | succ k =>
    obtain ⟨hm, hp⟩ := h
    rw [loc_succ, hp] at hl
    have hl : s.ref pv k (i / 256) (i % 256) = some w := hl
    unfold St.ref at hl
    cases hc : s.cont pv k (i / 256) with
    | none => rw [hc] at hl; cases hl
    | some n => rw [hc] at hl; exact hi.kids pv k i n w (by omega) hc hl

theorem Fm.above (f : Fm s s') (h : Above s pv k i) : Above s' pv k i := by
  cases k with
  | zero => exact h
  | succ k => exact ⟨f.mem _ _ _ h.1, (f.loc _ _).trans h.2⟩

theorem clone_pv (pv c i w : Nat) : cloneNode pv 0 i w = cloneNode c 0 i w := rfl
theorem grow_pv (pv c i : Nat) : growNode pv 0 i = growNode c 0 i := rfl

/-- What the caller gets. -/
def Got (cow : Bool) (k i : Nat) (s : St) (v : Nat) (s' : St) : Prop :=
  s'.mem v k i ≠ none ∧ (k < 4 ∨ s.half i = false → s'.loc k i = some v) ∧ (cow = true → v = s.cur)

theorem stageDown_spec (h : Inv none2 s) (hk : k ≤ 4) (hp : Above s pv k i)
    (hc : cow = true → k ≠ 0 → pv = s.cur) :
    Does true (stageDown cow pv k i)
      (fun e => s.loc k i = none ∧ e = if k = 0 then EFSCORRUPTED else ENOENT)
      (fun v s' => s'.mem v k i ≠ none ∧ s'.loc k i = some v ∧ (cow = true → v = s.cur)) s := by
  cases hl : s.loc k i with
  | none =>
    refine ⟨.err (if k = 0 then EFSCORRUPTED else ENOENT), s, ?_, .refl h, .inr ⟨rfl, rfl⟩⟩
    simp only [stageDown, Bind.bind, M.bind, get, hp.child, hl, fail]
  | some w =>
    have heq : stageDown cow pv k i s = (stageU w k i >>= fun _ => do
        let cur ← get (·.cur)
        if cow = true ∧ w ≠ cur then do
          cloneNode pv k i w
          pure cur
        else pure w) s := by
      simp only [stageDown, Bind.bind, M.bind, get, hp.child, hl]
    unfold Does
    rw [heq]
    refine Does.bind ((stageU_spec h hk (hp.has h hk hl) hl).mono (fun _ z => z.elim) (fun _ _ _ _ z => z)) ?_
    intro _ s' g hh ⟨f, hm⟩
    by_cases hcw : cow = true ∧ w ≠ s'.cur
    · have : ((do
          let cur ← get (·.cur)
          if cow = true ∧ w ≠ cur then do
            cloneNode pv k i w
            pure cur
          else pure w) : M Nat) s' = (cloneNode s'.cur k i w >>= fun _ => pure s'.cur) s' := by
        simp only [Bind.bind, M.bind, get]
        rw [if_pos hcw]
        by_cases hk0 : k = 0
        · subst hk0; rfl
        · have : pv = s'.cur := (hc hcw.1 hk0).trans f.cur.symm
          rw [this]; rfl
      unfold Does
      rw [this]
      have hp' : Par s' k i := (f.above hp).par (fun z => (hc hcw.1 z).trans f.cur.symm)
      have hw' : s'.pChild k i = some w := by
        rw [← par_loc g.inv hk (fun _ _ _ h => h) hp', f.loc]; exact hl
      refine Does.bind ((cloneNode_spec g.inv hk hp' hw' hcw.2 hm).mono (fun _ z => z.elim) (fun _ _ _ _ z => z)) ?_
      intro _ s'' g' hh' mm
      exact Does.pure g'.inv ⟨mm.1, mm.2, fun _ => f.cur⟩
    · have : ((do
          let cur ← get (·.cur)
          if cow = true ∧ w ≠ cur then do
            cloneNode pv k i w
            pure cur
          else pure w) : M Nat) s' = (pure w : M Nat) s' := by
        simp only [Bind.bind, M.bind, get]
        rw [if_neg hcw]
      unfold Does
      rw [this]
      refine Does.pure g.inv ⟨hm, (f.loc k i).trans hl, fun z => ?_⟩
      have : ¬ w ≠ s'.cur := fun y => hcw ⟨z, y⟩
      rw [← f.cur]
      exact Decidable.of_not_not this

theorem fetch_some {s : St} (h : s.fetch cow k i = some v) :
    (∃ l, s.rng k i = v :: l) ∧ s.mem v k i ≠ none ∧ (cow = true → v = s.cur) := by
  unfold St.fetch at h
  cases hr : s.rng k i with
  | nil => rw [hr] at h; cases h
  | cons u l =>
    rw [hr] at h
    simp only at h
    cases hm : s.mem u k i with
    | none => rw [hm] at h; cases h
    | some e =>
      rw [hm] at h
      simp only at h
      by_cases hh : cow = true ∧ u ≠ s.cur
      · rw [if_pos hh] at h; cases h
      · rw [if_neg hh] at h
        cases h
        refine ⟨⟨l, rfl⟩, by rw [hm]; exact fun h => (nomatch h), fun z => ?_⟩
        exact Decidable.of_not_not (fun y => hh ⟨z, y⟩)

theorem stageNode_spec (h : Inv none2 s) (hk : k ≤ 4) (hp : Above s pv k i)
    (hc : cow = true → k ≠ 0 → pv = s.cur) :
    Does true (stageNode cow pv k i)
      (fun e => s.loc k i = none ∧ e = if k = 0 then EFSCORRUPTED else ENOENT) (Got cow k i s) s := by
  cases hf : s.fetch cow k i with
  | some v =>
    obtain ⟨⟨l, hr⟩, hm, hcv⟩ := fetch_some hf
    have : stageNode cow pv k i s = (pure v : M Nat) s := by
      simp only [stageNode, Bind.bind, M.bind, get, hf]
    unfold Does
    rw [this]
    exact Does.pure h ⟨hm, fun z => h.rngOk k i v l hk z (fun h => h) hr hm, hcv⟩
  | none =>
    have : stageNode cow pv k i s = stageDown cow pv k i s := by
      simp only [stageNode, Bind.bind, M.bind, get, hf]
    unfold Does
    rw [this]
    exact (stageDown_spec h hk hp hc).mono (fun _ z => z) (fun v s' _ _ z => ⟨z.1, fun _ => z.2.1, z.2.2⟩)

theorem requireNode_spec (h : Inv none2 s) (hk : k ≤ 4) (hp : Above s pv k i) (hc : k ≠ 0 → pv = s.cur) :
    Does false (requireNode pv k i) (fun _ => False) (Got true k i s) s := by
  have hdown : Does false (requireDown pv k i) (fun _ => False) (Got true k i s) s := by
    cases hl : s.loc k i with
    | some w =>
      have : requireDown pv k i s = stageNode true pv k i s := by
        simp only [requireDown, Bind.bind, M.bind, get, hp.child, hl]
      unfold Does
      rw [this]
      exact ((stageNode_spec h hk hp (fun _ => hc)).mono (E' := fun _ => False)
        (fun _ z => by rw [hl] at z; cases z.1) (fun _ _ _ _ z => z)).weak
    | none =>
      have : requireDown pv k i s = growNode s.cur k i s := by
        by_cases hk0 : k = 0
        · subst hk0
          simp only [requireDown, Bind.bind, M.bind, get, hp.child, hl, growNode]
          rfl
        · have := hc hk0
          subst this
          simp only [requireDown, Bind.bind, M.bind, get, hp.child, hl, growNode]
      unfold Does
      rw [this]
      have hp' := hp.par hc
      refine (growNode_spec h hk hp' (by rw [← par_loc h hk (fun _ _ _ h => h) hp']; exact hl)).mono
        (fun _ z => z) ?_
      rintro v s' _ _ ⟨rfl, hm⟩
      exact ⟨hm.1, fun _ => hm.2, fun _ => rfl⟩
  cases hf : (if k < 4 then s.fetch true k i else none) with
  | none =>
    have : requireNode pv k i s = requireDown pv k i s := by
      simp only [requireNode, Bind.bind, M.bind, get, hf]
    unfold Does
    rw [this]
    exact hdown
  | some v =>
    have h4 : k < 4 := by
      apply Decidable.of_not_not
      intro h4
      rw [if_neg h4] at hf; cases hf
    have : requireNode pv k i s = (pure v : M Nat) s := by
      simp only [requireNode, Bind.bind, M.bind, get, hf]
    unfold Does
    rw [this]
    rw [if_pos h4] at hf
    obtain ⟨⟨l, hr⟩, hm, hcv⟩ := fetch_some hf
    exact Does.pure h ⟨hm, fun z => h.rngOk k i v l hk z (fun h => h) hr hm, hcv⟩

/-! ### All levels -/

theorem loc_none_up (s : St) (m : Nat) : ∀ k i, s.loc k (i / 256 ^ m) = none → s.loc (k + m) i = none := by
  induction m with
  | zero => intro k i h; rw [Nat.pow_zero, Nat.div_one] at h; exact h
  | succ m ih =>
    intro k i h
    rw [show k + (m + 1) = (k + m) + 1 from by omega, loc_succ]
    have : s.loc (k + m) (i / 256) = none := by
      apply ih
      rw [Nat.div_div_eq_div_mul, ← Nat.pow_succ']
      exact h
    rw [this]; rfl

/-- Errors of staging that do not come from the storage. -/
def Refusal (s : St) (i e : Nat) : Prop :=
  s.leaf i = none ∧ (e = ENOENT ∨ e = EFSCORRUPTED ∨ e = ERANGE)

theorem stagePath_spec (m : Nat) : ∀ k i s, k + m = 4 → Inv none2 s →
    Does true (stagePath cow k (i / 256 ^ m)) (Refusal s i) (Got cow k (i / 256 ^ m) s) s := by
  intro k
  induction k generalizing m with
  | zero =>
    intro i s hkm h
    by_cases hi : i / 256 ^ m = 0
    · have : stagePath cow 0 (i / 256 ^ m) = stageNode cow 0 0 0 := by
        unfold stagePath; rw [if_pos hi]
      rw [this, hi]
      refine (stageNode_spec h (by omega) (show Above s 0 0 0 from rfl) (fun _ z => absurd rfl z)).mono ?_
        (fun _ _ _ _ z => z)
      rintro e ⟨h1, h2⟩
      refine ⟨?_, .inr (.inl h2)⟩
      unfold St.leaf
      have := loc_none_up s m 0 i (by rw [hi]; exact h1)
      rw [hkm] at this
      rw [this]; rfl
    · have : stagePath cow 0 (i / 256 ^ m) = fail ERANGE := by
        unfold stagePath; rw [if_neg hi]
      rw [this]
      refine ⟨.err ERANGE, s, rfl, .refl h, .inr ⟨?_, .inr (.inr rfl)⟩⟩
      unfold St.leaf
      have := loc_none_up s m 0 i (by unfold St.loc; rw [if_neg hi])
      rw [hkm] at this
      rw [this]; rfl
  | succ k ih =>
    intro i s hkm h
    have hdd : i / 256 ^ m / 256 = i / 256 ^ (m + 1) := by
      rw [Nat.div_div_eq_div_mul, ← Nat.pow_succ]
    unfold stagePath
    rw [hdd]
    refine Does.bind (ih (m + 1) i s (by omega) h) ?_
    intro pv s' g hh ⟨hm, hl, hc⟩
    have ha : Above s' pv (k + 1) (i / 256 ^ m) := by
      refine ⟨?_, ?_⟩
      · rw [hdd]; exact hm
      · rw [hdd]; exact hl (.inl (by omega))
    refine (stageNode_spec g.inv (by omega) ha (fun z _ => (hc z).trans g.cur.symm)).mono ?_ ?_
    · rintro e ⟨h1, h2⟩
      refine ⟨?_, .inl (by rw [h2, if_neg (by omega)])⟩
      rw [← g.back rfl]
      unfold St.leaf
      have := loc_none_up s' m (k + 1) i h1
      rw [hkm] at this
      rw [this]; rfl
    · rintro v s'' g' hh' ⟨h1, h2, h3⟩
      exact ⟨h1, fun z => h2 (hh ▸ z), fun z => (h3 z).trans g.cur⟩

theorem requirePath_spec (m : Nat) : ∀ k i s, k + m = 4 → i < 256 ^ 4 → Inv none2 s →
    Does false (requirePath k (i / 256 ^ m)) (fun _ => False) (Got true k (i / 256 ^ m) s) s := by
  intro k
  induction k generalizing m with
  | zero =>
    intro i s hkm hi4 h
    have : m = 4 := by omega
    subst this
    have hi : i / 256 ^ 4 = 0 := Nat.div_eq_of_lt hi4
    have : requirePath 0 (i / 256 ^ 4) = requireNode 0 0 0 := by
      unfold requirePath; rw [if_pos hi]
    rw [this, hi]
    exact requireNode_spec h (by omega) (show Above s 0 0 0 from rfl) (fun z => absurd rfl z)
  | succ k ih =>
    intro i s hkm hi4 h
    have hdd : i / 256 ^ m / 256 = i / 256 ^ (m + 1) := by
      rw [Nat.div_div_eq_div_mul, ← Nat.pow_succ]
    unfold requirePath
    rw [hdd]
    refine Does.bind (ih (m + 1) i s (by omega) hi4 h) ?_
    intro pv s' g hh ⟨hm, hl, hc⟩
    have ha : Above s' pv (k + 1) (i / 256 ^ m) := by
      refine ⟨?_, ?_⟩
      · rw [hdd]; exact hm
      · rw [hdd]; exact hl (.inl (by omega))
    refine (requireNode_spec g.inv (by omega) ha (fun _ => (hc rfl).trans g.cur.symm)).mono (fun _ z => z) ?_
    rintro v s'' g' hh' ⟨h1, h2, h3⟩
    exact ⟨h1, fun z => h2 (hh ▸ z), fun z => (h3 z).trans g.cur⟩

/-- Beyond the range nothing changes. -/
theorem requirePath_range (m : Nat) : ∀ k i s, ¬ i / 256 ^ m = 0 → k ≤ m → requirePath k (i / 256 ^ (m - k)) s = (.err ERANGE, s) := by
  intro k
  induction k with
  | zero =>
    intro i s hi _
    rw [Nat.sub_zero]
    unfold requirePath; rw [if_neg hi]; rfl
  | succ k ih =>
    intro i s hi hk
    have hdd : i / 256 ^ (m - (k + 1)) / 256 = i / 256 ^ (m - k) := by
      rw [Nat.div_div_eq_div_mul, ← Nat.pow_succ, show (m - (k + 1)).succ = m - k from by omega]
    unfold requirePath
    rw [hdd]
    show M.bind _ _ s = _
    simp only [M.bind, ih i s hi (by omega)]

end Silofs.Stage
