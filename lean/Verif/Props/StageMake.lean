import Verif.Props.StageInv

/-! Making nodes keeps the invariant (C58). -/

set_option linter.unusedSimpArgs false
set_option linter.unusedVariables false

namespace Silofs.Stage

/-- What a node refers to and what it marks. -/
def Node.view (n : Node) : (Nat → Option Nat) × (Nat → Bool) := (n.child, n.used)

def St.view (s : St) (v k i : Nat) : Option ((Nat → Option Nat) × (Nat → Bool)) :=
  (s.cont v k i).map Node.view

/-- Leaf `i` on its way down. -/
def St.leaf (s : St) (i : Nat) : Option ((Nat → Option Nat) × (Nat → Bool)) :=
  (s.loc 4 i).bind fun v => s.view v 4 i

theorem ref_view (s : St) (v k i j : Nat) : s.ref v k i j = (s.view v k i).bind fun x => x.1 j := by
  unfold St.ref St.view
  cases s.cont v k i <;> rfl

theorem view_none (s : St) (v k i : Nat) : s.view v k i = none ↔ s.cont v k i = none := by
  unfold St.view
  cases s.cont v k i <;> simp

/-- Nothing that is on a way down changes. -/
structure Fr (s s' : St) : Prop where
  cur : s'.cur = s.cur
  root : s'.sb.root = s.sb.root
  rng : s'.rng = s.rng
  half : s'.half = s.half
  mem : ∀ v k i, s'.mem v k i = none ↔ s.mem v k i = none
  view : ∀ v k i, s'.view v k i = s.view v k i
  io : s.io = [] → s'.io = []

theorem Fr.ref (f : Fr s s') (v k i j : Nat) : s'.ref v k i j = s.ref v k i j := by
  rw [ref_view, ref_view, f.view]

theorem Fr.cont (f : Fr s s') (v k i : Nat) : s'.cont v k i = none ↔ s.cont v k i = none := by
  rw [← view_none, ← view_none, f.view]

theorem Fr.refl (s : St) : Fr s s :=
  ⟨rfl, rfl, rfl, rfl, fun _ _ _ => Iff.rfl, fun _ _ _ => rfl, fun h => h⟩

theorem Fr.trans (h : Fr s s') (h' : Fr s' s'') : Fr s s'' :=
  ⟨h'.cur.trans h.cur, h'.root.trans h.root, h'.rng.trans h.rng, h'.half.trans h.half,
    fun v k i => (h'.mem v k i).trans (h.mem v k i), fun v k i => (h'.view v k i).trans (h.view v k i),
    fun a => h'.io (h.io a)⟩

theorem Fr.loc (h : Fr s s') (k i : Nat) : s'.loc k i = s.loc k i :=
  loc_congr k h.root (fun v k i j _ _ => h.ref v k i j) k i (by omega)

theorem pChild_succ (s : St) (k i : Nat) :
    s.pChild (k + 1) i = s.ref s.cur k (i / 256) (i % 256) := rfl

theorem Fr.pChild (h : Fr s s') (k i : Nat) : s'.pChild k i = s.pChild k i := by
  cases k with
  | zero => simp only [St.pChild, h.root]
  | succ k => rw [pChild_succ, pChild_succ, h.ref, h.cur]

theorem Fr.here (h : Fr s s') (k i : Nat) : s'.here k i ↔ s.here k i := by
  unfold St.here
  rw [h.cur, h.half, ne_eq, h.cont, ne_eq, h.mem]

theorem Inv.ofFr (h : Inv x s) (f : Fr s s')
    (h1 : ∀ k p, k ≤ 4 → s'.seg s'.cur k p = true → s'.pMain k p)
    (h2 : ∀ k p, k ≤ 5 → s'.pMain k p → s'.seg s'.cur k p = true)
    (h3 : ∀ v k i e, s'.mem v k i = some e → e.dirty = false → s'.dsk v k i = some e.n)
    (h4 : ∀ v k i, s'.dsk v k i ≠ none → s'.seg v k (i / 256) = true)
    (h5 : ∀ v k i, s'.mem v k i ≠ none → s'.seg v k (i / 256) = true)
    (h6 : s'.sbDirty = false → s'.sbD s'.cur = s'.sb)
    (h7 : ∀ v k p, s.seg v k p = true → s'.seg v k p = true) : Inv x s' where
  nostray := h1
  hasseg := h2
  bound := fun k i a b => by
    rw [f.pChild, f.cur]
    exact h.bound k i a ((f.here k i).1 b)
  kids := fun v k i n w hk hc hn => by
    have hr : s'.ref v k (i / 256) (i % 256) = some w := by unfold St.ref; rw [hc]; exact hn
    rw [f.ref] at hr
    unfold St.ref at hr
    rw [ne_eq, f.cont]
    cases hc' : s.cont v k (i / 256) with
    | none => rw [hc'] at hr; cases hr
    | some m => rw [hc'] at hr; exact h.kids v k i m w hk hc' hr
  root := fun w hw => by
    rw [ne_eq, f.cont]
    exact h.root w (f.root ▸ hw)
  clean := h3
  dskSeg := h4
  memSeg := h5
  sbClean := h6
  rngOk := fun k i v l b a c d e => by
    rw [f.loc]
    exact h.rngOk k i v l b (f.half ▸ a) c (f.rng ▸ d) (fun z => e ((f.mem v k i).2 z))
  blocks := fun v i n w hc hn m hm q => by
    have hr : s'.ref v 3 (i / 256) (i % 256) = some w := by unfold St.ref; rw [hc]; exact hn
    rw [f.ref] at hr
    unfold St.ref at hr
    have hv := f.view w 4 i
    unfold St.view at hv
    rw [hm] at hv
    cases hc' : s.cont v 3 (i / 256) with
    | none => rw [hc'] at hr; cases hr
    | some n0 =>
      rw [hc'] at hr
      cases hm' : s.cont w 4 i with
      | none => rw [hm'] at hv; cases hv
      | some m0 =>
        rw [hm'] at hv
        obtain ⟨u, a, b⟩ := h.blocks v i n0 w hc' hr m0 hm' q
        have hv : (m.child, m.used) = (m0.child, m0.used) := Option.some.inj hv
        exact ⟨u, by rw [(Prod.mk.inj hv).1]; exact a, h7 _ _ _ b⟩
  own := fun v k i n hk hc hn => by
    have hr : s'.ref v k (i / 256) (i % 256) = some s'.cur := by unfold St.ref; rw [hc]; exact hn
    rw [f.ref, f.cur] at hr
    rw [f.cur]
    unfold St.ref at hr
    cases hc' : s.cont v k (i / 256) with
    | none => rw [hc'] at hr; cases hr
    | some m => rw [hc'] at hr; exact h.own v k i m hk hc' hr

theorem Inv.setRng (h : Inv x s) (rng : Nat → Nat → List Nat) (hx : ∀ k i, x k i → y k i)
    (hr : ∀ k i v l, ¬ y k i → rng k i = v :: l → ∃ l', s.rng k i = v :: l') :
    Inv y { s with rng } :=
  have h' := h.weaken hx
  { h'.congr (s' := s) rfl rfl rfl rfl rfl rfl rfl rfl (fun _ h => h) with
    bound := h'.bound
    kids := h'.kids
    own := h'.own
    blocks := h'.blocks
    rngOk := fun k i v l b a c d e => by
      obtain ⟨l', hl⟩ := hr k i v l c d
      have := h'.rngOk k i v l' b a c hl e
      rw [← this]
      exact loc_congr (s := s) (s' := { s with rng }) k rfl (fun _ _ _ _ _ _ => rfl) k i (by omega) }

theorem Fr.setIo (s : St) (io : List Nat) (h : s.io = [] → io = []) : Fr s { s with io } :=
  ⟨rfl, rfl, rfl, rfl, fun _ _ _ => Iff.rfl, fun _ _ _ => rfl, h⟩

/-! ### Segment files -/

theorem mkSeg_dsk {s : St} (h : ∀ v k i, s.dsk v k i ≠ none → s.seg v k (i / 256) = true)
    (hs : s.seg v k p = false) : (s.mkSeg v k p).dsk = s.dsk := by
  funext v' k' i'
  show (if v' = v ∧ k' = k ∧ i' / 256 = p then none else s.dsk v' k' i') = _
  by_cases hh : v' = v ∧ k' = k ∧ i' / 256 = p
  · rw [if_pos hh]
    obtain ⟨rfl, rfl, rfl⟩ := hh
    cases hd : s.dsk v' k' i' with
    | none => rfl
    | some n =>
      have := h v' k' i' (by rw [hd]; exact fun h => nomatch h)
      rw [hs] at this; cases this
  · rw [if_neg hh]

theorem mkSeg_seg (s : St) (v k p v' k' p' : Nat) :
    (s.mkSeg v k p).seg v' k' p' = if v' = v ∧ k' = k ∧ p' = p then true else s.seg v' k' p' := rfl

theorem mkSeg_mono (s : St) (v k p v' k' p' : Nat) (h : s.seg v' k' p' = true) :
    (s.mkSeg v k p).seg v' k' p' = true := by
  rw [mkSeg_seg]
  by_cases hh : v' = v ∧ k' = k ∧ p' = p
  · rw [if_pos hh]
  · rw [if_neg hh]; exact h

theorem mkSeg_cont {s : St} (h : ∀ v k i, s.dsk v k i ≠ none → s.seg v k (i / 256) = true)
    (hs : s.seg v k p = false) : (s.mkSeg v k p).cont = s.cont := by
  funext v' k' i'
  unfold St.cont
  rw [mkSeg_dsk h hs]
  rfl

theorem requireLseg_cases (v k p : Nat) (s : St) :
    (s.seg v k p = true ∧ requireLseg v k p s = sys s) ∨
    (s.seg v k p = false ∧ ((∃ io, (s.io = [] → io = []) ∧
        requireLseg v k p s = (.ok (), { s with io }.mkSeg v k p)) ∨
      ∃ e io, s.io ≠ [] ∧ requireLseg v k p s = (.err e, { s with io }))) := by
  cases hs : s.seg v k p with
  | true =>
    left
    refine ⟨rfl, ?_⟩
    simp [requireLseg, bind, M.bind, get, hs]
  | false =>
    right
    refine ⟨rfl, ?_⟩
    have he : requireLseg v k p s = M.bind sys (fun _ => upd (·.mkSeg v k p)) s := by
      simp [requireLseg, bind, M.bind, get, hs]
    rw [he]
    rcases sys_cases s with ⟨io, h1, h2⟩ | ⟨e, io, h1, h2⟩
    · refine .inl ⟨io, h2, ?_⟩
      simp only [M.bind, h1, upd]
    · refine .inr ⟨e, io, h2, ?_⟩
      simp only [M.bind, h1]

theorem stageLseg_cases (v k p : Nat) (s : St) (hs : s.seg v k p = true) :
    (∃ io, (s.io = [] → io = []) ∧ stageLseg v k p s = (.ok (), { s with io })) ∨
    ∃ e io, s.io ≠ [] ∧ stageLseg v k p s = (.err e, { s with io }) := by
  show (∃ io, _ ∧ M.bind sys _ s = _) ∨ ∃ e io, _ ∧ M.bind sys _ s = _
  rcases sys_cases s with ⟨io, h1, h2⟩ | ⟨e, io, h1, h2⟩
  · refine .inl ⟨io, h2, ?_⟩
    simp [bind, M.bind, h1, get, hs, pure, M.pure]
  · refine .inr ⟨e, io, h2, ?_⟩
    simp only [M.bind, h1]

theorem spawnLseg_cases (v k p : Nat) (s : St) (hs : s.seg v k p = false) :
    (∃ io, (s.io = [] → io = []) ∧ spawnLseg v k p s = (.ok (), { s with io }.mkSeg v k p)) ∨
    ∃ e io, s.io ≠ [] ∧ spawnLseg v k p s = (.err e, { s with io }) := by
  have he : spawnLseg v k p s = M.bind sys (fun _ => upd (·.mkSeg v k p)) s := by
    simp [spawnLseg, bind, M.bind, get, hs]
  rw [he]
  rcases sys_cases s with ⟨io, h1, h2⟩ | ⟨e, io, h1, h2⟩
  · refine .inl ⟨io, h2, ?_⟩
    simp only [M.bind, h1, upd]
  · refine .inr ⟨e, io, h2, ?_⟩
    simp only [M.bind, h1]

theorem spawnLseg_exists (v k p : Nat) (s : St) (hs : s.seg v k p = true) :
    spawnLseg v k p s = (.err EEXIST, s) := by
  simp [spawnLseg, bind, M.bind, get, hs, fail]

/-! ### The parent -/

/-- The parent is in memory. -/
def Par (s : St) (k i : Nat) : Prop :=
  match k with
  | 0 => i = 0
  | k + 1 => s.mem s.cur k (i / 256) ≠ none

theorem getMain_iff (hp : Par s k i) : s.getMain s.cur k (i / 256) = true ↔ s.pMain k (i / 256) := by
  cases k with
  | zero =>
    have hp : i = 0 := hp
    subst hp
    exact ⟨fun h => ⟨rfl, h⟩, fun h => h.2⟩
  | succ k =>
    have hp : s.mem s.cur k (i / 256) ≠ none := hp
    cases hm : s.mem s.cur k (i / 256) with
    | none => exact (hp hm).elim
    | some e => simp [St.getMain, St.pMain, St.cont, hm]

theorem getChild_eq (hp : Par s k i) : s.getChild s.cur k i = s.pChild k i := by
  cases k with
  | zero =>
    have hp : i = 0 := hp
    subst hp
    rfl
  | succ k =>
    have hp : s.mem s.cur k (i / 256) ≠ none := hp
    cases hm : s.mem s.cur k (i / 256) with
    | none => exact (hp hm).elim
    | some e => simp [St.getChild, St.pChild, St.cont, hm]

theorem Fr.par (f : Fr s s') (hp : Par s k i) : Par s' k i := by
  cases k with
  | zero => exact hp
  | succ k =>
    show s'.mem s'.cur k (i / 256) ≠ none
    rw [f.cur, ne_eq, f.mem]
    exact hp

/-- The segment is made and recorded. -/
theorem mkMain_spec (h : Inv x s) (hk : k ≤ 4) (hp : Par s k i) (hs : s.seg s.cur k (i / 256) = false) :
    Fr s ((s.mkSeg s.cur k (i / 256)).setMain s.cur k (i / 256)) ∧
    Inv x ((s.mkSeg s.cur k (i / 256)).setMain s.cur k (i / 256)) ∧
    ((s.mkSeg s.cur k (i / 256)).setMain s.cur k (i / 256)).seg s.cur k (i / 256) = true := by
  have hd := mkSeg_dsk h.dskSeg hs
  have hc := mkSeg_cont h.dskSeg hs
  cases k with
  | zero =>
    have hp : i = 0 := hp
    subst hp
    have hc' : ∀ v k i, ((s.mkSeg s.cur 0 (0 / 256)).setMain s.cur 0 (0 / 256)).cont v k i =
        s.cont v k i := fun v k i => congrFun (congrFun (congrFun hc v) k) i
    have f : Fr s ((s.mkSeg s.cur 0 (0 / 256)).setMain s.cur 0 (0 / 256)) :=
      ⟨rfl, rfl, rfl, rfl, fun _ _ _ => Iff.rfl, fun v k i => by unfold St.view; rw [hc'],
        fun h => h⟩
    refine ⟨f, h.ofFr f ?_ ?_ ?_ ?_ ?_ ?_ (fun _ _ _ z => mkSeg_mono _ _ _ _ _ _ _ z), ?_⟩
    · intro k' p hk' hs'
      have hs' : (s.mkSeg s.cur 0 (0 / 256)).seg s.cur k' p = true := hs'
      rw [mkSeg_seg] at hs'
      cases k' with
      | zero =>
        by_cases hh : p = 0
        · exact ⟨hh, rfl⟩
        · rw [if_neg (fun z => hh z.2.2)] at hs'
          exact ⟨(h.nostray 0 p (by omega) hs').1, rfl⟩
      | succ k' =>
        rw [if_neg (fun z => by omega)] at hs'
        obtain ⟨n, a, b⟩ := h.nostray (k' + 1) p hk' hs'
        exact ⟨n, (hc' _ _ _).trans a, b⟩
    · intro k' p hk' hm
      show (s.mkSeg s.cur 0 (0 / 256)).seg s.cur k' p = true
      cases k' with
      | zero =>
        have hm1 : p = 0 := hm.1
        rw [mkSeg_seg, if_pos ⟨rfl, rfl, hm1⟩]
      | succ k' =>
        obtain ⟨n, a, b⟩ := hm
        exact mkSeg_mono _ _ _ _ _ _ _ (h.hasseg (k' + 1) p hk' ⟨n, (hc' _ _ _).symm.trans a, b⟩)
    · intro v k i e a b
      show (s.mkSeg s.cur 0 (0 / 256)).dsk v k i = _
      rw [hd]
      exact h.clean v k i e a b
    · intro v k i a
      have a : (s.mkSeg s.cur 0 (0 / 256)).dsk v k i ≠ none := a
      rw [hd] at a
      exact mkSeg_mono _ _ _ _ _ _ _ (h.dskSeg v k i a)
    · intro v k i a
      exact mkSeg_mono _ _ _ _ _ _ _ (h.memSeg v k i a)
    · intro a; cases a
    · show (s.mkSeg s.cur 0 (0 / 256)).seg s.cur 0 (0 / 256) = true
      rw [mkSeg_seg, if_pos ⟨rfl, rfl, rfl⟩]
  | succ k =>
    have hp : s.mem s.cur k (i / 256) ≠ none := hp
    cases hm : s.mem s.cur k (i / 256) with
    | none => exact (hp hm).elim
    | some e =>
      generalize hP : i / 256 = P at *
      have heq : (s.mkSeg s.cur (k + 1) P).setMain s.cur (k + 1) P =
          (s.mkSeg s.cur (k + 1) P).setMem s.cur k P (some ⟨{ e.n with main := true }, true⟩) := by
        have hm' : (s.mkSeg s.cur (k + 1) P).mem s.cur k P = some e := hm
        simp only [St.setMain, St.modNode, hm']
      rw [heq]
      have hc' : ∀ v k' i', ((s.mkSeg s.cur (k + 1) P).setMem s.cur k P
          (some ⟨{ e.n with main := true }, true⟩)).cont v k' i' =
          if v = s.cur ∧ k' = k ∧ i' = P then some { e.n with main := true } else s.cont v k' i' := by
        intro v k' i'
        rw [cont_setMem, hc]
      have hce : s.cont s.cur k P = some e.n := by unfold St.cont; rw [hm]
      have f : Fr s ((s.mkSeg s.cur (k + 1) P).setMem s.cur k P
          (some ⟨{ e.n with main := true }, true⟩)) := by
        refine ⟨rfl, rfl, rfl, rfl, ?_, ?_, fun h => h⟩
        · intro v k' i'
          rw [mem_setMem]
          by_cases hh : v = s.cur ∧ k' = k ∧ i' = P
          · rw [if_pos hh]
            obtain ⟨rfl, rfl, rfl⟩ := hh
            rw [hm]
            exact ⟨fun h => (nomatch h), fun h => (nomatch h)⟩
          · rw [if_neg hh]; exact Iff.rfl
        · intro v k' i'
          unfold St.view
          rw [hc']
          by_cases hh : v = s.cur ∧ k' = k ∧ i' = P
          · rw [if_pos hh]
            obtain ⟨rfl, rfl, rfl⟩ := hh
            rw [hce]; rfl
          · rw [if_neg hh]
      refine ⟨f, h.ofFr f ?_ ?_ ?_ ?_ ?_ ?_ (fun _ _ _ z => mkSeg_mono _ _ _ _ _ _ _ z), ?_⟩
      · intro k' p hk' hs'
        have hs' : (s.mkSeg s.cur (k + 1) P).seg s.cur k' p = true := hs'
        rw [mkSeg_seg] at hs'
        cases k' with
        | zero =>
          rw [if_neg (fun z => by omega)] at hs'
          exact h.nostray 0 p (by omega) hs'
        | succ k' =>
          show ∃ n, St.cont _ s.cur k' p = some n ∧ _
          rw [hc']
          by_cases hh : s.cur = s.cur ∧ k' = k ∧ p = P
          · rw [if_pos hh]
            exact ⟨_, rfl, rfl⟩
          · rw [if_neg hh]
            rw [if_neg (fun z => hh ⟨rfl, by omega, z.2.2⟩)] at hs'
            exact h.nostray (k' + 1) p hk' hs'
      · intro k' p hk' hmm
        show (s.mkSeg s.cur (k + 1) P).seg s.cur k' p = true
        cases k' with
        | zero => exact mkSeg_mono _ _ _ _ _ _ _ (h.hasseg 0 p (by omega) hmm)
        | succ k' =>
          obtain ⟨n, a, b⟩ : ∃ n, St.cont _ s.cur k' p = some n ∧ _ := hmm
          rw [hc'] at a
          by_cases hh : s.cur = s.cur ∧ k' = k ∧ p = P
          · obtain ⟨_, rfl, rfl⟩ := hh
            rw [mkSeg_seg, if_pos ⟨rfl, rfl, rfl⟩]
          · rw [if_neg hh] at a
            exact mkSeg_mono _ _ _ _ _ _ _ (h.hasseg (k' + 1) p hk' ⟨n, a, b⟩)
      · intro v k' i' e' a b
        show (s.mkSeg s.cur (k + 1) P).dsk v k' i' = _
        rw [hd]
        rw [mem_setMem] at a
        by_cases hh : v = s.cur ∧ k' = k ∧ i' = P
        · rw [if_pos hh] at a; cases a; cases b
        · rw [if_neg hh] at a; exact h.clean v k' i' e' a b
      · intro v k' i' a
        have a : (s.mkSeg s.cur (k + 1) P).dsk v k' i' ≠ none := a
        rw [hd] at a
        exact mkSeg_mono _ _ _ _ _ _ _ (h.dskSeg v k' i' a)
      · intro v k' i' a
        exact mkSeg_mono _ _ _ _ _ _ _ (h.memSeg v k' i' (fun z => a ((f.mem v k' i').2 z)))
      · exact h.sbClean
      · show (s.mkSeg s.cur (k + 1) P).seg s.cur (k + 1) P = true
        rw [mkSeg_seg, if_pos ⟨rfl, rfl, rfl⟩]

/-- `requireMain` fails only when the storage does. -/
theorem requireMain_spec (h : Inv x s) (hk : k ≤ 4) (hp : Par s k i) :
    (∃ s', requireMain s.cur k (i / 256) s = (.ok (), s') ∧ Fr s s' ∧ Inv x s' ∧
      s'.seg s.cur k (i / 256) = true) ∨
    ∃ e io, requireMain s.cur k (i / 256) s = (.err e, { s with io }) ∧ s.io ≠ [] := by
  have heq : requireMain s.cur k (i / 256) s =
      if s.getMain s.cur k (i / 256) = true then stageLseg s.cur k (i / 256) s
      else M.bind (spawnLseg s.cur k (i / 256)) (fun _ => upd (·.setMain s.cur k (i / 256))) s := by
    simp only [requireMain, bind, M.bind, get]
    by_cases hh : s.getMain s.cur k (i / 256) = true
    · simp [hh]
    · simp [hh, M.bind]
  rw [heq]
  by_cases hg : s.getMain s.cur k (i / 256) = true
  · rw [if_pos hg]
    have hseg := h.hasseg k _ (by omega) ((getMain_iff hp).1 hg)
    rcases stageLseg_cases _ _ _ s hseg with ⟨io, a, b⟩ | ⟨e, io, a, b⟩
    · exact .inl ⟨_, b, .setIo s io a, h.setIo io, hseg⟩
    · exact .inr ⟨e, io, b, a⟩
  · rw [if_neg hg]
    have hseg : s.seg s.cur k (i / 256) = false := by
      cases hs : s.seg s.cur k (i / 256) with
      | false => rfl
      | true => exact (hg ((getMain_iff hp).2 (h.nostray k _ hk hs))).elim
    rcases spawnLseg_cases _ _ _ s hseg with ⟨io, a, b⟩ | ⟨e, io, a, b⟩
    · left
      have := mkMain_spec (h.setIo io) hk ((Fr.setIo s io a).par hp) hseg
      refine ⟨_, ?_, (Fr.setIo s io a).trans this.1, this.2.1, this.2.2⟩
      simp only [M.bind, b, upd]
    · right
      refine ⟨e, io, ?_, a⟩
      simp only [M.bind, b]

end Silofs.Stage
