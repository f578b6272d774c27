import Verif.Props.StageStray

/-! Space maps and objects: growth, staging, reading, and what a crash or a loss leaves behind (C58). -/

set_option linter.unusedSimpArgs false
set_option linter.unusedVariables false

namespace Silofs.Stage

/-! ### Leaves and blocks -/

theorem loc5 (s : St) (b : Nat) : s.loc 5 b = (s.leaf (b / 256)).bind fun x => x.1 (b % 256) := by
  rw [loc_succ]
  unfold St.leaf
  cases s.loc 4 (b / 256) with
  | none => rfl
  | some v => exact ref_view s v 4 _ _

theorem isUsed_leaf (s : St) (b : Nat) :
    s.isUsed b = match s.leaf (b / 256) with
      | none => false
      | some x => x.2 (b % 256) := by
  unfold St.isUsed St.leaf St.view
  cases s.loc 4 (b / 256) with
  | none => rfl
  | some v =>
    simp only [Option.bind_some]
    cases s.cont v 4 (b / 256) <;> rfl

/-- A leaf on the way down is there, and all its blocks are in segments that are. -/
theorem leaf_full (h : Inv none2 s) (hl : s.leaf i = some x) :
    ∀ q, ∃ u, x.1 q = some u ∧ s.seg u 5 i = true := by
  unfold St.leaf at hl
  cases h4 : s.loc 4 i with
  | none => rw [h4] at hl; cases hl
  | some v =>
    rw [h4] at hl
    simp only [Option.bind_some, St.view] at hl
    cases hc : s.cont v 4 i with
    | none => rw [hc] at hl; cases hl
    | some m =>
      rw [hc] at hl
      cases hl
      rw [loc_succ] at h4
      cases h3 : s.loc 3 (i / 256) with
      | none => rw [h3] at h4; cases h4
      | some u =>
        rw [h3] at h4
        simp only [Option.bind_some, St.ref] at h4
        cases hc3 : s.cont u 3 (i / 256) with
        | none => rw [hc3] at h4; cases h4
        | some n =>
          rw [hc3] at h4
          exact h.blocks u i n v hc3 h4 m hc

theorem seg_of_loc (h : Inv none2 s) (hb : s.loc 5 b = some v) : s.seg v 5 (b / 256) = true := by
  rw [loc5] at hb
  cases hl : s.leaf (b / 256) with
  | none => rw [hl] at hb; cases hb
  | some x =>
    rw [hl] at hb
    obtain ⟨u, h1, h2⟩ := leaf_full h hl (b % 256)
    have : x.1 (b % 256) = some v := hb
    rw [h1] at this
    cases this
    exact h2

/-! ### Growth -/

/-- The maps for any part of the range of a volume can be made at any time, whatever the order in which
parts came and nodes were written or left memory; only a failing storage prevents it. -/
theorem C58_grow_partial (hr : Reach s) (hi : i < 256 ^ 4) (io : List Nat) :
    match requirePath 4 i { s with io } with
    | (.ok v, s') => v = s.cur ∧ (s.half i = false → s'.loc 4 i = some v)
    | (.err _, _) => io ≠ [] := by
  obtain ⟨r, s', he, hg, h⟩ := grow_does (hr.inv.setIo io) hi
  rw [he]
  cases r with
  | err e => exact h.resolve_right id
  | ok v => exact ⟨h.2.2.2.2 rfl, fun z => h.2.2.2.1 (.inr z)⟩

/-- What was there before stays where it was, as it was; also when growth fails. -/
theorem C58_grow_keeps (hr : Reach s) (i : Nat) (io : List Nat) (hb : s.loc 5 b = some v) :
    (requirePath 4 i { s with io }).2.loc 5 b = some v ∧
    (requirePath 4 i { s with io }).2.isUsed b = s.isUsed b ∧
    (requirePath 4 i { s with io }).2.dat v b = s.dat v b := by
  have hseg : s.seg v 5 (b / 256) = true := seg_of_loc hr.inv hb
  have hd := leaves_requirePath 4 i { s with io } v b hseg
  have hk : ∀ j x, s.leaf j = some x → (requirePath 4 i { s with io }).2.leaf j = some x := by
    by_cases hi : i < 256 ^ 4
    · obtain ⟨r, s', he, hg, _⟩ := grow_does (hr.inv.setIo io) hi
      rw [he]; exact hg.keep
    · have := requirePath_range 4 4 i { s with io } (by
        intro z
        exact hi ((Nat.div_eq_zero_iff.1 z).resolve_left (by decide))) (by omega)
      rw [Nat.sub_self, Nat.pow_zero, Nat.div_one] at this
      rw [this]
      exact fun _ _ z => z
  cases hl : s.leaf (b / 256) with
  | none => rw [loc5, hl] at hb; cases hb
  | some x =>
    rw [loc5, isUsed_leaf, isUsed_leaf, hk _ _ hl, hl]
    rw [loc5, hl] at hb
    exact ⟨hb, rfl, hd.2⟩

/-- A leaf with its segment: whatever the leaf refers to then, as after it was copied from an older volume,
a block moves to the leaf's own segment before it is written. -/
theorem C58_leaf_moves_blocks {s s' : St} (hm : s.mem s.cur 4 i ≠ none) (he : leafMain' i s = (.ok (), s'))
    (old : Node) (j : Nat) :
    ∃ e, ((s'.modNode s'.cur 4 i (cloneFrom old)).rebind i j).mem s.cur 4 i = some e ∧
      e.n.child j = some s.cur ∧ ∀ q, q ≠ j → e.n.child q = old.child q := by
  have fin : ∀ (t : St) (e : Ent), t.cur = s.cur → t.mem s.cur 4 i = some e → e.n.main = true →
      ∃ e', ((t.modNode t.cur 4 i (cloneFrom old)).rebind i j).mem s.cur 4 i = some e' ∧
        e'.n.child j = some s.cur ∧ ∀ q, q ≠ j → e'.n.child q = old.child q := by
    intro t e hc ht hmain
    rw [hc, modNode_some ht]
    have h1 : (t.setMem s.cur 4 i (some ⟨cloneFrom old e.n, true⟩)).mem s.cur 4 i = some ⟨cloneFrom old e.n, true⟩ := by
      rw [mem_setMem, if_pos ⟨rfl, rfl, rfl⟩]
    have h2 : (t.setMem s.cur 4 i (some ⟨cloneFrom old e.n, true⟩)).cur = s.cur := hc
    unfold St.rebind
    rw [h2]
    have h3 : (t.setMem s.cur 4 i (some ⟨cloneFrom old e.n, true⟩)).getMain s.cur 5 i = true := by
      simp only [St.getMain, h1]
      exact hmain
    rw [if_pos h3, modNode_some h1]
    refine ⟨_, by rw [mem_setMem, if_pos ⟨rfl, rfl, rfl⟩], ?_, ?_⟩
    · show (if j = j then some s.cur else _) = _
      rw [if_pos rfl]
    · intro q hq
      show (if q = j then some s.cur else _) = _
      rw [if_neg hq]
      rfl
  cases hm' : s.mem s.cur 4 i with
  | none => exact (hm hm').elim
  | some e =>
    by_cases h0 : e.n.main = true
    · have hg : s.getMain s.cur 5 i = true := by
        simp only [St.getMain, hm', h0]
      have hs : leafMain i s = stageLseg s.cur 5 i s := by
        simp [leafMain, Bind.bind, M.bind, get, hg]
      unfold leafMain' at he
      rw [hs] at he
      have hst : (stageLseg s.cur 5 i s).2.mem = s.mem ∧ (stageLseg s.cur 5 i s).2.cur = s.cur := by
        rcases sys_cases s with ⟨io, c, d⟩ | ⟨e', io, c, d⟩ <;>
        · simp only [stageLseg, Bind.bind, M.bind, get, c]
          first | exact ⟨trivial, trivial⟩ | (split <;> exact ⟨rfl, rfl⟩)
      cases hx : stageLseg s.cur 5 i s with
      | mk r t =>
        rw [hx] at he hst
        cases r with
        | err e' => cases he
        | ok a =>
          cases he
          exact fin _ e hst.2 (by rw [hst.1]; exact hm') h0
    · have h0' : e.n.main = false := by simpa using h0
      unfold leafMain' at he
      rw [leafMain_eq hm' h0'] at he
      have hreq : ∀ t, requireLseg s.cur 5 i s = (.ok (), t) → t.mem = s.mem ∧ t.cur = s.cur := by
        intro t ht
        rcases requireLseg_cases s.cur 5 i s with ⟨a, b⟩ | ⟨a, ⟨io, b, c⟩ | ⟨e', io, b, c⟩⟩
        · rcases sys_cases s with ⟨io, c, d⟩ | ⟨e', io, c, d⟩
          · rw [b, c] at ht
            cases ht
            exact ⟨rfl, rfl⟩
          · rw [b, c] at ht
            cases ht
        · rw [c] at ht
          cases ht
          exact ⟨rfl, rfl⟩
        · rw [c] at ht
          cases ht
      simp only [M.bind] at he
      cases hx : requireLseg s.cur 5 i s with
      | mk r t =>
        rw [hx] at he
        cases r with
        | err e' => cases he
        | ok a =>
          obtain ⟨ht1, ht2⟩ := hreq t hx
          simp only [upd] at he
          rw [modNode_some (s := t) (by rw [ht1]; exact hm')] at he
          cases he
          refine fin _ ⟨bindBlocks s.cur e.n, true⟩ ht2 ?_ rfl
          rw [mem_setMem, if_pos ⟨rfl, rfl, rfl⟩]

/-- A leaf that is being made. -/
example : ∃ s', leafMain' 0 (({ St.init 3 with io := [] } : St).setMem 3 4 0 (some ⟨{}, true⟩)) = (.ok (), s') :=
  ⟨_, rfl⟩

/-- Beyond the range of a volume. -/
theorem C58_grow_range (s : St) (hi : ¬ i < 256 ^ 4) : requirePath 4 i s = (.err ERANGE, s) := by
  have := requirePath_range 4 4 i s (by
    intro z
    exact hi ((Nat.div_eq_zero_iff.1 z).resolve_left (by decide))) (by omega)
  rw [Nat.sub_self, Nat.pow_zero, Nat.div_one] at this
  exact this

/-! ### Staging -/

/-- Maps that exist are found, in mode COW with a copy of the mounted volume; no block moves, and none
changes, on the way. -/
theorem C58_stage_partial (hr : Reach s) (cow : Bool) (i : Nat) (io : List Nat) :
    (match stagePath cow 4 i { s with io } with
    | (.ok v, s') => (s.half i = false → s'.loc 4 i = some v) ∧ (cow = true → v = s.cur)
    | (.err _, _) => io ≠ [] ∨ s.loc 4 i = none) ∧
    (∀ b, (stagePath cow 4 i { s with io }).2.loc 5 b = s.loc 5 b ∧
      (stagePath cow 4 i { s with io }).2.isUsed b = s.isUsed b) ∧
    ∀ b v, s.loc 5 b = some v → (stagePath cow 4 i { s with io }).2.dat v b = s.dat v b := by
  obtain ⟨r, s', he, hg, h⟩ := stage_does (hr.inv.setIo io) cow i
  have hb : ∀ j, s'.leaf j = s.leaf j := hg.back rfl
  have hd := leaves_stagePath cow 4 i { s with io }
  rw [he] at hd ⊢
  refine ⟨?_, fun b => ⟨by rw [loc5, loc5, hb], by rw [isUsed_leaf, isUsed_leaf, hb]⟩,
    fun b v z => (hd v b (show s.seg v 5 (b / 256) = true from seg_of_loc hr.inv z)).2⟩
  cases r with
  | err e =>
    refine h.imp_right fun z => ?_
    have z1 : s.leaf i = none := z.1
    cases h4 : s.loc 4 i with
    | none => rfl
    | some v =>
      unfold St.leaf at z1
      rw [h4] at z1
      have z2 : s.cont v 4 i = none := (view_none s v 4 i).1 z1
      rw [loc_succ] at h4
      cases h3 : s.loc 3 (i / 256) with
      | none => rw [h3] at h4; cases h4
      | some u =>
        rw [h3] at h4
        simp only [Option.bind_some, St.ref] at h4
        cases hc3 : s.cont u 3 (i / 256) with
        | none => rw [hc3] at h4; cases h4
        | some n =>
          rw [hc3] at h4
          exact (hr.inv.kids u 3 i n v (by omega) hc3 h4 z2).elim
  | ok v => exact ⟨fun z => h.2.2.2.1 (.inr z), h.2.2.2.2⟩

/-! ### Reading -/

theorem Does.leaves {m : M α} (h : Does b m E Q s) (hl : Leaves m) :
    Does b m E (fun a s' => Q a s' ∧ Dat s s') s := by
  obtain ⟨r, s', he, hg, hr⟩ := h
  refine ⟨r, s', he, hg, ?_⟩
  cases r with
  | err e => exact hr
  | ok a =>
    have := hl s
    rw [he] at this
    exact ⟨hr.1, hr.2.1, hr.2.2, this⟩

theorem Does.get {α : Type} {f : St → α} {Q : α → St → Prop} (h : Inv none2 s) (hQ : Q (f s) s) :
    Does b (Stage.get f) E Q s := ⟨.ok (f s), s, rfl, .refl h, rfl, fun h => h, hQ⟩

theorem Does.sys (h : Inv none2 s) : Does true Stage.sys (fun _ => False) (fun _ _ => True) s := by
  rcases sys_cases s with ⟨io, he, hh⟩ | ⟨e, io, he, hh⟩
  · exact ⟨_, _, he, .ofSame (h.setIo io) rfl (fun _ => rfl), rfl, hh, trivial⟩
  · exact ⟨_, _, he, .ofSame (h.setIo io) rfl (fun _ => rfl), .inl hh⟩

/-- A leaf that the caller holds. -/
theorem leaf_view {s : St} {e : Ent} (hl : s.loc 4 i = some v) (hm : s.mem v 4 i = some e) : s.leaf i = some e.n.view := by
  unfold St.leaf St.view St.cont
  rw [hl]
  simp only [Option.bind_some, hm]
  rfl

theorem requireStable_spec (h : Inv none2 s) (hl : s.leaf (b / 256) = some x) (hu : x.2 (b % 256) = true)
    (hh : s.half (b / 256) = false) :
    Does true (requireStable b) (fun _ => False) (fun _ s' => Dat s s') s := by
  unfold requireStable
  refine Does.bind (((stage_does h false (b / 256)).leaves (leaves_stagePath _ _ _)).mono ?_ (fun _ _ _ _ z => z)) ?_
  · rintro e ⟨z, _⟩
    rw [hl] at z; cases z
  · rintro v s' g h' ⟨⟨hm, hv, _⟩, hd⟩
    have hv := hv (.inr hh)
    cases he : s'.mem v 4 (b / 256) with
    | none => exact (hm he).elim
    | some e =>
      have hx := leaf_view hv he
      rw [g.back rfl, hl] at hx
      refine Does.bind (Does.get (Q := fun a s'' => a = some e ∧ s'' = s') g.inv ⟨he, rfl⟩) ?_
      rintro _ _ _ _ ⟨rfl, rfl⟩
      have hu' : e.n.used (b % 256) = true := by
        cases hx; exact hu
      simp only [hu', if_pos]
      exact Does.pure g.inv hd

/-- Last part of `resolve`. -/
def childOf (b v : Nat) : M Nat := do
  let e ← get (·.mem v 4 (b / 256))
  match e with
  | none => fail ENOENT
  | some e => match e.n.child (b % 256) with
    | none => fail ENOENT
    | some w => pure w

theorem resolve_hit {s : St} (hf : s.fetch false 4 (b / 256) = some v) : resolve b s = childOf b v s := by
  simp only [resolve, childOf, Bind.bind, M.bind, Stage.get, hf, Pure.pure, M.pure]
  rfl

theorem resolve_miss {s : St} (hf : s.fetch false 4 (b / 256) = none) :
    resolve b s = (stagePath false 4 (b / 256) >>= childOf b) s := by
  simp only [resolve, childOf, Bind.bind, M.bind, Stage.get, hf, Pure.pure, M.pure]
  rfl

theorem resolve_spec (h : Inv none2 s) (hl : s.leaf (b / 256) = some x) (hw : x.1 (b % 256) = some w)
    (hh : s.half (b / 256) = false) :
    Does true (resolve b) (fun _ => False) (fun w' s' => w' = w ∧ Dat s s') s := by
  have hfin : ∀ v s', Good true s s' → s'.loc 4 (b / 256) = some v → s'.mem v 4 (b / 256) ≠ none → Dat s s' →
      Does true (childOf b v) (fun _ => False) (fun w' s' => w' = w ∧ Dat s s') s' := by
    intro v s' g hv hm hd
    cases he : s'.mem v 4 (b / 256) with
    | none => exact (hm he).elim
    | some e =>
      have hx := leaf_view hv he
      rw [g.back rfl, hl] at hx
      have hc : e.n.child (b % 256) = some w := by
        cases hx; exact hw
      unfold childOf
      refine Does.bind (Does.get (Q := fun a s'' => a = some e ∧ s'' = s') g.inv ⟨he, rfl⟩) ?_
      rintro _ _ _ _ ⟨rfl, rfl⟩
      simp only [hc]
      exact Does.pure g.inv ⟨rfl, hd⟩
  cases hf : s.fetch false 4 (b / 256) with
  | some v =>
    obtain ⟨⟨l, hr⟩, hm, _⟩ := fetch_some hf
    have := hfin v s (.refl h) (h.rngOk 4 _ v l (by omega) (.inr hh) (fun z => z) hr hm) hm (.refl s)
    unfold Does at this ⊢
    rw [resolve_hit hf]
    exact this
  | none =>
    have : Does true (stagePath false 4 (b / 256) >>= childOf b) (fun _ => False)
        (fun w' s' => w' = w ∧ Dat s s') s := by
      refine Does.bind (((stage_does h false (b / 256)).leaves (leaves_stagePath _ _ _)).mono ?_ (fun _ _ _ _ z => z)) ?_
      · rintro e ⟨z, _⟩
        rw [hl] at z; cases z
      · rintro v s' g h' ⟨⟨hm, hv, _⟩, hd⟩
        exact hfin v s' g (hv (.inr hh)) hm hd
    unfold Does at this ⊢
    rw [resolve_miss hf]
    exact this

/-- An allocated block is found, in a segment that is there, and what was stored last is read; only a
failing storage prevents it. -/
theorem C58_read_partial (hr : Reach s) (K : Kind) (hu : s.isUsed b = true)
    (hh : s.half (b / 256) = false) (io : List Nat) :
    ∃ w, s.loc 5 b = some w ∧ s.seg w 5 (b / 256) = true ∧
      match readObj K b { s with io } with
      | (.ok x, _) => x = K.dec (s.dat w b)
      | (.err e, _) => io ≠ [] ∨ e = EFSCORRUPTED ∧ K.good (K.dec (s.dat w b)) = false := by
  have h := hr.inv
  rw [isUsed_leaf] at hu
  cases hl : s.leaf (b / 256) with
  | none => rw [hl] at hu; cases hu
  | some x =>
    rw [hl] at hu
    obtain ⟨w, hw, hseg⟩ := leaf_full h hl (b % 256)
    have hloc : s.loc 5 b = some w := by rw [loc5, hl]; exact hw
    refine ⟨w, hloc, hseg, ?_⟩
    have hD : Does true (readObj K b) (fun e => e = EFSCORRUPTED ∧ K.good (K.dec (s.dat w b)) = false)
        (fun x _ => x = K.dec (s.dat w b)) { s with io } := by
      unfold readObj
      refine Does.bind ((requireStable_spec (h.setIo io) hl hu hh).mono (fun _ z => z.elim) (fun _ _ _ _ z => z)) ?_
      intro _ s1 g1 h1 d1
      refine Does.bind ((resolve_spec g1.inv ((g1.back rfl _).trans hl) hw (h1 ▸ hh)).mono (fun _ z => z.elim)
        (fun _ _ _ _ z => z)) ?_
      rintro w' s2 g2 h2 ⟨e1, d2⟩
      rw [e1]
      have d := d1.trans d2 w b hseg
      have hreq : requireLseg w 5 (b / 256) s2 = Stage.sys s2 := by
        rcases requireLseg_cases w 5 (b / 256) s2 with ⟨_, a⟩ | ⟨a, _⟩
        · exact a
        · rw [d.1] at a; cases a
      have hq : Does true (requireLseg w 5 (b / 256)) (fun _ => False) (fun _ _ => True) s2 := by
        have := Does.sys g2.inv
        unfold Does at this ⊢
        rw [hreq]; exact this
      refine Does.bind ((hq.leaves (leaves_requireLseg _ _ _)).mono (fun _ z => z.elim) (fun _ _ _ _ z => z.2)) ?_
      intro _ s3 g3 _ d3
      refine Does.bind (((Does.sys g3.inv).leaves .sys).mono (fun _ z => z.elim) (fun _ _ _ _ z => z.2)) ?_
      intro _ s4 g4 _ d4
      have hdat : s4.dat w b = s.dat w b := ((d1.trans d2).trans (d3.trans d4) w b hseg).2
      refine Does.bind (Does.get (Q := fun a _ => a = s.dat w b) g4.inv hdat) ?_
      rintro _ s5 g5 _ rfl
      cases hk : K.good (K.dec (s.dat w b)) with
      | true => exact Does.pure g5.inv rfl
      | false => exact ⟨_, _, rfl, .refl g5.inv, .inr ⟨rfl, rfl⟩⟩
    obtain ⟨r, s', he, _, hr⟩ := hD
    rw [he]
    cases r with
    | ok a => exact hr.2.2
    | err e => exact hr

/-- With a working storage an allocated block of a file is never taken for a hole. -/
theorem C58_read_not_hole_partial (hr : Reach s) (K : Kind) (hu : s.isUsed b = true)
    (hh : s.half (b / 256) = false) :
    ∃ w, s.loc 5 b = some w ∧
      match readLeaf K b { s with io := [] } with
      | (.ok x, _) => x = K.dec (s.dat w b)
      | (.err e, _) => e = EFSCORRUPTED ∧ K.good (K.dec (s.dat w b)) = false := by
  obtain ⟨w, h1, _, h3⟩ := C58_read_partial hr K hu hh []
  refine ⟨w, h1, ?_⟩
  unfold readLeaf
  cases he : readObj K b { s with io := [] } with
  | mk r s' =>
    rw [he] at h3
    cases r with
    | ok x => exact h3
    | err e =>
      have h3 := h3.resolve_left (fun z => z rfl)
      have : e ≠ ENOENT := by rw [h3.1]; decide
      simp only [if_neg this]
      exact h3

/-! ### Leaves are only left half-made when the storage fails -/

/-- Without errors of the storage. -/
def Calm (m : M α) : Prop := ∀ s, s.io = [] → (m s).2.io = [] ∧ (m s).2.half = s.half

theorem Calm.bind {m : M α} {f : α → M β} (h : Calm m) (hf : ∀ a, Calm (f a)) : Calm (m >>= f) := by
  intro s hs
  have h1 := h s hs
  have he : (m >>= f) s = M.bind m f s := rfl
  rw [he]
  unfold M.bind
  cases hm : m s with
  | mk r s' =>
    rw [hm] at h1
    cases r with
    | err e => exact h1
    | ok a => exact ⟨(hf a s' h1.1).1, (hf a s' h1.1).2.trans h1.2⟩

theorem Calm.pure (a : α) : Calm (Pure.pure a : M α) := fun _ h => ⟨h, rfl⟩
theorem Calm.fail (e : Nat) : Calm (Stage.fail e : M α) := fun _ h => ⟨h, rfl⟩
theorem Calm.get (f : St → α) : Calm (Stage.get f) := fun _ h => ⟨h, rfl⟩
theorem Calm.upd (f : St → St) (h : ∀ s, (f s).io = s.io ∧ (f s).half = s.half) : Calm (Stage.upd f) :=
  fun s hs => ⟨(h s).1.trans hs, (h s).2⟩
theorem Calm.sys : Calm Stage.sys := by
  intro s hs
  unfold Stage.sys
  rw [hs]
  exact ⟨hs, rfl⟩

theorem Calm.ite {m m' : M α} [Decidable c] (h : Calm m) (h' : Calm m') : Calm (if c then m else m') := by
  by_cases z : c
  · rw [if_pos z]; exact h
  · rw [if_neg z]; exact h'

theorem calm_requireLseg (v k p : Nat) : Calm (requireLseg v k p) :=
  .bind (.get _) fun _ => .ite .sys (.bind .sys fun _ => .upd _ fun _ => ⟨rfl, rfl⟩)

theorem calm_stageLseg (v k p : Nat) : Calm (stageLseg v k p) :=
  .bind .sys fun _ => .bind (.get _) fun _ => .ite (.pure _) (.fail _)

theorem calm_spawnLseg (v k p : Nat) : Calm (spawnLseg v k p) := by
  refine .bind (.get _) fun a => ?_
  cases a with
  | true => exact .bind (.fail _) fun _ => .bind .sys fun _ => .upd _ fun _ => ⟨rfl, rfl⟩
  | false => exact .bind .sys fun _ => .upd _ fun _ => ⟨rfl, rfl⟩

theorem calm_mod (s : St) (v k i : Nat) (f : Node → Node) :
    (s.modNode v k i f).io = s.io ∧ (s.modNode v k i f).half = s.half := by
  unfold St.modNode
  cases s.mem v k i <;> exact ⟨rfl, rfl⟩

theorem calm_requireMain (pv k p : Nat) : Calm (requireMain pv k p) := by
  refine .bind (.get _) fun _ => .bind (.get _) fun _ => .ite (calm_stageLseg _ _ _)
    (.bind (calm_spawnLseg _ _ _) fun _ => .upd _ fun s => ?_)
  cases k with
  | zero => exact ⟨rfl, rfl⟩
  | succ k => exact calm_mod s _ _ _ _

theorem calm_setChild (pv k i c : Nat) : Calm (Stage.upd (·.setChild pv k i c)) := by
  refine .upd _ fun s => ?_
  cases k with
  | zero => exact ⟨rfl, rfl⟩
  | succ k => exact calm_mod s _ _ _ _

theorem calm_track (s : St) (v k i : Nat) : (s.track v k i).io = s.io ∧ (s.track v k i).half = s.half := by
  unfold St.track
  by_cases z : s.rng k i = []
  · rw [if_pos z]; exact ⟨rfl, rfl⟩
  · rw [if_neg z]; exact ⟨rfl, rfl⟩

/-- A node just made is empty, so that nothing but the storage can fail. -/
theorem spawnU_calm (v k i : Nat) (s : St) (hs : s.io = []) :
    ∃ s', spawnU v k i s = (.ok (), s') ∧ s'.io = [] ∧ s'.half = s.half ∧ s'.cur = s.cur ∧
      s'.mem v k i = some ⟨{}, true⟩ := by
  unfold spawnU
  cases hm : s.mem v k i with
  | some e =>
    refine ⟨_, rfl, (calm_track s v k i).1.trans hs, (calm_track s v k i).2, ?_, by rw [mem_setMem, if_pos ⟨rfl, rfl, rfl⟩]⟩
    show (s.track v k i).cur = s.cur
    unfold St.track
    by_cases z : s.rng k i = []
    · rw [if_pos z]; rfl
    · rw [if_neg z]
  | none =>
    simp only
    rcases requireLseg_cases v k (i / 256) s with ⟨_, a⟩ | ⟨a, ⟨io, hio, e⟩ | ⟨e', io, hio, e⟩⟩
    · rw [a]
      have : Stage.sys s = (.ok (), s) := by unfold Stage.sys; rw [hs]
      rw [this]
      exact ⟨_, rfl, hs, rfl, rfl, by rw [mem_setMem, if_pos ⟨rfl, rfl, rfl⟩]⟩
    · rw [e]
      exact ⟨_, rfl, hio hs, rfl, rfl, by rw [mem_setMem, if_pos ⟨rfl, rfl, rfl⟩]⟩
    · exact (hio hs).elim

theorem calm_spawnNode (pv k i : Nat) : Calm (spawnNode pv k i) := by
  refine .bind (calm_requireMain _ _ _) fun _ => ?_
  intro s hs
  obtain ⟨s', he, h1, h2, h3, h4⟩ := spawnU_calm s.cur k i s hs
  have hrun : (do
      spawnU (← Stage.get (·.cur)) k i
      if k = 4 then leafMain' i else Pure.pure () : M Unit) s =
      (if k = 4 then leafMain' i else Pure.pure () : M Unit) s' := by
    simp only [Bind.bind, M.bind, Stage.get, he]
  show ((do
      spawnU (← Stage.get (·.cur)) k i
      if k = 4 then leafMain' i else Pure.pure () : M Unit) s).2.io = [] ∧ _
  refine (show ∀ r : Res Unit × St, r = (if k = 4 then leafMain' i else Pure.pure () : M Unit) s' →
    r.2.io = [] ∧ r.2.half = s.half from ?_) _ hrun
  rintro _ rfl
  by_cases hk : k = 4
  · subst hk
    rw [if_pos rfl]
    unfold leafMain'
    rw [← h3] at h4
    rw [leafMain_eq h4 rfl]
    rcases requireLseg_cases s'.cur 5 i s' with ⟨_, a⟩ | ⟨a, ⟨io, hio, e⟩ | ⟨e', io, hio, e⟩⟩
    · have hsys : Stage.sys s' = (.ok (), s') := by unfold Stage.sys; rw [h1]
      simp only [Bind.bind, M.bind, a, hsys, Stage.upd]
      exact ⟨(calm_mod _ _ _ _ _).1.trans h1, (calm_mod _ _ _ _ _).2.trans h2⟩
    · simp only [Bind.bind, M.bind, e, Stage.upd]
      exact ⟨(calm_mod _ _ _ _ _).1.trans (hio h1), (calm_mod _ _ _ _ _).2.trans h2⟩
    · exact (hio h1).elim
  · rw [if_neg hk]; exact ⟨h1, h2⟩

theorem calm_cloneNode (pv k i w : Nat) : Calm (cloneNode pv k i w) := by
  refine .bind (.get _) fun old => .bind (calm_spawnNode _ _ _) fun _ => .bind (.get _) fun _ => ?_
  cases old with
  | none => exact calm_setChild _ _ _ _
  | some e => exact .bind (.upd _ fun s => calm_mod s _ _ _ _) fun _ => calm_setChild _ _ _ _

theorem calm_stageU (w k i : Nat) : Calm (stageU w k i) := by
  have hl : Calm (loadU w k i) := by
    refine .bind (calm_requireLseg _ _ _) fun _ => .bind .sys fun _ => .bind (.get _) fun a => ?_
    cases a with
    | none => exact .fail _
    | some n => exact .pure _
  intro s hs
  unfold stageU
  cases hm : s.mem w k i with
  | some e => exact ⟨(calm_track s w k i).1.trans hs, (calm_track s w k i).2⟩
  | none =>
    simp only
    have h1 := hl s hs
    cases hr : loadU w k i s with
    | mk r s' =>
      rw [hr] at h1
      cases r with
      | err e => exact h1
      | ok n => exact h1

theorem calm_stageNode (cow : Bool) (pv k i : Nat) : Calm (stageNode cow pv k i) := by
  refine .bind (.get _) fun a => ?_
  cases a with
  | some v => exact .pure _
  | none =>
    refine .bind (.get _) fun a => ?_
    cases a with
    | none => exact .fail _
    | some w =>
      exact .bind (calm_stageU _ _ _) fun _ => .bind (.get _) fun _ =>
        .ite (.bind (calm_cloneNode _ _ _ _) fun _ => .pure _) (.pure _)

theorem calm_requireNode (pv k i : Nat) : Calm (requireNode pv k i) := by
  refine .bind (.get _) fun a => ?_
  cases a with
  | some v => exact .pure _
  | none =>
    refine .bind (.get _) fun a => ?_
    cases a with
    | some w => exact calm_stageNode _ _ _ _
    | none =>
      exact .bind (calm_spawnNode _ _ _) fun _ => .bind (.get _) fun _ =>
        .bind (calm_setChild _ _ _ _) fun _ => .pure _

theorem calm_stagePath (cow : Bool) : ∀ k i, Calm (stagePath cow k i)
  | 0, i => by unfold stagePath; exact .ite (calm_stageNode _ _ _ _) (.fail _)
  | k + 1, i => by
    unfold stagePath
    exact .bind (calm_stagePath cow k _) fun _ => calm_stageNode _ _ _ _

theorem calm_requirePath : ∀ k i, Calm (requirePath k i)
  | 0, i => by unfold requirePath; exact .ite (calm_requireNode _ _ _) (.fail _)
  | k + 1, i => by
    unfold requirePath
    exact .bind (calm_requirePath k _) fun _ => calm_requireNode _ _ _

/-- No leaf is left half-made while the storage works. -/
theorem C58_half (s : St) (cow : Bool) (i : Nat) :
    (requirePath 4 i { s with io := [] }).2.half = s.half ∧
    (stagePath cow 4 i { s with io := [] }).2.half = s.half :=
  ⟨(calm_requirePath 4 i { s with io := [] } rfl).2, (calm_stagePath cow 4 i { s with io := [] } rfl).2⟩

/-! ### Where it fails -/

/-- A volume with one block in use, everything written. -/
def w1 : St := ((((requirePath 4 0 { St.init 0 with io := [] }).2.mark 0 0 0 true).put 0 0 7).flushAll)

theorem w1_reach : Reach w1 := by
  have h1 : Reach (requirePath 4 0 { St.init 0 with io := [] }).2 := .step (.init 0) (.grow 0 [])
  have h2 : Reach ((requirePath 4 0 { St.init 0 with io := [] }).2.mark 0 0 0 true) := by
    have hc : (requirePath 4 0 { St.init 0 with io := [] }).2.cur = 0 := by decide +kernel
    have := Step.mark (s := (requirePath 4 0 { St.init 0 with io := [] }).2) 0 0 true
    rw [hc] at this
    exact .step h1 this
  exact .step (.step h2 (.put 0 0 7)) .flushAll

theorem w1_clean : w1.clean := by
  have h1 : Reach (requirePath 4 0 { St.init 0 with io := [] }).2 := .step (.init 0) (.grow 0 [])
  have h2 : Reach ((requirePath 4 0 { St.init 0 with io := [] }).2.mark 0 0 0 true) := by
    have hc : (requirePath 4 0 { St.init 0 with io := [] }).2.cur = 0 := by decide +kernel
    have := Step.mark (s := (requirePath 4 0 { St.init 0 with io := [] }).2) 0 0 true
    rw [hc] at this
    exact .step h1 this
  exact (Reach.step h2 (.put 0 0 7)).inv.flushAll.2

/-- Data blocks: nothing to verify. -/
def KData : Kind := ⟨id, fun _ => true⟩

/-- Metadata: zeros are not valid. -/
def KMeta : Kind := ⟨id, fun x => x != 0⟩

/-- The hypotheses of the theorems above hold here, and the block is read. -/
example : w1.isUsed 0 = true ∧ w1.half 0 = false ∧ w1.loc 5 0 = some 0 ∧ (readObj KData 0 w1).1 = .ok 7 := by
  decide +kernel

example : (requirePath 4 77 { w1 with io := [] }).1 = .ok 0 ∧
    (requirePath 4 77 { w1 with io := [0, 0, 1005] }).1 = .err 1005 := by
  decide +kernel

/-- The volume begins to grow by 4G and loses power before the maps are written; the segment file for their
leaves stays behind. -/
def w2 : St := (requirePath 4 256 { w1 with io := [] }).2.crash

theorem w2_stray : Stray 3 1 w2 where
  seg := by decide +kernel
  mem0 := fun _ _ => rfl
  memP := fun _ _ z => nomatch z
  dskP := by
    have h : ∀ v, w2.dsk v 3 1 = none := by
      intro v
      cases v with
      | zero => exact (by decide +kernel : (w2.dsk 0 3 1).isNone = true) |> Option.isNone_iff_eq_none.1
      | succ v => rfl
    intro v n z
    rw [h] at z; cases z

/-- FALSE of the code: that a volume can always grow.  After this crash the 4G range can never be used again,
by no leaf in it and in no further history of the volume, although nothing of it was ever in use. -/
theorem C58_crash_blocks_growth_violated :
    ∃ s, Reach s ∧ s.clean ∧ (∃ b, s.isUsed b = true) ∧ ∃ i, i < 256 ^ 4 ∧
      (requirePath 4 i { s with io := [] }).1 = .ok s.cur ∧
      ∀ s', Later (requirePath 4 i { s with io := [] }).2.crash s' → ∀ i', i' / 256 = i / 256 → ∀ io,
        ∃ e s'', requirePath 4 i' { s' with io } = (.err e, s'') := by
  refine ⟨w1, w1_reach, w1_clean, ⟨0, by decide +kernel⟩, 256, by decide, by decide +kernel, ?_⟩
  intro s' hl i' hi io
  have hs := w2_stray.later (by omega) hl
  have ht := (tri_requirePath (k := 3) (p := 1) (c := s'.cur) (by omega) 4 i' { s' with io } (hs.setIo io) rfl).2.2
  cases hr : requirePath 4 i' { s' with io } with
  | mk r s'' =>
    cases r with
    | err e => exact ⟨e, s'', rfl⟩
    | ok v =>
      have := (ht v s'' hr).2 (by omega)
      rw [Nat.sub_self, Nat.pow_zero, Nat.div_one] at this
      omega

/-- The error is EEXIST. -/
example : (requirePath 4 256 { w2 with io := [] }).1 = .err EEXIST := by decide +kernel

/-- The volume is forked; of the new one the leaf is to be written, and the segment for its blocks cannot be
made, for want of space. -/
def w3 : St := w1.fork 1
def w4 : St := (stagePath true 4 0 { w3 with io := [0, 0, 0, 0, 0, 0, 0, 0, 0, 0, 1028] }).2

theorem w3_reach : Reach w3 := by
  refine .fork 1 w1_reach w1_clean ⟨?_, ?_, ?_⟩
  · intro k i; rfl
  · intro k i; rfl
  · intro k i; rfl

/-- FALSE of the code: that a failed copy of a leaf does no harm.  The empty copy stays in memory and is found
before the original: blocks in use are refused as corrupted while the storage works again, though they can be
read before, and again once memory is dropped. -/
theorem C58_failed_clone_violated :
    ∃ s io, Reach s ∧ ∃ b, s.isUsed b = true ∧ (readObj KData b { s with io := [] }).1 = .ok 7 ∧
      (stagePath true 4 (b / 256) { s with io }).1 = .err 1028 ∧
      (stagePath true 4 (b / 256) { s with io }).2.isUsed b = true ∧
      (readObj KData b { (stagePath true 4 (b / 256) { s with io }).2 with io := [] }).1 = .err EFSCORRUPTED ∧
      (readObj KData b { (stagePath true 4 (b / 256) { s with io }).2.crash with io := [] }).1 = .ok 7 := by
  refine ⟨w3, [0, 0, 0, 0, 0, 0, 0, 0, 0, 0, 1028], w3_reach, 0, ?_⟩
  decide +kernel

/-- FALSE of the code: that lost data is reported.  The file of a segment of data vanished: it is made anew and
zeros are given out as the content of the file, without an error, unless the object is one that is verified. -/
theorem C58_lost_data_violated :
    ∃ s, Reach s ∧ ∃ b w, s.isUsed b = true ∧ s.loc 5 b = some w ∧ s.dat w b = 7 ∧
      (readLeaf KData b { s.lose w 5 (b / 256) with io := [] }).1 = .ok 0 ∧
      (readObj KMeta b { s.lose w 5 (b / 256) with io := [] }).1 = .err EFSCORRUPTED := by
  refine ⟨w1, w1_reach, 0, 0, ?_⟩
  decide +kernel

/-- The volume grows and a block is written there; then power is lost before the maps are. -/
def w5 : St := (((requirePath 4 1 { w1 with io := [] }).2.mark 0 1 0 true).put 0 256 9)

theorem w5_reach : Reach w5 := by
  have h1 : Reach (requirePath 4 1 { w1 with io := [] }).2 := .step w1_reach (.grow 1 [])
  have h2 : Reach ((requirePath 4 1 { w1 with io := [] }).2.mark 0 1 0 true) := by
    have hc : (requirePath 4 1 { w1 with io := [] }).2.cur = 0 := by decide +kernel
    have := Step.mark (s := (requirePath 4 1 { w1 with io := [] }).2) 1 0 true
    rw [hc] at this
    exact .step h1 this
  exact .step h2 (.put 0 256 9)

/-- FALSE of the code: that a file whose maps are missing is reported.  The block was stored, and a file that
refers to it reads as zeros there, since an absent map is taken for a hole; other objects get ENOENT. -/
theorem C58_unbound_reads_zeros_violated :
    ∃ s, Reach s ∧ ∃ b w, s.isUsed b = true ∧ s.loc 5 b = some w ∧ s.dat w b = 9 ∧ s.crash.dat w b = 9 ∧
      (readObj KData b { s.crash with io := [] }).1 = .err ENOENT ∧
      (readLeaf KData b { s.crash with io := [] }).1 = .ok 0 := by
  refine ⟨w5, w5_reach, 256, 0, ?_⟩
  decide +kernel

end Silofs.Stage
