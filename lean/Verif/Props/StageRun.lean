import Verif.Props.StagePath

/-! Every step keeps the invariant (C58). -/

set_option linter.unusedSimpArgs false
set_option linter.unusedVariables false

namespace Silofs.Stage

/-! ### Stored blocks are left alone -/

def Dat (s s' : St) : Prop :=
  ∀ w b, s.seg w 5 (b / 256) = true → s'.seg w 5 (b / 256) = true ∧ s'.dat w b = s.dat w b

theorem Dat.refl (s : St) : Dat s s := fun _ _ h => ⟨h, rfl⟩
theorem Dat.trans (h : Dat s s') (h' : Dat s' s'') : Dat s s'' := fun w b z =>
  ⟨(h' w b (h w b z).1).1, (h' w b (h w b z).1).2.trans (h w b z).2⟩

theorem Dat.mkSeg (s : St) (h : s.seg v k p = false) : Dat s (s.mkSeg v k p) := by
  intro w b z
  refine ⟨mkSeg_mono _ _ _ _ _ _ _ z, ?_⟩
  show (if w = v ∧ k = 5 ∧ b / 256 = p then 0 else s.dat w b) = _
  rw [if_neg]
  rintro ⟨rfl, rfl, rfl⟩
  rw [h] at z; cases z

def Leaves (m : M α) : Prop := ∀ s, Dat s (m s).2

theorem Leaves.bind {m : M α} {f : α → M β} (h : Leaves m) (hf : ∀ a, Leaves (f a)) : Leaves (m >>= f) := by
  intro s
  show Dat s (M.bind m f s).2
  have := h s
  unfold M.bind
  cases he : m s with
  | mk r s' =>
    rw [he] at this
    cases r with
    | ok a => exact this.trans (hf a s')
    | err e => exact this

theorem Leaves.pure (a : α) : Leaves (Pure.pure a : M α) := fun s => .refl s
theorem Leaves.fail (e : Nat) : Leaves (Stage.fail e : M α) := fun s => .refl s
theorem Leaves.get (f : St → α) : Leaves (Stage.get f) := fun s => .refl s
theorem Leaves.upd (f : St → St) (h : ∀ s, Dat s (f s)) : Leaves (Stage.upd f) := h
theorem Leaves.sys : Leaves sys := by
  intro s
  rcases sys_cases s with ⟨io, h, _⟩ | ⟨e, io, h, _⟩ <;> rw [h] <;> exact .refl s

theorem Leaves.ite {m m' : M α} [Decidable c] (h : Leaves m) (h' : Leaves m') :
    Leaves (if c then m else m') := by
  by_cases z : c
  · rw [if_pos z]; exact h
  · rw [if_neg z]; exact h'

theorem leaves_requireLseg (v k p : Nat) : Leaves (requireLseg v k p) := by
  intro s
  rcases requireLseg_cases v k p s with ⟨_, a⟩ | ⟨a, ⟨io, _, c⟩ | ⟨e', io, _, c⟩⟩
  · rw [a]; exact Leaves.sys s
  · rw [c]; exact Dat.mkSeg { s with io } a
  · rw [c]; exact .refl s

theorem leaves_spawnLseg (v k p : Nat) : Leaves (spawnLseg v k p) := by
  intro s
  cases hs : s.seg v k p with
  | true => rw [spawnLseg_exists _ _ _ _ hs]; exact .refl s
  | false =>
    rcases spawnLseg_cases v k p s hs with ⟨io, _, c⟩ | ⟨e', io, _, c⟩
    · rw [c]; exact Dat.mkSeg { s with io } hs
    · rw [c]; exact .refl s

theorem leaves_stageLseg (v k p : Nat) : Leaves (stageLseg v k p) :=
  .bind .sys fun _ => .bind (.get _) fun _ => .ite (.pure _) (.fail _)

theorem dat_modNode (s : St) (v k i : Nat) (f : Node → Node) : Dat s (s.modNode v k i f) := by
  unfold St.modNode
  cases s.mem v k i <;> exact .refl s

theorem dat_setMain (s : St) (v k p : Nat) : Dat s (s.setMain v k p) := by
  cases k with
  | zero => exact .refl s
  | succ k => exact dat_modNode _ _ _ _ _

theorem dat_setChild (s : St) (v k i c : Nat) : Dat s (s.setChild v k i c) := by
  cases k with
  | zero => exact .refl s
  | succ k => exact dat_modNode _ _ _ _ _

theorem dat_track (s : St) (v k i : Nat) : Dat s (s.track v k i) := by
  unfold St.track
  by_cases h : s.rng k i = []
  · rw [if_pos h]; exact .refl s
  · rw [if_neg h]; exact .refl s

theorem leaves_loadU (v k i : Nat) : Leaves (loadU v k i) := by
  refine .bind (leaves_requireLseg _ _ _) fun _ => .bind .sys fun _ => .bind (.get _) fun a => ?_
  cases a with
  | none => exact .fail _
  | some n => exact .pure _

theorem leaves_stageU (v k i : Nat) : Leaves (stageU v k i) := by
  intro s
  unfold stageU
  cases s.mem v k i with
  | some e => exact dat_track s v k i
  | none =>
    have := leaves_loadU v k i s
    simp only
    cases he : loadU v k i s with
    | mk r s' =>
      rw [he] at this
      cases r with
      | err e => exact this
      | ok n => exact this

theorem leaves_spawnU (v k i : Nat) : Leaves (spawnU v k i) := by
  intro s
  unfold spawnU
  cases s.mem v k i with
  | some e => exact dat_track s v k i
  | none =>
    have := leaves_requireLseg v k (i / 256) s
    simp only
    cases he : requireLseg v k (i / 256) s with
    | mk r s' =>
      rw [he] at this
      cases r with
      | err e => exact this
      | ok n => exact this

theorem leaves_requireMain (pv k p : Nat) : Leaves (requireMain pv k p) :=
  .bind (.get _) fun _ => .bind (.get _) fun _ => .ite (leaves_stageLseg _ _ _)
    (.bind (leaves_spawnLseg _ _ _) fun _ => .upd _ fun s => dat_setMain s _ _ _)

theorem leaves_leafMain (i : Nat) : Leaves (leafMain' i) := by
  have h : Leaves (leafMain i) :=
    .bind (.get _) fun _ => .bind (.get _) fun _ => .ite (leaves_stageLseg _ _ _)
      (.bind (leaves_requireLseg _ _ _) fun _ => .upd _ fun s => dat_modNode s _ _ _ _)
  intro s
  have := h s
  unfold leafMain'
  cases he : leafMain i s with
  | mk r s' =>
    rw [he] at this
    cases r with
    | err e => exact this
    | ok n => exact this

theorem leaves_spawnNode (pv k i : Nat) : Leaves (spawnNode pv k i) :=
  .bind (leaves_requireMain _ _ _) fun _ => .bind (.get _) fun _ => .bind (leaves_spawnU _ _ _) fun _ =>
    .ite (leaves_leafMain i) (.pure _)

theorem leaves_cloneNode (pv k i w : Nat) : Leaves (cloneNode pv k i w) := by
  refine .bind (.get _) fun old => .bind (leaves_spawnNode _ _ _) fun _ => .bind (.get _) fun _ => ?_
  cases old with
  | none => exact .upd _ fun s => dat_setChild s _ _ _ _
  | some e =>
    exact .bind (.upd _ fun s => dat_modNode s _ _ _ _) fun _ => .upd _ fun s => dat_setChild s _ _ _ _

theorem leaves_stageNode (cow : Bool) (pv k i : Nat) : Leaves (stageNode cow pv k i) := by
  refine .bind (.get _) fun a => ?_
  cases a with
  | some v => exact .pure _
  | none =>
    refine .bind (.get _) fun a => ?_
    cases a with
    | none => exact .fail _
    | some w =>
      exact .bind (leaves_stageU _ _ _) fun _ => .bind (.get _) fun _ =>
        .ite (.bind (leaves_cloneNode _ _ _ _) fun _ => .pure _) (.pure _)

theorem leaves_stagePath (cow : Bool) : ∀ k i, Leaves (stagePath cow k i) := by
  intro k
  induction k with
  | zero => intro i; unfold stagePath; exact .ite (leaves_stageNode _ _ _ _) (.fail _)
  | succ k ih => intro i; unfold stagePath; exact .bind (ih _) fun _ => leaves_stageNode _ _ _ _

theorem leaves_requireNode (pv k i : Nat) : Leaves (requireNode pv k i) := by
  refine .bind (.get _) fun a => ?_
  cases a with
  | some v => exact .pure _
  | none =>
    refine .bind (.get _) fun a => ?_
    cases a with
    | some w => exact leaves_stageNode _ _ _ _
    | none =>
      exact .bind (leaves_spawnNode _ _ _) fun _ => .bind (.get _) fun _ =>
        .bind (.upd _ fun s => dat_setChild s _ _ _ _) fun _ => .pure _

theorem leaves_requirePath : ∀ k i, Leaves (requirePath k i) := by
  intro k
  induction k with
  | zero => intro i; unfold requirePath; exact .ite (leaves_requireNode _ _ _) (.fail _)
  | succ k ih => intro i; unfold requirePath; exact .bind (ih _) fun _ => leaves_requireNode _ _ _

/-! ### Steps -/

theorem Inv.setLeafAt (h : Inv none2 s) (hm : s.mem s.cur 4 i = some e) (n : Node)
    (hmain : n.main = e.n.main)
    (hc : ∀ q, n.child q = e.n.child q ∨ n.child q = some s.cur ∧ s.seg s.cur 5 i = true) :
    Inv none2 (s.setMem s.cur 4 i (some ⟨n, true⟩)) := by
  have hmm : s.mem s.cur 4 i ≠ none := by rw [hm]; exact fun h => nomatch h
  have hce : s.cont s.cur 4 i = some e.n := by unfold St.cont; rw [hm]
  refine h.setNode n (h.memSeg _ _ _ hmm) (fun h => absurd h (by omega)) ?_ ?_ ?_
    (fun _ _ h => absurd h (by omega)) (fun h => absurd h (by omega)) ?_ ?_
  · intro _ hs
    exact h.hasseg 5 i (by omega) ⟨e.n, hce, by rw [← hmain]; exact hs⟩
  · intro j _ _ hh
    rcases hh with ⟨a, _⟩ | ⟨a, _⟩ <;> omega
  · intro hh _
    exact h.bound 4 i (fun h => h) (.inr ⟨rfl, hh.resolve_left (by omega), hmm⟩)
  · intro _ hp q
    rcases hc q with z | ⟨z1, z2⟩
    · have hb : s.full s.cur i := by
        simp only [St.pChild] at hp
        cases hcp : s.cont s.cur 3 (i / 256) with
        | none => rw [hcp] at hp; cases hp
        | some np => rw [hcp] at hp; exact h.blocks s.cur i np s.cur hcp hp
      rw [z]
      exact hb e.n hce q
    · exact ⟨s.cur, z1, z2⟩
  · intro k' i' v l a b c d e'
    refine (loc_congr (s := s) (s' := s.setMem s.cur 4 i (some ⟨n, true⟩)) k' rfl (fun v k i j hk _ => ?_) k' i' (by omega)).trans
      (h.rngOk k' i' v l a b c d ?_)
    · unfold St.ref
      rw [cont_setMem, if_neg (by omega)]
    · rcases e' with e' | ⟨rfl, rfl, rfl⟩
      · exact e'
      · exact hmm

theorem Inv.mark (h : Inv none2 s) (i j : Nat) (b : Bool) : Inv none2 (s.mark s.cur i j b) := by
  unfold St.mark
  cases hm : s.mem s.cur 4 i with
  | none => unfold St.modNode; rw [hm]; exact h
  | some e =>
    rw [modNode_some hm]
    exact h.setLeafAt hm _ rfl (fun _ => .inl rfl)

theorem Inv.rebind (h : Inv none2 s) (i j : Nat) : Inv none2 (s.rebind i j) := by
  unfold St.rebind
  by_cases hg : s.getMain s.cur 5 i = true
  · rw [if_pos hg]
    cases hm : s.mem s.cur 4 i with
    | none => unfold St.modNode; rw [hm]; exact h
    | some e =>
      rw [modNode_some hm]
      have hmain : e.n.main = true := by simp only [St.getMain, hm] at hg; exact hg
      refine h.setLeafAt hm _ rfl (fun q => ?_)
      by_cases hq : q = j
      · exact .inr ⟨if_pos hq, h.hasseg 5 i (by omega) ⟨e.n, by unfold St.cont; rw [hm], hmain⟩⟩
      · exact .inl (if_neg hq)
  · rw [if_neg hg]; exact h

theorem Inv.flush (h : Inv none2 s) (v k i : Nat) : Inv none2 (s.flush v k i) := by
  unfold St.flush
  cases hm : s.mem v k i with
  | none => exact h
  | some e =>
    simp only
    cases hs : s.seg v k (i / 256) with
    | false => exact h
    | true =>
      rw [if_pos rfl]
      generalize hs' : ({ s.setMem v k i (some ⟨e.n, false⟩) with
        dsk := fun v' k' i' => if v' = v ∧ k' = k ∧ i' = i then some e.n else s.dsk v' k' i' } : St) = s'
      have hmem : ∀ v' k' i', s'.mem v' k' i' =
          if v' = v ∧ k' = k ∧ i' = i then some ⟨e.n, false⟩ else s.mem v' k' i' := by rw [← hs']; intros; rfl
      have hdsk : ∀ v' k' i', s'.dsk v' k' i' =
          if v' = v ∧ k' = k ∧ i' = i then some e.n else s.dsk v' k' i' := by rw [← hs']; intros; rfl
      have hc : ∀ v' k' i', s'.cont v' k' i' = s.cont v' k' i' := by
        intro v' k' i'
        unfold St.cont
        rw [hmem, hdsk]
        by_cases hh : v' = v ∧ k' = k ∧ i' = i
        · rw [if_pos hh]
          obtain ⟨rfl, rfl, rfl⟩ := hh
          rw [hm]
        · rw [if_neg hh, if_neg hh]
      have hc' : s'.cont = s.cont := by funext v k i; exact hc v k i
      have hcur : s'.cur = s.cur := by rw [← hs']; rfl
      have hsb : s'.sb = s.sb := by rw [← hs']; rfl
      have hsg : s'.seg = s.seg := by rw [← hs']; rfl
      have hsd : s'.sbDirty = s.sbDirty := by rw [← hs']; rfl
      have hsD : s'.sbD = s.sbD := by rw [← hs']; rfl
      have hpm : ∀ k q, s'.pMain k q ↔ s.pMain k q := by
        intro k q
        cases k with
        | zero => unfold St.pMain; rw [hsb]
        | succ k => unfold St.pMain; rw [hc', hcur]
      have f : Fr s s' := by
        refine ⟨hcur, by rw [hsb], by rw [← hs']; rfl, by rw [← hs']; rfl, ?_, ?_, fun z => by rw [← hs']; exact z⟩
        · intro v' k' i'
          rw [hmem]
          by_cases hh : v' = v ∧ k' = k ∧ i' = i
          · rw [if_pos hh]
            obtain ⟨rfl, rfl, rfl⟩ := hh
            rw [hm]
            exact ⟨fun h => (nomatch h), fun h => (nomatch h)⟩
          · rw [if_neg hh]
        · intro v' k' i'
          unfold St.view
          rw [hc]
      refine h.ofFr f ?_ ?_ ?_ ?_ ?_ ?_ ?_
      · intro k p a b
        rw [hsg, hcur] at b
        exact (hpm k p).2 (h.nostray k p a b)
      · intro k p a b
        rw [hsg, hcur]
        exact h.hasseg k p a ((hpm k p).1 b)
      · intro v' k' i' e' a b
        rw [hmem] at a
        rw [hdsk]
        by_cases hh : v' = v ∧ k' = k ∧ i' = i
        · rw [if_pos hh] at a ⊢
          cases a; rfl
        · rw [if_neg hh] at a ⊢
          exact h.clean v' k' i' e' a b
      · intro v' k' i' a
        rw [hdsk] at a
        rw [hsg]
        by_cases hh : v' = v ∧ k' = k ∧ i' = i
        · obtain ⟨rfl, rfl, rfl⟩ := hh; exact hs
        · rw [if_neg hh] at a; exact h.dskSeg v' k' i' a
      · intro v' k' i' a
        rw [hsg]
        exact h.memSeg v' k' i' (fun z => a ((f.mem v' k' i').2 z))
      · rw [hsd, hsD, hcur, hsb]; exact h.sbClean
      · rw [hsg]; exact fun _ _ _ z => z

theorem Inv.flushSb (h : Inv none2 s) : Inv none2 s.flushSb :=
  { nostray := fun k p a b => by cases k <;> exact h.nostray _ p a b
    hasseg := fun k p a b => by
      cases k with
      | zero => exact h.hasseg 0 p a b
      | succ k => exact h.hasseg (k + 1) p a b
    bound := fun k i a b => by
      cases k with
      | zero => exact h.bound 0 i a b
      | succ k => exact h.bound (k + 1) i a b
    kids := h.kids, root := h.root, clean := h.clean, dskSeg := h.dskSeg, memSeg := h.memSeg
    sbClean := fun _ => if_pos rfl
    blocks := h.blocks, own := h.own
    rngOk := fun k i v l a b c d e => by
      rw [loc_congr (s := s) (s' := s.flushSb) k rfl (fun _ _ _ _ _ _ => rfl) k i (by omega)]
      exact h.rngOk k i v l a b c d e }

theorem Inv.flushAll (h : Inv none2 s) : Inv none2 s.flushAll ∧ s.flushAll.clean := by
  have hmem : ∀ v k i, s.flushAll.mem v k i = (s.mem v k i).map fun e => ⟨e.n, false⟩ := by
    intro v k i
    show (s.mem v k i).map _ = _
    cases hm : s.mem v k i with
    | none => rfl
    | some e =>
      have := h.memSeg v k i (by rw [hm]; exact fun h => nomatch h)
      simp [this]
  have hdsk : ∀ v k i, s.flushAll.dsk v k i = s.cont v k i := by
    intro v k i
    show (match s.mem v k i with
      | none => s.dsk v k i
      | some e => if s.seg v k (i / 256) then some e.n else s.dsk v k i) = _
    unfold St.cont
    cases hm : s.mem v k i with
    | none => rfl
    | some e =>
      have := h.memSeg v k i (by rw [hm]; exact fun h => nomatch h)
      simp [this]
  have hc : ∀ v k i, s.flushAll.cont v k i = s.cont v k i := by
    intro v k i
    have h1 := hdsk v k i
    unfold St.cont at h1 ⊢
    rw [hmem, h1]
    cases s.mem v k i <;> rfl
  have hcl : ∀ v k i e, s.flushAll.mem v k i = some e → e.dirty = false := by
    intro v k i e he
    rw [hmem] at he
    cases hm : s.mem v k i with
    | none => rw [hm] at he; cases he
    | some e' => rw [hm] at he; cases he; rfl
  have hc' : s.flushAll.cont = s.cont := by funext v k i; exact hc v k i
  have hpm : ∀ k q, s.flushAll.pMain k q ↔ s.pMain k q := by
    intro k q
    cases k with
    | zero => exact Iff.rfl
    | succ k => unfold St.pMain; rw [hc']; exact Iff.rfl
  have f : Fr s s.flushAll := by
    refine ⟨rfl, rfl, rfl, rfl, ?_, ?_, fun z => z⟩
    · intro v k i
      rw [hmem]
      cases s.mem v k i <;> simp
    · intro v k i
      unfold St.view
      rw [hc]
  refine ⟨?_, rfl, hcl⟩
  refine h.ofFr f ?_ ?_ ?_ ?_ ?_ (fun _ => if_pos rfl) (fun _ _ _ z => z)
  · exact fun k p a b => (hpm k p).2 (h.nostray k p a b)
  · exact fun k p a b => h.hasseg k p a ((hpm k p).1 b)
  · intro v k i e a _
    rw [hdsk, ← hc]
    unfold St.cont
    rw [a]
  · intro v k i a
    rw [hdsk] at a
    show s.seg v k (i / 256) = true
    unfold St.cont at a
    cases hm : s.mem v k i with
    | none => rw [hm] at a; exact h.dskSeg v k i a
    | some e => exact h.memSeg v k i (by rw [hm]; exact fun h => nomatch h)
  · exact fun v k i a => h.memSeg v k i (fun z => a ((f.mem v k i).2 z))

/-- Nodes leave memory, and nothing is lost by that. -/
theorem Inv.drop (h : Inv none2 s) (mem : Nat → Nat → Nat → Option Ent) (rng : Nat → Nat → List Nat)
    (half : Nat → Bool)
    (h1 : ∀ v k i, mem v k i = s.mem v k i ∨ mem v k i = none ∧ s.cont v k i = s.dsk v k i)
    (h2 : ∀ k i, rng k i = s.rng k i ∨ rng k i = [])
    (h3 : ∀ i, half i = s.half i ∨ ∀ v, mem v 4 i = none) :
    Inv none2 { s with mem, rng, half } ∧ ({ s with mem, rng, half } : St).cont = s.cont := by
  have hc : ({ s with mem, rng, half } : St).cont = s.cont := by
    funext v k i
    show (match mem v k i with | some e => some e.n | none => s.dsk v k i) = _
    rcases h1 v k i with z | ⟨z, z'⟩
    · rw [z]; rfl
    · rw [z, z']
  refine ⟨?_, hc⟩
  have hloc : ∀ k i, ({ s with mem, rng, half } : St).loc k i = s.loc k i := fun k i => by
    refine loc_congr k ?_ (fun v k i j _ _ => by unfold St.ref; rw [hc]) k i (by omega)
    rfl
  have hcur : ({ s with mem, rng, half } : St).cur = s.cur := rfl
  have hsb : ({ s with mem, rng, half } : St).sb = s.sb := rfl
  have hpm : ∀ k q, ({ s with mem, rng, half } : St).pMain k q ↔ s.pMain k q := by
    intro k q
    cases k with
    | zero => exact Iff.rfl
    | succ k => unfold St.pMain; rw [hc]
  have hpc : ∀ k q, ({ s with mem, rng, half } : St).pChild k q = s.pChild k q := by
    intro k q
    cases k with
    | zero => rfl
    | succ k => simp only [St.pChild, hc]
  have hmm : ∀ v k i, mem v k i ≠ none → mem v k i = s.mem v k i := fun v k i z =>
    (h1 v k i).elim (fun h => h) (fun h => (z h.1).elim)
  exact {
    nostray := fun k p a b => (hpm k p).2 (h.nostray k p a b)
    hasseg := fun k p a b => h.hasseg k p a ((hpm k p).1 b)
    bound := fun k i _ b => by
      rw [hpc]
      rcases b with ⟨b1, b2⟩ | ⟨b1, b2, b3⟩
      · rw [hc] at b2
        exact h.bound k i (fun h => h) (.inl ⟨b1, b2⟩)
      · have b3 : mem s.cur 4 i ≠ none := b3
        have b2 : half i = false := b2
        refine h.bound k i (fun h => h) (.inr ⟨b1, ?_, by rw [← hmm _ _ _ b3]; exact b3⟩)
        rcases h3 i with z | z
        · rw [← z]; exact b2
        · exact (b3 (z _)).elim
    kids := by rw [hc]; exact h.kids
    root := by rw [hc]; exact h.root
    clean := fun v k i e a b => by
      have a : mem v k i = some e := a
      refine h.clean v k i e ?_ b
      rw [← hmm v k i (by rw [a]; exact fun h => nomatch h)]; exact a
    dskSeg := h.dskSeg
    memSeg := fun v k i a => by
      have a : mem v k i ≠ none := a
      exact h.memSeg v k i (by rw [← hmm v k i a]; exact a)
    sbClean := h.sbClean
    blocks := by unfold St.full; rw [hc]; exact h.blocks
    own := by rw [hc]; exact h.own
    rngOk := fun k i v l a b _ d e => by
      rw [hloc]
      have d : rng k i = v :: l := d
      have e : mem v k i ≠ none := e
      have b : k < 4 ∨ half i = false := b
      have d' : s.rng k i = v :: l := by
        rcases h2 k i with z | z
        · rw [← z]; exact d
        · rw [z] at d; cases d
      have e' : s.mem v k i ≠ none := by rw [← hmm v k i e]; exact e
      refine h.rngOk k i v l a ?_ (fun h => h) d' e'
      rcases b with b | b'
      · exact .inl b
      · by_cases hk : k < 4
        · exact .inl hk
        · have : k = 4 := by omega
          subst this
          rcases h3 i with z | z
          · exact .inr (by rw [← z]; exact b')
          · exact (e (z v)).elim }

theorem cont_clean (h : Inv none2 s) (hm : s.mem v k i = some e) (hd : e.dirty = false) :
    s.cont v k i = s.dsk v k i := by
  rw [h.clean v k i e hm hd]
  unfold St.cont
  rw [hm]

theorem Inv.evict (h : Inv none2 s) (v k i : Nat) : Inv none2 (s.evict v k i) := by
  unfold St.evict
  cases hm : s.mem v k i with
  | none => exact h
  | some e =>
    simp only
    cases hd : e.dirty with
    | true => exact h
    | false =>
      refine (h.drop (s.setMem v k i none).mem s.rng s.half ?_ (fun _ _ => .inl rfl) (fun _ => .inl rfl)).1
      intro v' k' i'
      rw [mem_setMem]
      by_cases hh : v' = v ∧ k' = k ∧ i' = i
      · rw [if_pos hh]
        obtain ⟨rfl, rfl, rfl⟩ := hh
        exact .inr ⟨rfl, cont_clean h hm hd⟩
      · rw [if_neg hh]; exact .inl rfl

theorem Inv.dropRng (h : Inv none2 s) (k i : Nat) : Inv none2 (s.dropRng k i) := by
  refine h.setRng _ (fun _ _ h => h) ?_
  intro k' i' v l _ hr
  by_cases hh : k' = k ∧ i' = i
  · rw [if_pos hh] at hr
    obtain ⟨rfl, rfl⟩ := hh
    cases hs : s.rng k' i' with
    | nil => rw [hs] at hr; cases hr
    | cons a t =>
      rw [hs] at hr
      cases t with
      | nil => cases hr
      | cons b t => cases hr; exact ⟨_, rfl⟩
  · rw [if_neg hh] at hr; exact ⟨l, hr⟩

theorem Inv.crash (h : Inv none2 s) (hc : s.clean) : Inv none2 s.crash ∧ s.crash.cont = s.cont ∧ s.crash.sb = s.sb := by
  have h1 := h.drop (fun _ _ _ => none) (fun _ _ => []) (fun _ => false) (fun v k i => by
    refine .inr ⟨rfl, ?_⟩
    cases hm : s.mem v k i with
    | none => unfold St.cont; rw [hm]
    | some e => exact cont_clean h hm (hc.2 v k i e hm)) (fun _ _ => .inr rfl) (fun _ => .inr fun _ => rfl)
  have : s.crash = { s with mem := fun _ _ _ => none, rng := fun _ _ => [], half := fun _ => false } := by
    unfold St.crash
    rw [h.sbClean hc.1]
    rw [← hc.1]
  rw [this]
  exact ⟨h1.1, h1.2, rfl⟩

theorem Inv.fork (h : Inv none2 s) (hf : s.fresh n) : Inv none2 (s.fork n) := by
  have hc : ∀ k i, s.cont n k i = none := by
    intro k i; unfold St.cont; rw [hf.1, hf.2.1]
  exact {
    nostray := fun k p _ b => by
      have b : s.seg n k p = true := b
      rw [hf.2.2] at b; cases b
    hasseg := fun k p _ b => by
      cases k with
      | zero => cases b.2
      | succ k =>
        obtain ⟨m, a, _⟩ : ∃ m, s.cont n k p = some m ∧ _ := b
        rw [hc] at a; cases a
    bound := fun k i _ b => by
      rcases b with ⟨_, b⟩ | ⟨_, _, b⟩
      · exact (b (hc k i)).elim
      · exact (b (hf.1 4 i)).elim
    kids := h.kids, root := h.root, clean := h.clean, dskSeg := h.dskSeg, memSeg := h.memSeg
    sbClean := fun _ => if_pos rfl
    blocks := h.blocks
    own := fun v k i m hk a b => (h.kids v k i m n hk a b (hc (k + 1) i)).elim
    rngOk := fun k i v l _ _ _ d => nomatch d }

theorem Does.inv {m : M α} (h : Does b m E Q s) : Inv none2 (m s).2 := by
  obtain ⟨r, s', he, hg, _⟩ := h
  rw [he]; exact hg.inv

theorem stage_does (h : Inv none2 s) (cow : Bool) (i : Nat) :
    Does true (stagePath cow 4 i) (Refusal s i) (Got cow 4 i s) s := by
  have := stagePath_spec (cow := cow) 0 4 i s rfl h
  rw [Nat.pow_zero, Nat.div_one] at this
  exact this

theorem grow_does (h : Inv none2 s) (hi : i < 256 ^ 4) :
    Does false (requirePath 4 i) (fun _ => False) (Got true 4 i s) s := by
  have := requirePath_spec 0 4 i s rfl hi h
  rw [Nat.pow_zero, Nat.div_one] at this
  exact this

theorem Inv.step (h : Inv none2 s) (hs : Step s s') : Inv none2 s' := by
  cases hs with
  | grow i io =>
    by_cases hi : i < 256 ^ 4
    · exact (grow_does (h.setIo io) hi).inv
    · have := requirePath_range 4 4 i { s with io } (by
        intro z
        exact hi ((Nat.div_eq_zero_iff.1 z).resolve_left (by decide))) (by omega)
      rw [Nat.sub_self, Nat.pow_zero, Nat.div_one] at this
      rw [this]
      exact h.setIo io
  | stage cow i io => exact (stage_does (h.setIo io) cow i).inv
  | mark i j b => exact h.mark i j b
  | rebind i j => exact h.rebind i j
  | put v b c =>
    unfold St.put
    by_cases hh : s.seg v 5 (b / 256) = true
    · rw [if_pos hh]
      exact h.congr rfl rfl rfl rfl rfl rfl rfl rfl (fun _ h => h)
    · rw [if_neg hh]; exact h
  | flush v k i => exact h.flush v k i
  | flushSb => exact h.flushSb
  | flushAll => exact h.flushAll.1
  | evict v k i => exact h.evict v k i
  | dropRng k i => exact h.dropRng k i

theorem Inv.init (c : Nat) : Inv none2 (.init c) where
  nostray := fun _ _ _ h => nomatch h
  hasseg := fun k p _ h => by
    cases k with
    | zero => cases h.2
    | succ k => obtain ⟨n, a, _⟩ := h; cases a
  bound := fun k i _ h => by
    rcases h with ⟨_, b⟩ | ⟨_, _, b⟩ <;> exact (b rfl).elim
  kids := fun _ _ _ _ _ _ h => nomatch h
  root := fun _ h => nomatch h
  clean := fun _ _ _ _ h => nomatch h
  dskSeg := fun _ _ _ h => (h rfl).elim
  memSeg := fun _ _ _ h => (h rfl).elim
  sbClean := fun _ => rfl
  blocks := fun _ _ _ _ h => nomatch h
  own := fun _ _ _ _ _ h => nomatch h
  rngOk := fun _ _ _ _ _ _ _ h => nomatch h

theorem Reach.inv (h : Reach s) : Inv none2 s := by
  induction h with
  | init c => exact .init c
  | step _ hs ih => exact ih.step hs
  | stop _ hc ih => exact (ih.crash hc).1
  | fork n _ hc hf ih => exact ih.fork hf

end Silofs.Stage
