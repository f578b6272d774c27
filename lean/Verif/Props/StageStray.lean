import Verif.Props.StageRun

/-! A segment file that nothing refers to stays in the way (C58). -/

set_option linter.unusedSimpArgs false
set_option linter.unusedVariables false

namespace Silofs.Stage

/-- No reference to volume `c`, and for a node of `c` no segment recorded. -/
def Node.poor (n : Node) (c v : Nat) : Prop := (∀ j, n.child j ≠ some c) ∧ (v = c → n.main = false)

/-- The segment of the nodes of level `k + 1` below node `p` exists, and no copy of node `p`, in memory or
on storage, knows of it. -/
structure Stray (k p : Nat) (s : St) : Prop where
  seg : s.seg s.cur (k + 1) p = true
  mem0 : ∀ i, i / 256 = p → s.mem s.cur (k + 1) i = none
  memP : ∀ v e, s.mem v k p = some e → e.n.poor s.cur v
  dskP : ∀ v n, s.dsk v k p = some n → n.poor s.cur v

def Tri (k p c : Nat) (m : M α) (Q : α → Prop) : Prop :=
  ∀ s, Stray k p s → s.cur = c → Stray k p (m s).2 ∧ (m s).2.cur = c ∧ ∀ a t, m s = (.ok a, t) → Q a

theorem Tri.bind {m : M α} {f : α → M β} (h : Tri k p c m Q) (hf : ∀ a, Q a → Tri k p c (f a) R) :
    Tri k p c (m >>= f) R := by
  intro s hs hc
  obtain ⟨h1, h2, h3⟩ := h s hs hc
  have he : (m >>= f) s = M.bind m f s := rfl
  rw [he]
  unfold M.bind
  cases hm : m s with
  | mk r s' =>
    rw [hm] at h1 h2 h3
    cases r with
    | err e => exact ⟨h1, h2, fun _ _ z => nomatch z⟩
    | ok a => exact hf a (h3 a s' rfl) s' h1 h2

theorem Tri.mono {m : M α} (h : Tri k p c m Q) (hq : ∀ a, Q a → R a) : Tri k p c m R := fun s a b =>
  ⟨(h s a b).1, (h s a b).2.1, fun x t z => hq x ((h s a b).2.2 x t z)⟩

theorem Tri.pure {α : Type} {a : α} {Q : α → Prop} (h : Q a) : Tri k p c (Pure.pure a : M α) Q := fun s hs hc =>
  ⟨hs, hc, fun b t z => by cases z; exact h⟩

theorem Tri.fail {α : Type} {Q : α → Prop} (e : Nat) : Tri k p c (Stage.fail e : M α) Q := fun s hs hc =>
  ⟨hs, hc, fun b t z => by cases z⟩

theorem Tri.get {α : Type} {Q : α → Prop} (f : St → α) (h : ∀ s, Stray k p s → s.cur = c → Q (f s)) :
    Tri k p c (Stage.get f) Q := fun s hs hc => ⟨hs, hc, fun b t z => by cases z; exact h s hs hc⟩

theorem Tri.upd (f : St → St) (h : ∀ s, Stray k p s → s.cur = c → Stray k p (f s) ∧ (f s).cur = c) :
    Tri k p c (Stage.upd f) (fun _ => True) := fun s hs hc => ⟨(h s hs hc).1, (h s hs hc).2, fun _ _ _ => trivial⟩

theorem Tri.ite {m m' : M α} [Decidable d] (h : d → Tri k p c m Q) (h' : ¬ d → Tri k p c m' Q) :
    Tri k p c (if d then m else m') Q := by
  by_cases z : d
  · rw [if_pos z]; exact h z
  · rw [if_neg z]; exact h' z

theorem Stray.setIo (h : Stray k p s) (io : List Nat) : Stray k p { s with io } :=
  ⟨h.seg, h.mem0, h.memP, h.dskP⟩

theorem Tri.sys : Tri k p c sys (fun _ => True) := by
  intro s hs hc
  rcases sys_cases s with ⟨io, h, _⟩ | ⟨e, io, h, _⟩ <;> rw [h] <;>
    exact ⟨hs.setIo io, hc, fun _ _ _ => trivial⟩

theorem Stray.mkSeg (h : Stray k p s) (v k' p' : Nat) : Stray k p (s.mkSeg v k' p') := by
  refine ⟨mkSeg_mono _ _ _ _ _ _ _ h.seg, h.mem0, h.memP, ?_⟩
  intro v' n hd
  have hd : (if v' = v ∧ k = k' ∧ p / 256 = p' then none else s.dsk v' k p) = some n := hd
  by_cases z : v' = v ∧ k = k' ∧ p / 256 = p'
  · rw [if_pos z] at hd; cases hd
  · rw [if_neg z] at hd; exact h.dskP v' n hd

theorem tri_requireLseg (v k' p' : Nat) : Tri k p c (requireLseg v k' p') (fun _ => True) := by
  intro s hs hc
  rcases requireLseg_cases v k' p' s with ⟨_, a⟩ | ⟨a, ⟨io, _, e⟩ | ⟨e', io, _, e⟩⟩
  · rw [a]; exact Tri.sys s hs hc
  · rw [e]; exact ⟨(hs.setIo io).mkSeg v k' p', hc, fun _ _ _ => trivial⟩
  · rw [e]; exact ⟨hs.setIo io, hc, fun _ _ _ => trivial⟩

theorem tri_stageLseg (v k' p' : Nat) : Tri k p c (stageLseg v k' p') (fun _ => True) :=
  .bind .sys fun _ _ => .bind (.get (Q := fun _ => True) _ (fun _ _ _ => trivial)) fun _ _ => .ite (fun _ => .pure trivial) (fun _ => .fail _)

/-- It is in the way. -/
theorem tri_spawnLseg (k' p' : Nat) : Tri k p c (spawnLseg c k' p') (fun _ => ¬ (k' = k + 1 ∧ p' = p)) := by
  intro s hs hc
  cases h : s.seg c k' p' with
  | true =>
    rw [spawnLseg_exists _ _ _ _ h]
    exact ⟨hs, hc, fun _ _ z => nomatch z⟩
  | false =>
    have hn : ¬ (k' = k + 1 ∧ p' = p) := by
      rintro ⟨rfl, rfl⟩
      have := hs.seg
      rw [hc, h] at this; cases this
    rcases spawnLseg_cases c k' p' s h with ⟨io, _, e⟩ | ⟨e', io, _, e⟩
    · rw [e]; exact ⟨(hs.setIo io).mkSeg c k' p', hc, fun _ _ _ => hn⟩
    · rw [e]; exact ⟨hs.setIo io, hc, fun _ _ _ => hn⟩

/-- A change of a node. -/
theorem Stray.setMem (h : Stray k p s) (e : Ent) (h1 : ¬ (v = s.cur ∧ k' = k + 1 ∧ i / 256 = p))
    (h2 : k' = k → i = p → e.n.poor s.cur v) : Stray k p (s.setMem v k' i (some e)) := by
  refine ⟨h.seg, ?_, ?_, h.dskP⟩
  · intro i' hi'
    rw [mem_setMem]
    have : ¬ (s.cur = v ∧ k + 1 = k' ∧ i' = i) := by
      rintro ⟨rfl, rfl, rfl⟩; exact h1 ⟨rfl, rfl, hi'⟩
    exact (if_neg this).trans (h.mem0 i' hi')
  · intro v' e' he
    rw [mem_setMem] at he
    by_cases z : v' = v ∧ k = k' ∧ p = i
    · rw [if_pos z] at he
      cases he
      obtain ⟨rfl, rfl, rfl⟩ := z
      exact h2 rfl rfl
    · rw [if_neg z] at he; exact h.memP v' e' he

theorem Stray.modNode (h : Stray k p s) (f : Node → Node)
    (h2 : k' = k → i = p → ∀ n : Node, n.poor s.cur v → (f n).poor s.cur v) :
    Stray k p (s.modNode v k' i f) ∧ (s.modNode v k' i f).cur = s.cur := by
  unfold St.modNode
  cases hm : s.mem v k' i with
  | none => exact ⟨h, rfl⟩
  | some e =>
    refine ⟨h.setMem _ ?_ ?_, rfl⟩
    · rintro ⟨rfl, rfl, hi⟩
      rw [h.mem0 i hi] at hm; cases hm
    · rintro rfl rfl
      exact h2 rfl rfl e.n (h.memP v e hm)

theorem Stray.setMain (h : Stray k p s) (hn : ¬ (k' = k + 1 ∧ p' = p)) :
    Stray k p (s.setMain v k' p') ∧ (s.setMain v k' p').cur = s.cur := by
  cases k' with
  | zero => exact ⟨⟨h.seg, h.mem0, h.memP, h.dskP⟩, rfl⟩
  | succ k' =>
    unfold St.setMain
    exact h.modNode (k' := k') _ (fun a b => (hn ⟨by rw [a], b⟩).elim)

theorem Stray.setChild (h : Stray k p s) (hn : ¬ (k' = k + 1 ∧ i / 256 = p)) :
    Stray k p (s.setChild v k' i c) ∧ (s.setChild v k' i c).cur = s.cur := by
  cases k' with
  | zero => exact ⟨⟨h.seg, h.mem0, h.memP, h.dskP⟩, rfl⟩
  | succ k' =>
    unfold St.setChild
    exact h.modNode (k' := k') _ (fun a b => (hn ⟨by rw [a], b⟩).elim)

theorem Stray.rng (h : Stray k p s) (rng : Nat → Nat → List Nat) : Stray k p { s with rng } :=
  ⟨h.seg, h.mem0, h.memP, h.dskP⟩

theorem Stray.track (h : Stray k p s) (v k' i : Nat) :
    Stray k p (s.track v k' i) ∧ (s.track v k' i).cur = s.cur := by
  unfold St.track
  by_cases z : s.rng k' i = []
  · rw [if_pos z]; exact ⟨h.rng _, rfl⟩
  · rw [if_neg z]; exact ⟨h, rfl⟩

theorem Stray.forget (h : Stray k p s) (v k' i : Nat) :
    Stray k p (s.forget v k' i) ∧ (s.forget v k' i).cur = s.cur := by
  refine ⟨⟨h.seg, ?_, ?_, h.dskP⟩, rfl⟩
  · intro i' hi'
    show (s.setMem v k' i none).mem s.cur (k + 1) i' = none
    rw [mem_setMem]
    by_cases z : s.cur = v ∧ k + 1 = k' ∧ i' = i
    · rw [if_pos z]
    · rw [if_neg z]; exact h.mem0 i' hi'
  · intro v' e' he
    have he : (s.setMem v k' i none).mem v' k p = some e' := he
    rw [mem_setMem] at he
    by_cases z : v' = v ∧ k = k' ∧ p = i
    · rw [if_pos z] at he; cases he
    · rw [if_neg z] at he; exact h.memP v' e' he

theorem tri_requireMain (pv k' p' : Nat) (hp : k' ≠ 0 → pv = c) :
    Tri k p c (requireMain pv k' p') (fun _ => ¬ (k' = k + 1 ∧ p' = p)) := by
  refine .bind (Q := fun a => a = c) (.get _ (fun _ _ z => z)) ?_
  rintro _ rfl
  rename_i c'
  refine .bind (Q := fun a => a = true → ¬ (k' = k + 1 ∧ p' = p)) (.get _ ?_) ?_
  · rintro s hs hc hg ⟨rfl, rfl⟩
    have := hp (by omega)
    subst this
    simp only [St.getMain] at hg
    cases hm : s.mem pv k p' with
    | none => rw [hm] at hg; cases hg
    | some e =>
      rw [hm] at hg
      have := (hs.memP pv e hm).2 hc.symm
      simp only at hg
      rw [this] at hg; cases hg
  · intro a ha
    refine .ite (fun z => (tri_stageLseg _ _ _).mono (fun _ _ => ha z)) (fun _ => ?_)
    refine .bind (tri_spawnLseg _ _) (fun _ hn => ?_)
    refine (Tri.upd _ ?_).mono (fun _ _ => hn)
    intro s hs hc
    exact ⟨(hs.setMain hn).1, (hs.setMain hn).2.trans hc⟩

theorem tri_spawnU (k' i : Nat) (hn : ¬ (k' = k + 1 ∧ i / 256 = p)) :
    Tri k p c (spawnU c k' i) (fun _ => True) := by
  intro s hs hc
  have hp : ∀ v, ({} : Node).poor c v := fun v => ⟨(fun _ z => nomatch z), fun _ => rfl⟩
  unfold spawnU
  cases hm : s.mem c k' i with
  | some e =>
    obtain ⟨h1, h2⟩ := hs.track c k' i
    refine ⟨h1.setMem _ (fun z => hn z.2) (fun _ _ => ?_), h2.trans hc, fun _ _ _ => trivial⟩
    rw [h2, hc]; exact hp c
  | none =>
    simp only
    obtain ⟨h1, h2, _⟩ := tri_requireLseg (k := k) (p := p) (c := c) c k' (i / 256) s hs hc
    cases hr : requireLseg c k' (i / 256) s with
    | mk r s' =>
      rw [hr] at h1 h2
      cases r with
      | err e => exact ⟨(h1.forget c k' i).1, h2, fun _ _ _ => trivial⟩
      | ok a =>
        refine ⟨(h1.rng _).setMem _ (fun z => hn z.2) (fun _ _ => ?_), h2, fun _ _ _ => trivial⟩
        have h2 : s'.cur = c := h2
        show ({} : Node).poor s'.cur c
        rw [h2]; exact hp c

theorem tri_stageU (w k' i : Nat) (hn : ¬ (w = c ∧ k' = k + 1 ∧ i / 256 = p)) :
    Tri k p c (stageU w k' i) (fun _ => True) := by
  intro s hs hc
  unfold stageU
  cases hm : s.mem w k' i with
  | some e =>
    obtain ⟨h1, h2⟩ := hs.track w k' i
    exact ⟨h1, h2.trans hc, fun _ _ _ => trivial⟩
  | none =>
    simp only
    have hl : Tri k p c (loadU w k' i) (fun n => k' = k → i = p → n.poor c w) := by
      refine .bind (tri_requireLseg _ _ _) fun _ _ => .bind .sys fun _ _ => ?_
      refine .bind (Q := fun a => ∀ n, a = some n → k' = k → i = p → n.poor c w) (.get _ ?_) ?_
      · rintro s hs hc n hd rfl rfl
        have := hs.dskP w n hd
        rw [hc] at this; exact this
      · intro a ha
        cases a with
        | none => exact .fail _
        | some n => exact .pure (ha n rfl)
    obtain ⟨h1, h2, h3⟩ := hl s hs hc
    cases hr : loadU w k' i s with
    | mk r s' =>
      rw [hr] at h1 h2 h3
      have h2 : s'.cur = c := h2
      cases r with
      | err e => exact ⟨(h1.forget w k' i).1, h2, fun _ _ _ => trivial⟩
      | ok n =>
        refine ⟨(h1.rng _).setMem _ (fun z => hn ⟨z.1.trans h2, z.2⟩) (fun a b => ?_), h2, fun _ _ _ => trivial⟩
        show n.poor s'.cur w
        rw [h2]
        exact h3 n s' rfl a b

theorem tri_leafMain (i : Nat) (hk : k ≤ 3) : Tri k p c (leafMain' i) (fun _ => True) := by
  have h : Tri k p c (leafMain i) (fun _ => True) := by
    refine .bind (Q := fun a => a = c) (.get _ (fun _ _ z => z)) ?_
    rintro _ rfl
    refine .bind (.get (Q := fun _ => True) _ (fun _ _ _ => trivial)) fun _ _ => ?_
    refine .ite (fun _ => tri_stageLseg _ _ _) (fun _ => .bind (tri_requireLseg _ _ _) fun _ _ => .upd _ ?_)
    intro s hs hc
    have := hs.modNode (k' := 4) (i := i) (v := s.cur) (bindBlocks s.cur) (fun z => by omega)
    rw [hc] at this
    exact this
  intro s hs hc
  obtain ⟨h1, h2, _⟩ := h s hs hc
  unfold leafMain'
  cases hr : leafMain i s with
  | mk r s' =>
    rw [hr] at h1 h2
    cases r with
    | err e => exact ⟨⟨h1.seg, h1.mem0, h1.memP, h1.dskP⟩, h2, fun _ _ _ => trivial⟩
    | ok a => exact ⟨h1, h2, fun _ _ _ => trivial⟩

theorem tri_spawnNode (pv k' i : Nat) (hk : k ≤ 3) (hp : k' ≠ 0 → pv = c) :
    Tri k p c (spawnNode pv k' i) (fun _ => ¬ (k' = k + 1 ∧ i / 256 = p)) := by
  refine .bind (tri_requireMain pv k' _ hp) (fun _ hn => ?_)
  refine .bind (Q := fun a => a = c) (.get _ (fun _ _ z => z)) ?_
  rintro _ rfl
  refine .bind (tri_spawnU _ _ hn) (fun _ _ => ?_)
  exact (Tri.ite (fun _ => tri_leafMain i hk) (fun _ => .pure trivial)).mono (fun _ _ => hn)

theorem tri_cloneNode (pv k' i w : Nat) (hk : k ≤ 3) (hp : k' ≠ 0 → pv = c) :
    Tri k p c (cloneNode pv k' i w) (fun _ => ¬ (k' = k + 1 ∧ i / 256 = p)) := by
  refine .bind (Q := fun a => ∀ e, a = some e → k' = k → i = p → ∀ j, e.n.child j ≠ some c) (.get _ ?_) ?_
  · rintro s hs hc e he rfl rfl
    have := (hs.memP w e he).1
    rw [hc] at this; exact this
  · intro old hold
    refine .bind (tri_spawnNode pv k' i hk hp) (fun _ hn => ?_)
    refine .bind (Q := fun a => a = c) (.get _ (fun _ _ z => z)) ?_
    rintro _ rfl
    rename_i c'
    have hset : Tri k p c' (Stage.upd (·.setChild pv k' i c')) (fun _ => ¬ (k' = k + 1 ∧ i / 256 = p)) :=
      (Tri.upd _ fun s hs hc => ⟨(hs.setChild hn).1, (hs.setChild hn).2.trans hc⟩).mono (fun _ _ => hn)
    cases old with
    | none => exact hset
    | some e =>
      refine .bind (.upd _ fun s hs hc => ?_) fun _ _ => hset
      have := hs.modNode (k' := k') (i := i) (v := s.cur) (cloneFrom e.n) (fun a b n hn' =>
        ⟨fun j => by rw [hc]; exact hold e rfl a b j, hn'.2⟩)
      rw [hc] at this
      exact this

/-- What it takes to be given a node for writing. -/
def Free (k p c : Nat) (cow : Bool) (k' i v : Nat) : Prop :=
  cow = true → v = c ∧ ¬ (k' = k + 1 ∧ i / 256 = p)

theorem tri_stageNode (cow : Bool) (pv k' i : Nat) (hk : k ≤ 3) (hp : cow = true → k' ≠ 0 → pv = c) :
    Tri k p c (stageNode cow pv k' i) (Free k p c cow k' i) := by
  refine .bind (Q := fun a => ∀ v, a = some v → Free k p c cow k' i v) (.get _ ?_) ?_
  · intro s hs hc v hf hcow
    obtain ⟨_, hm, hv⟩ := fetch_some hf
    have hv := hv hcow
    refine ⟨hv.trans hc, ?_⟩
    rintro ⟨rfl, hi⟩
    rw [hv, hs.mem0 i hi] at hm
    exact hm rfl
  · intro a ha
    cases a with
    | some v => exact .pure (ha v rfl)
    | none =>
      refine .bind (Q := fun a => ∀ w, a = some w → k' = k + 1 → i / 256 = p → w ≠ c) (.get _ ?_) ?_
      · rintro s hs hc w hg rfl rfl rfl
        simp only [St.getChild] at hg
        cases hm : s.mem pv k (i / 256) with
        | none => rw [hm] at hg; cases hg
        | some e =>
          rw [hm] at hg
          exact (hs.memP pv e hm).1 _ (hc ▸ hg)
      · intro a ha
        cases a with
        | none => exact .fail _
        | some w =>
          refine .bind (tri_stageU w k' i ?_) (fun _ _ => ?_)
          · rintro ⟨z, hk', hi⟩
            exact ha w rfl hk' hi z
          · refine .bind (Q := fun a => a = c) (.get _ (fun _ _ z => z)) ?_
            rintro _ rfl
            refine .ite (fun z => ?_) (fun z => .pure ?_)
            · exact .bind (tri_cloneNode pv k' i w hk (hp z.1)) fun _ hn => .pure fun _ => ⟨rfl, hn⟩
            · intro hcow
              have hw := Decidable.of_not_not fun y => z ⟨hcow, y⟩
              refine ⟨hw, ?_⟩
              rintro ⟨hk', hi⟩
              exact ha w rfl hk' hi hw

theorem tri_requireNode (pv k' i : Nat) (hk : k ≤ 3) (hp : k' ≠ 0 → pv = c) :
    Tri k p c (requireNode pv k' i) (fun v => v = c ∧ ¬ (k' = k + 1 ∧ i / 256 = p)) := by
  refine .bind (Q := fun a => ∀ v, a = some v → v = c ∧ ¬ (k' = k + 1 ∧ i / 256 = p)) (.get _ ?_) ?_
  · intro s hs hc v hf
    by_cases h4 : k' < 4
    · rw [if_pos h4] at hf
      obtain ⟨_, hm, hv⟩ := fetch_some hf
      have hv := hv rfl
      refine ⟨hv.trans hc, ?_⟩
      rintro ⟨rfl, hi⟩
      rw [hv, hs.mem0 i hi] at hm
      exact hm rfl
    · rw [if_neg h4] at hf; cases hf
  · intro a ha
    cases a with
    | some v => exact .pure (ha v rfl)
    | none =>
      refine .bind (.get (Q := fun _ => True) _ (fun _ _ _ => trivial)) fun a _ => ?_
      cases a with
      | some w => exact (tri_stageNode true pv k' i hk (fun _ => hp)).mono fun v h => h rfl
      | none =>
        refine .bind (tri_spawnNode pv k' i hk hp) (fun _ hn => ?_)
        refine .bind (Q := fun a => a = c) (.get _ (fun _ _ z => z)) ?_
        rintro _ rfl
        refine .bind (.upd _ fun s hs hc => ⟨(hs.setChild hn).1, (hs.setChild hn).2.trans hc⟩) fun _ _ => ?_
        exact .pure ⟨rfl, hn⟩

theorem tri_stagePath (cow : Bool) (hk : k ≤ 3) : ∀ k' i,
    Tri k p c (stagePath cow k' i) (fun v => cow = true → v = c) := by
  intro k'
  induction k' with
  | zero =>
    intro i
    unfold stagePath
    exact .ite (fun _ => (tri_stageNode cow 0 0 0 hk (fun _ z => absurd rfl z)).mono fun _ h z => (h z).1)
      (fun _ => .fail _)
  | succ k' ih =>
    intro i
    unfold stagePath
    exact .bind (ih _) fun pv hpv =>
      (tri_stageNode cow pv (k' + 1) i hk (fun z _ => hpv z)).mono fun _ h z => (h z).1

theorem tri_requirePath (hk : k ≤ 3) : ∀ k' i, Tri k p c (requirePath k' i)
    (fun v => v = c ∧ (k + 1 ≤ k' → i / 256 ^ (k' - (k + 1)) / 256 ≠ p)) := by
  intro k'
  induction k' with
  | zero =>
    intro i
    unfold requirePath
    exact .ite (fun _ => (tri_requireNode 0 0 0 hk (fun z => absurd rfl z)).mono fun _ h => ⟨h.1, fun z => by omega⟩)
      (fun _ => .fail _)
  | succ k' ih =>
    intro i
    unfold requirePath
    refine .bind (ih _) fun pv hpv => (tri_requireNode pv (k' + 1) i hk (fun _ => hpv.1)).mono fun v h => ⟨h.1, ?_⟩
    intro hle
    by_cases he : k' = k
    · subst he
      rw [Nat.sub_self, Nat.pow_zero, Nat.div_one]
      exact fun z => h.2 ⟨rfl, z⟩
    · have := hpv.2 (by omega)
      rw [show k' + 1 - (k + 1) = (k' - (k + 1)) + 1 from by omega, Nat.pow_succ', ← Nat.div_div_eq_div_mul]
      exact this

/-! ### It stays -/

theorem Stray.step (h : Stray k p s) (hk : k ≤ 3) (hs : Step s s') : Stray k p s' := by
  cases hs with
  | grow i io => exact (tri_requirePath hk 4 i { s with io } (h.setIo io) rfl).1
  | stage cow i io => exact (tri_stagePath cow hk 4 i { s with io } (h.setIo io) rfl).1
  | mark i j b => exact (h.modNode _ (fun z => by omega)).1
  | rebind i j =>
    unfold St.rebind
    by_cases z : s.getMain s.cur 5 i = true
    · rw [if_pos z]; exact (h.modNode _ (fun z => by omega)).1
    · rw [if_neg z]; exact h
  | put v b c =>
    unfold St.put
    by_cases z : s.seg v 5 (b / 256) = true
    · rw [if_pos z]; exact ⟨h.seg, h.mem0, h.memP, h.dskP⟩
    · rw [if_neg z]; exact h
  | flush v k' i =>
    unfold St.flush
    cases hm : s.mem v k' i with
    | none => exact h
    | some e =>
      simp only
      cases z : s.seg v k' (i / 256) with
      | false => exact h
      | true =>
        have h' : Stray k p (s.setMem v k' i (some ⟨e.n, false⟩)) := by
          refine h.setMem _ ?_ ?_
          · rintro ⟨rfl, rfl, hi⟩
            rw [h.mem0 i hi] at hm; cases hm
          · rintro rfl rfl
            exact h.memP v e hm
        refine ⟨h'.seg, h'.mem0, h'.memP, ?_⟩
        intro v' n hd
        have hd : (if v' = v ∧ k = k' ∧ p = i then some e.n else s.dsk v' k p) = some n := hd
        by_cases y : v' = v ∧ k = k' ∧ p = i
        · rw [if_pos y] at hd
          cases hd
          obtain ⟨rfl, rfl, rfl⟩ := y
          exact h.memP v' e hm
        · rw [if_neg y] at hd; exact h.dskP v' n hd
  | flushSb => exact ⟨h.seg, h.mem0, h.memP, h.dskP⟩
  | flushAll =>
    refine ⟨h.seg, ?_, ?_, ?_⟩
    · intro i hi
      show (s.mem s.cur (k + 1) i).map _ = none
      rw [h.mem0 i hi]; rfl
    · intro v e he
      have he : (s.mem v k p).map (fun e => (⟨e.n, e.dirty && !s.seg v k (p / 256)⟩ : Ent)) = some e := he
      cases hm : s.mem v k p with
      | none => rw [hm] at he; cases he
      | some e' => rw [hm] at he; cases he; exact h.memP v e' hm
    · intro v n hd
      have hd : (match s.mem v k p with
        | none => s.dsk v k p
        | some e => if s.seg v k (p / 256) then some e.n else s.dsk v k p) = some n := hd
      cases hm : s.mem v k p with
      | none => rw [hm] at hd; exact h.dskP v n hd
      | some e =>
        rw [hm] at hd
        simp only at hd
        by_cases z : s.seg v k (p / 256) = true
        · rw [if_pos z] at hd; cases hd; exact h.memP v e hm
        · rw [if_neg z] at hd; exact h.dskP v n hd
  | evict v k' i =>
    unfold St.evict
    cases hm : s.mem v k' i with
    | none => exact h
    | some e =>
      simp only
      cases e.dirty with
      | true => exact h
      | false =>
        refine ⟨h.seg, ?_, ?_, h.dskP⟩
        · intro i' hi'
          show (s.setMem v k' i none).mem s.cur (k + 1) i' = none
          rw [mem_setMem]
          by_cases z : s.cur = v ∧ k + 1 = k' ∧ i' = i
          · rw [if_pos z]
          · rw [if_neg z]; exact h.mem0 i' hi'
        · intro v' e' he
          have he : (s.setMem v k' i none).mem v' k p = some e' := he
          rw [mem_setMem] at he
          by_cases z : v' = v ∧ k = k' ∧ p = i
          · rw [if_pos z] at he; cases he
          · rw [if_neg z] at he; exact h.memP v' e' he
  | dropRng k' i => exact h.rng _

theorem Stray.later (h : Stray k p s) (hk : k ≤ 3) (hl : Later s s') : Stray k p s' := by
  induction hl with
  | refl => exact h
  | step _ hs ih => exact ih.step hk hs
  | crash _ ih => exact ⟨ih.seg, (fun _ _ => rfl), (fun _ _ z => nomatch z), ih.dskP⟩

end Silofs.Stage
