import Verif.Spec.Stage

/-! Invariant of the space maps in memory and on storage (C58), and that every function keeps it. -/

set_option linter.unusedSimpArgs false
set_option linter.unusedVariables false

namespace Silofs.Stage

/-! ### Invariant -/

/-- The parent of the nodes of segment `(cur, k, p)` has recorded that segment. -/
def St.pMain (s : St) : Nat → Nat → Prop
  | 0, p => p = 0 ∧ s.sb.main = true
  | k + 1, p => ∃ n, s.cont s.cur k p = some n ∧ n.main = true

/-- Reference to node `i` of level `k` in its parent of the mounted volume. -/
def St.pChild (s : St) : Nat → Nat → Option Nat
  | 0, i => if i = 0 then s.sb.root else none
  | k + 1, i => (s.cont s.cur k (i / 256)).bind fun n => n.child (i % 256)

/-- A node of the mounted volume that its parent must refer to: of a leaf only when it is in memory. -/
def St.here (s : St) (k i : Nat) : Prop :=
  k < 4 ∧ s.cont s.cur k i ≠ none ∨ k = 4 ∧ s.half i = false ∧ s.mem s.cur 4 i ≠ none

/-- Every block of the leaf is in a segment that is there. -/
def St.full (s : St) (w i : Nat) : Prop :=
  ∀ m, s.cont w 4 i = some m → ∀ q, ∃ u, m.child q = some u ∧ s.seg u 5 i = true

/-- `x` is the node that is just being made. -/
structure Inv (x : Nat → Nat → Prop) (s : St) : Prop where
  nostray : ∀ k p, k ≤ 4 → s.seg s.cur k p = true → s.pMain k p
  hasseg : ∀ k p, k ≤ 5 → s.pMain k p → s.seg s.cur k p = true
  bound : ∀ k i, ¬ x k i → s.here k i → s.pChild k i = some s.cur
  kids : ∀ v k i n w, k < 4 → s.cont v k (i / 256) = some n → n.child (i % 256) = some w →
    s.cont w (k + 1) i ≠ none
  root : ∀ w, s.sb.root = some w → s.cont w 0 0 ≠ none
  clean : ∀ v k i e, s.mem v k i = some e → e.dirty = false → s.dsk v k i = some e.n
  dskSeg : ∀ v k i, s.dsk v k i ≠ none → s.seg v k (i / 256) = true
  memSeg : ∀ v k i, s.mem v k i ≠ none → s.seg v k (i / 256) = true
  sbClean : s.sbDirty = false → s.sbD s.cur = s.sb
  blocks : ∀ v i n w, s.cont v 3 (i / 256) = some n → n.child (i % 256) = some w → s.full w i
  own : ∀ v k i n, k < 4 → s.cont v k (i / 256) = some n → n.child (i % 256) = some s.cur → v = s.cur
  rngOk : ∀ k i v l, k ≤ 4 → (k < 4 ∨ s.half i = false) → ¬ x k i → s.rng k i = v :: l →
    s.mem v k i ≠ none → s.loc k i = some v

def none2 : Nat → Nat → Prop := fun _ _ => False
def one (k i : Nat) : Nat → Nat → Prop := fun k' i' => k' = k ∧ i' = i

/-! ### Ways down -/

/-- Reference `j` of a node. -/
def St.ref (s : St) (v k i j : Nat) : Option Nat := (s.cont v k i).bind fun n => n.child j

theorem loc_succ (s : St) (k i : Nat) :
    s.loc (k + 1) i = (s.loc k (i / 256)).bind fun v => s.ref v k (i / 256) (i % 256) := by
  rw [St.loc]
  cases s.loc k (i / 256) with
  | none => rfl
  | some v =>
    show (match s.cont v k (i / 256) with
      | none => none
      | some n => n.child (i % 256)) = s.ref v k (i / 256) (i % 256)
    unfold St.ref
    cases s.cont v k (i / 256) <;> rfl

theorem loc_congr {s s' : St} (m : Nat) (hr : s'.sb.root = s.sb.root)
    (h : ∀ v k i j, k < m → s.loc k i = some v → s'.ref v k i j = s.ref v k i j) :
    ∀ k i, k ≤ m → s'.loc k i = s.loc k i := by
  intro k
  induction k with
  | zero => intro i _; simp only [St.loc, hr]
  | succ k ih =>
    intro i hk
    rw [loc_succ, loc_succ, ih _ (by omega)]
    cases hl : s.loc k (i / 256) with
    | none => rfl
    | some v => exact h v k _ _ (by omega) hl

/-- Nodes of the mounted volume are on the way down. -/
theorem loc_cur {s : St} (hb : ∀ k i, k < m → s.here k i → s.pChild k i = some s.cur) :
    ∀ k i, k < m → s.here k i → s.loc k i = some s.cur := by
  intro k
  induction k with
  | zero => intro i hm hc; exact hb 0 i hm hc
  | succ k ih =>
    intro i hm hc
    have h := hb (k + 1) i hm hc
    have hp : s.cont s.cur k (i / 256) ≠ none := by
      intro h0
      simp only [St.pChild, h0, Option.bind_none] at h
      cases h
    have h4 : k < 4 := by
      rcases hc with ⟨h, _⟩ | ⟨h, _⟩ <;> omega
    rw [loc_succ, ih _ (by omega) (.inl ⟨h4, hp⟩)]
    exact h

/-! ### Changes that do not matter -/

theorem Inv.congr (h : Inv x s) (h1 : s'.cur = s.cur) (h2 : s'.sb = s.sb) (h3 : s'.sbDirty = s.sbDirty)
    (h4 : s'.mem = s.mem) (h5 : s'.sbD = s.sbD) (h6 : s'.dsk = s.dsk) (h7 : s'.seg = s.seg)
    (h8 : s'.rng = s.rng) (h9 : ∀ i, s'.half i = false → s.half i = false) : Inv x s' := by
  have hh : ∀ k i, s'.here k i → s.here k i := by
    intro k i hh
    unfold St.here at hh ⊢
    rw [show s'.cont = s.cont from by funext v k i; unfold St.cont; rw [h4, h6], h4, h1] at hh
    rcases hh with hh | ⟨a, b, c⟩
    · exact .inl hh
    · exact .inr ⟨a, h9 i b, c⟩
  have hc : s'.cont = s.cont := by funext v k i; unfold St.cont; rw [h4, h6]
  have hl : ∀ k i, s'.loc k i = s.loc k i := fun k i =>
    loc_congr k (by rw [h2]) (fun v k i j _ _ => by unfold St.ref; rw [hc]) k i (by omega)
  have hm : s'.pMain = s.pMain := by
    funext k p; cases k <;> simp only [St.pMain, hc, h2, h1]
  have hp : s'.pChild = s.pChild := by
    funext k p; cases k <;> simp only [St.pChild, hc, h2, h1]
  exact {
    nostray := by rw [h1, h7, hm]; exact h.nostray
    hasseg := by rw [h1, h7, hm]; exact h.hasseg
    bound := by rw [h1, hp]; exact fun k i a b => h.bound k i a (hh k i b)
    kids := by rw [hc]; exact h.kids
    root := by rw [hc, h2]; exact h.root
    clean := by rw [h4, h6]; exact h.clean
    dskSeg := by rw [h6, h7]; exact h.dskSeg
    memSeg := by rw [h4, h7]; exact h.memSeg
    sbClean := by rw [h3, h5, h1, h2]; exact h.sbClean
    rngOk := by
      intro k i v l a b
      rw [h8, h4, hl]
      exact h.rngOk k i v l a (b.imp_right (h9 i))
    blocks := by unfold St.full; rw [hc, h7]; exact h.blocks
    own := by rw [hc, h1]; exact h.own }

theorem Inv.weaken (h : Inv x s) (hx : ∀ k i, x k i → y k i) : Inv y s :=
  { h with
    bound := fun k i a => h.bound k i (fun c => a (hx _ _ c))
    rngOk := fun k i v l b a c => h.rngOk k i v l b a (fun d => c (hx _ _ d)) }

theorem sys_cases (s : St) :
    (∃ io, sys s = (.ok (), { s with io }) ∧ (s.io = [] → io = [])) ∨
    ∃ e io, sys s = (.err e, { s with io }) ∧ s.io ≠ [] := by
  unfold sys
  cases h : s.io with
  | nil =>
    refine .inl ⟨[], ?_, fun _ => rfl⟩
    have : { s with io := [] } = s := by rw [← h]
    rw [this]
  | cons e io =>
    by_cases he : e = 0
    · exact .inl ⟨io, by simp only [if_pos he], fun h => nomatch h⟩
    · exact .inr ⟨e, io, by simp only [if_neg he], fun h => nomatch h⟩

theorem Inv.setIo (h : Inv x s) (io : List Nat) : Inv x { s with io } :=
  h.congr rfl rfl rfl rfl rfl rfl rfl rfl (fun _ h => h)

/-! ### Content -/

theorem cont_setMem (s : St) (v k i : Nat) (e : Ent) (v' k' i' : Nat) :
    (s.setMem v k i (some e)).cont v' k' i' =
      if v' = v ∧ k' = k ∧ i' = i then some e.n else s.cont v' k' i' := by
  unfold St.cont
  show (match (if v' = v ∧ k' = k ∧ i' = i then some e else s.mem v' k' i') with
      | some e => some e.n | none => s.dsk v' k' i') = _
  by_cases h : v' = v ∧ k' = k ∧ i' = i
  · rw [if_pos h, if_pos h]
  · rw [if_neg h, if_neg h]; rfl

theorem mem_setMem (s : St) (v k i : Nat) (e : Option Ent) (v' k' i' : Nat) :
    (s.setMem v k i e).mem v' k' i' = if v' = v ∧ k' = k ∧ i' = i then e else s.mem v' k' i' := rfl

/-- The content of a node of the mounted volume is set. -/
theorem Inv.setNode (h : Inv x s) (n : Node)
    (hseg : s.seg s.cur k (i / 256) = true)
    (hm : k < 4 → s.seg s.cur (k + 1) i = true → n.main = true)
    (hm2 : k ≤ 4 → n.main = true → s.seg s.cur (k + 1) i = true)
    (hb : ∀ j, j / 256 = i → ¬ x (k + 1) j → s.here (k + 1) j → n.child (j % 256) = some s.cur)
    (hx : (k < 4 ∨ s.half i = false) → ¬ x k i → s.pChild k i = some s.cur)
    (hk : ∀ j w, k < 4 → j / 256 = i → n.child (j % 256) = some w → s.cont w (k + 1) j ≠ none)
    (hf3 : k = 3 → ∀ j w, j / 256 = i → n.child (j % 256) = some w → s.full w j)
    (hf4 : k = 4 → s.pChild 4 i = some s.cur → ∀ q, ∃ u, n.child q = some u ∧ s.seg u 5 i = true)
    (hr : ∀ k' i' v l, k' ≤ 4 → (k' < 4 ∨ s.half i' = false) → ¬ x k' i' → s.rng k' i' = v :: l →
      (s.mem v k' i' ≠ none ∨ v = s.cur ∧ k' = k ∧ i' = i) →
      (s.setMem s.cur k i (some ⟨n, true⟩)).loc k' i' = some v) :
    Inv x (s.setMem s.cur k i (some ⟨n, true⟩)) := by
  have hc := fun v k' i' => cont_setMem s s.cur k i ⟨n, true⟩ v k' i'
  have hcs : ∀ v k' i', s.cont v k' i' ≠ none → (s.setMem s.cur k i (some ⟨n, true⟩)).cont v k' i' ≠ none := by
    intro v k' i' h0
    rw [hc]
    by_cases hh : v = s.cur ∧ k' = k ∧ i' = i
    · rw [if_pos hh]; exact fun h => nomatch h
    · rw [if_neg hh]; exact h0
  refine {
    nostray := ?_
    hasseg := ?_
    bound := ?_
    kids := ?_
    root := fun w hw => hcs _ _ _ (h.root w hw)
    clean := ?_
    dskSeg := h.dskSeg
    memSeg := ?_
    sbClean := h.sbClean
    rngOk := ?_
    blocks := ?_
    own := ?_ }
  · intro k' p hk' hs
    have hs : s.seg s.cur k' p = true := hs
    cases k' with
    | zero => exact h.nostray 0 p hk' hs
    | succ k' =>
      show ∃ n', (s.setMem s.cur k i (some ⟨n, true⟩)).cont s.cur k' p = some n' ∧ n'.main = true
      rw [hc]
      by_cases hh : s.cur = s.cur ∧ k' = k ∧ p = i
      · rw [if_pos hh]
        obtain ⟨_, rfl, rfl⟩ := hh
        exact ⟨n, rfl, hm (by omega) hs⟩
      · rw [if_neg hh]
        exact h.nostray (k' + 1) p hk' hs
  · intro k' p hk' hs
    show s.seg s.cur k' p = true
    cases k' with
    | zero => exact h.hasseg 0 p hk' hs
    | succ k' =>
      obtain ⟨n', h1, h2⟩ : ∃ n', (s.setMem s.cur k i (some ⟨n, true⟩)).cont s.cur k' p = some n' ∧
        n'.main = true := hs
      rw [hc] at h1
      by_cases hh : s.cur = s.cur ∧ k' = k ∧ p = i
      · rw [if_pos hh] at h1
        obtain ⟨_, rfl, rfl⟩ := hh
        cases h1
        exact hm2 (by omega) h2
      · rw [if_neg hh] at h1
        exact h.hasseg (k' + 1) p hk' ⟨n', h1, h2⟩
  · intro k' i' hx' hcn
    show (s.setMem s.cur k i (some ⟨n, true⟩)).pChild k' i' = some s.cur
    have hold : s.here k' i' ∨ (k' = k ∧ i' = i ∧ (k < 4 ∨ s.half i = false)) := by
      by_cases hh : s.cur = s.cur ∧ k' = k ∧ i' = i
      · refine .inr ⟨hh.2.1, hh.2.2, ?_⟩
        rcases hcn with ⟨a, _⟩ | ⟨_, b, _⟩
        · exact .inl (by omega)
        · exact .inr (hh.2.2 ▸ b)
      · left
        rcases hcn with ⟨a, b⟩ | ⟨a, b, c⟩
        · have b : (s.setMem s.cur k i (some ⟨n, true⟩)).cont s.cur k' i' ≠ none := b
          rw [hc, if_neg hh] at b
          exact .inl ⟨a, b⟩
        · have c : (s.setMem s.cur k i (some ⟨n, true⟩)).mem s.cur 4 i' ≠ none := c
          rw [mem_setMem, if_neg (a ▸ hh)] at c
          exact .inr ⟨a, b, c⟩
    have hpc : s.pChild k' i' = some s.cur := by
      rcases hold with h1 | ⟨rfl, rfl, h3⟩
      · exact h.bound k' i' hx' h1
      · exact hx h3 hx'
    cases k' with
    | zero => exact hpc
    | succ k' =>
      show ((s.setMem s.cur k i (some ⟨n, true⟩)).cont s.cur k' (i' / 256)).bind _ = _
      rw [hc]
      by_cases hh : s.cur = s.cur ∧ k' = k ∧ i' / 256 = i
      · rw [if_pos hh]
        obtain ⟨_, rfl, h2⟩ := hh
        rcases hold with h1 | ⟨h1, _⟩
        · exact hb i' h2 hx' h1
        · omega
      · rw [if_neg hh]; exact hpc
  · intro v k' i' n' w hk' h1 h2
    rw [hc] at h1
    by_cases hh : v = s.cur ∧ k' = k ∧ i' / 256 = i
    · rw [if_pos hh] at h1
      cases h1
      obtain ⟨_, rfl, h3⟩ := hh
      exact hcs _ _ _ (hk i' w hk' h3 h2)
    · rw [if_neg hh] at h1
      exact hcs _ _ _ (h.kids v k' i' n' w hk' h1 h2)
  · intro v k' i' e h1 h2
    rw [mem_setMem] at h1
    by_cases hh : v = s.cur ∧ k' = k ∧ i' = i
    · rw [if_pos hh] at h1; cases h1; cases h2
    · rw [if_neg hh] at h1; exact h.clean v k' i' e h1 h2
  · intro v k' i' h1
    rw [mem_setMem] at h1
    by_cases hh : v = s.cur ∧ k' = k ∧ i' = i
    · obtain ⟨rfl, rfl, rfl⟩ := hh; exact hseg
    · rw [if_neg hh] at h1; exact h.memSeg v k' i' h1
  · intro v i' n' w h1 h2 m h3
    rw [hc] at h1 h3
    by_cases hh : w = s.cur ∧ 4 = k ∧ i' = i
    · rw [if_pos hh] at h3
      rw [if_neg (fun z => by omega)] at h1
      cases h3
      obtain ⟨rfl, rfl, rfl⟩ := hh
      have := h.own v 3 i' n' (by omega) h1 h2
      subst this
      refine hf4 rfl ?_
      simp only [St.pChild, h1, Option.bind_some]
      exact h2
    · rw [if_neg hh] at h3
      by_cases hh' : v = s.cur ∧ 3 = k ∧ i' / 256 = i
      · rw [if_pos hh'] at h1
        cases h1
        exact hf3 hh'.2.1.symm i' w hh'.2.2 h2 m h3
      · rw [if_neg hh'] at h1
        exact h.blocks v i' n' w h1 h2 m h3
  · intro v k' i' n' hk' h1 h2
    rw [hc] at h1
    by_cases hh : v = s.cur ∧ k' = k ∧ i' / 256 = i
    · exact hh.1
    · rw [if_neg hh] at h1
      exact h.own v k' i' n' hk' h1 h2
  · intro k' i' v l a hf b c d
    refine hr k' i' v l a hf b c ?_
    have d : (s.setMem s.cur k i (some ⟨n, true⟩)).mem v k' i' ≠ none := d
    rw [mem_setMem] at d
    by_cases hh : v = s.cur ∧ k' = k ∧ i' = i
    · exact .inr hh
    · rw [if_neg hh] at d; exact .inl d

end Silofs.Stage
