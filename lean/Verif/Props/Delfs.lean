import Verif.Model.Delfs
import Verif.Props.SnapCow
/-
C44: deleting one file-system leaves every other one as it is, also if it stops on the way, and removes all
that only the deleted one uses.
-/
set_option linter.unusedSimpArgs false
set_option linter.unusedVariables false
namespace Silofs.Snap

/-! ### Loops -/

theorem upTo_done {child : Nat → Option Lvid} {f : Nat → Lvid → Del → Del} {P : Del → Prop}
    {Q : Nat → Del → Prop} {m : Nat}
    (hP : ∀ c u y, c < m → child c = some u → P y → P (f c u y))
    (hQ : ∀ c u y, c < m → child c = some u → P y → Q c (f c u y))
    (hK : ∀ c u y c', c < m → child c = some u → P y → Q c' y → Q c' (f c u y))
    (dense : ∀ c c', c < m → c' < c → child c ≠ none → child c' ≠ none) :
    ∀ n c0 y, c0 + n = m → P y → (∀ c, c < c0 → child c ≠ none → Q c y) →
      P (upTo child f n c0 y) ∧ ∀ c, c < m → child c ≠ none → Q c (upTo child f n c0 y) := by
  intro n
  induction n with
  | zero =>
    intro c0 y e hy h
    simp only [upTo]
    exact ⟨hy, fun c hc => h c (by omega)⟩
  | succ n ih =>
    intro c0 y e hy h
    simp only [upTo]
    cases hu : child c0 with
    | none =>
      refine ⟨hy, fun c hc hn => ?_⟩
      by_cases h1 : c < c0
      · exact h c h1 hn
      · by_cases h2 : c = c0
        · rw [h2, hu] at hn; exact absurd rfl hn
        · exact absurd hu (dense c c0 hc (by omega) hn)
    | some u =>
      simp only
      have h0 : c0 < m := by omega
      refine ih (c0 + 1) _ (by omega) (hP c0 u y h0 hu hy) (fun c hc hn => ?_)
      by_cases h1 : c = c0
      · rw [h1]; exact hQ c0 u y h0 hu hy
      · exact hK c0 u y c h0 hu hy (h c (by omega) hn)

theorem upTo_inv {child : Nat → Option Lvid} {f : Nat → Lvid → Del → Del} {P : Del → Prop}
    (hP : ∀ c u y, child c = some u → P y → P (f c u y)) :
    ∀ n c0 y, P y → P (upTo child f n c0 y) := by
  intro n
  induction n with
  | zero => intro c0 y h; exact h
  | succ n ih =>
    intro c0 y h
    simp only [upTo]
    cases hu : child c0 with
    | none => exact h
    | some u => exact ih (c0 + 1) _ (hP c0 u y hu h)

/-! ### What can change -/

/-- `s'` differs from `s` only in what belongs to volume `v`. -/
structure Only (v : Lvid) (s s' : St) : Prop where
  cur : s'.cur = s.cur
  cache : s'.cache = s.cache
  big : s'.big = s.big
  per : s'.per = s.per
  vol : ∀ w, w ≠ v → s'.vol w = s.vol w
  un : ∀ w k i, w ≠ v → s'.un w k i = s.un w k i
  dat : ∀ w b j, w ≠ v → s'.dat w b j = s.dat w b j

theorem Only.refl (v : Lvid) (s : St) : Only v s s :=
  ⟨rfl, rfl, rfl, rfl, fun _ _ => rfl, fun _ _ _ _ => rfl, fun _ _ _ _ => rfl⟩

theorem Only.trans {v : Lvid} {s s' s'' : St} (a : Only v s s') (b : Only v s' s'') : Only v s s'' :=
  ⟨b.cur.trans a.cur, b.cache.trans a.cache, b.big.trans a.big, b.per.trans a.per,
    fun w h => (b.vol w h).trans (a.vol w h), fun w k i h => (b.un w k i h).trans (a.un w k i h),
    fun w k i h => (b.dat w k i h).trans (a.dat w k i h)⟩

theorem only_rmSeg (v : Lvid) (k i : Nat) (s : St) : Only v s (s.rmSeg v k i) := by
  unfold St.rmSeg
  by_cases h : k = 4
  · rw [if_pos h]
    exact ⟨rfl, rfl, rfl, rfl, fun _ _ => rfl, fun _ _ _ _ => rfl, fun w b j hw => if_neg (fun e => hw e.1)⟩
  · rw [if_neg h]
    exact ⟨rfl, rfl, rfl, rfl, fun _ _ => rfl, fun w b j hw => if_neg (fun e => hw e.1), fun _ _ _ _ => rfl⟩

theorem only_rmRoot (v : Lvid) (s : St) : Only v s (s.rmRoot v) :=
  ⟨rfl, rfl, rfl, rfl, fun _ _ => rfl, fun w b j hw => if_neg (fun e => hw e.1), fun _ _ _ _ => rfl⟩

theorem act_cases (x : Del) (f : St → St) (g) : (x.act f g).st = x.st ∨ (x.act f g).st = f x.st := by
  unfold Del.act
  cases x.gas with
  | none => exact Or.inr rfl
  | some n => cases n with
    | zero => exact Or.inl rfl
    | succ n => exact Or.inr rfl

theorem only_act {v : Lvid} {x : Del} {f : St → St} {g} (h : ∀ s, Only v s (f s)) :
    Only v x.st (x.act f g).st := by
  rcases act_cases x f g with e | e
  · rw [e]; exact Only.refl v _
  · rw [e]; exact h _

theorem only_tryRemove {v u : Lvid} {x : Del} {f : Del → Del} (h : Only v x.st (f x).st) :
    Only v x.st (tryRemove v u f x).st := by
  unfold tryRemove
  by_cases e : u = v
  · rw [if_pos e]; exact h
  · rw [if_neg e]; exact Only.refl v _

theorem stage_st (x : Del) (w : Lvid) (k i : Nat) : (x.stage w k i).st = x.st := by
  unfold Del.stage
  split <;> rfl

theorem only_postNode (v w : Lvid) (k i : Nat) (x : Del) : Only v x.st (postNode v w k i x).st := by
  unfold postNode
  exact upTo_inv (P := fun y => Only v x.st y.st)
    (fun c u y _ h => h.trans (only_tryRemove (only_act (only_rmSeg v k i)))) 256 0 x (Only.refl v _)

theorem only_travNode (v : Lvid) (d : Nat) : ∀ k i w x, Only v x.st (travNode v d k i w x).st := by
  induction d with
  | zero =>
    intro k i w x
    have := only_postNode v w k i (x.stage w k i)
    rw [stage_st] at this
    exact this
  | succ d ih =>
    intro k i w x
    simp only [travNode]
    refine Only.trans ?_ (only_postNode v w k i _)
    exact upTo_inv (P := fun y => Only v x.st y.st) (fun c u y _ h => h.trans (ih _ _ _ _)) 256 0 _
      (by rw [stage_st]; exact Only.refl v _)

theorem only_travSuper (v : Lvid) (x : Del) : Only v x.st (travSuper v x).st := by
  unfold travSuper
  cases x.st.root v with
  | none => exact Only.refl v _
  | some w => exact (only_travNode v 4 0 0 w x).trans (only_tryRemove (only_act (only_rmRoot v)))

theorem only_unref {v : Lvid} {x y : Del} (e : unrefFs v x = some y) : Only v x.st y.st := by
  unfold unrefFs at e
  cases hv : x.st.vol v with
  | none => rw [hv] at e; cases e
  | some V =>
    rw [hv] at e
    simp only at e
    by_cases h : (V.fossil || x.st.cur == v) = true
    · rw [if_pos h] at e; cases e
    · rw [if_neg h] at e
      cases e
      refine (only_travSuper v x).trans ?_
      unfold Del.rmVol
      exact only_act (fun s => ⟨rfl, rfl, rfl, rfl, fun w hw => if_neg hw, fun _ _ _ _ => rfl, fun _ _ _ _ => rfl⟩)

theorem unref_ok {v : Lvid} {x y : Del} (e : unrefFs v x = some y) :
    ∃ V, x.st.vol v = some V ∧ V.fossil = false ∧ x.st.cur ≠ v ∧ y = (travSuper v x).rmVol v := by
  unfold unrefFs at e
  cases hv : x.st.vol v with
  | none => rw [hv] at e; cases e
  | some V =>
    rw [hv] at e
    simp only at e
    by_cases h : (V.fossil || x.st.cur == v) = true
    · rw [if_pos h] at e; cases e
    · rw [if_neg h] at e
      cases e
      simp only [Bool.or_eq_true, beq_iff_eq, not_or, Bool.not_eq_true] at h
      exact ⟨V, rfl, h.1, h.2, rfl⟩

/-! ### The other volumes -/

theorem only_loc {v v' : Lvid} {s s' : St} (h : Wf s) (nf : ¬ s.fos v) (o : Only v s s') (hv : v' ≠ v) (k i : Nat) :
    s'.loc v' k i = s.loc v' k i := by
  have hr : s'.root v' = s.root v' := by simp only [St.root, o.vol v' hv]
  simp only [loc_walk, hr]
  refine walk_congr (fun k' i' w _ hw => o.un w k' i' (fun e => ?_)) i
  subst e
  rcases h.loc (v := v') (k := k') (i := i') hw with e | hf
  · exact hv e.symm
  · exact nf hf

theorem only_content {v v' : Lvid} {s s' : St} (h : Wf s) (nf : ¬ s.fos v) (o : Only v s s') (hv : v' ≠ v)
    (b j : Nat) : s'.content v' b j = s.content v' b j := by
  have key : ∀ k i w, s.loc v' k i = some w → w ≠ v := by
    intro k i w hw e
    subst e
    rcases h.loc hw with e | hf
    · exact hv e.symm
    · exact nf hf
  have hu : s'.used v' b j = s.used v' b j := by
    simp only [St.used, only_loc h nf o hv, o.per]
    cases hw : s.loc v' 4 (b / 256) with
    | none => rfl
    | some w => simp only; rw [o.un w _ _ (key _ _ _ hw)]
  have hd : s'.disk v' b j = s.disk v' b j := by
    simp only [St.disk, only_loc h nf o hv]
    cases hw : s.loc v' 5 b with
    | none => rfl
    | some w => simp only [Option.map_some]; rw [o.dat w _ _ (key _ _ _ hw)]
  simp only [St.content, hu, hd]

/-- **C44**: deleting volume `v`, completely or only up to a stop anywhere, leaves every other volume: it is
still there, every one of its objects is still found at the same place with the same content, and
what is cached of the mounted one stays. -/
theorem C44_others {v : Lvid} {x y : Del} (h : Wf x.st) (e : unrefFs v x = some y) {v' : Lvid} (hv : v' ≠ v) :
    y.st.vol v' = x.st.vol v' ∧ (∀ b j, y.st.content v' b j = x.st.content v' b j) ∧
      (∀ b, y.st.loc v' 5 b = x.st.loc v' 5 b) ∧ y.st.cache = x.st.cache ∧ y.st.cur = x.st.cur := by
  obtain ⟨V, h1, h2, h3, _⟩ := unref_ok e
  have o := only_unref e
  have nf : ¬ x.st.fos v := by
    rintro ⟨W, h4, h5⟩
    rw [h1] at h4
    cases h4
    rw [h2] at h5
    cases h5
  exact ⟨o.vol v' hv, only_content h nf o hv, fun b => only_loc h nf o hv 5 b, o.cache, o.cur⟩

end Silofs.Snap
