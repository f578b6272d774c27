import Verif.Model.Snap
/-
C24 and C25: what copy-on-write of the space maps keeps.
-/
set_option linter.unusedSimpArgs false
set_option linter.unusedVariables false
namespace Silofs.Snap

/-! ### Resolving depends on the nodes along the way -/

theorem walk_congr {un un' : Lvid → Nat → Nat → UNode} {r : Option Lvid} {k : Nat}
    (h : ∀ k' i w, k' < k → walk un r k' i = some w → un' w k' i = un w k' i) :
    ∀ i, walk un' r k i = walk un r k i := by
  induction k with
  | zero => intro i; rfl
  | succ k ih =>
    intro i
    have e := ih (fun k' i w hk hw => h k' i w (by omega) hw) (i / 256)
    simp only [walk, e]
    cases hw : walk un r k (i / 256) with
    | none => rfl
    | some w => simp only; rw [h k _ w (by omega) hw]

/-- A node of another volume, or a missing one, becomes a node of the mounted volume. -/
theorem walk_bind {un un' : Lvid → Nat → Nat → UNode} {r : Option Lvid} {k p c : Nat} {v : Lvid}
    (hc : c < 256)
    (hp : walk un r k p = some v)
    (hun : ∀ w k' i, (w, k', i) ≠ (v, k, p) → (w, k', i) ≠ (v, k + 1, p * 256 + c) → un' w k' i = un w k' i)
    (hchild : (un' v k p).child = fun c' => if c' = c then some v else (un v k p).child c') :
    (∀ k', k' ≤ k → ∀ i, walk un' r k' i = walk un r k' i) ∧
    (∀ i, walk un' r (k + 1) i = if i = p * 256 + c then some v else walk un r (k + 1) i) := by
  have low : ∀ k', k' ≤ k → ∀ i, walk un' r k' i = walk un r k' i := by
    intro k' hk
    refine walk_congr (fun k'' i w hk'' _ => hun w k'' i ?_ ?_)
    · intro e; simp only [Prod.mk.injEq] at e; omega
    · intro e; simp only [Prod.mk.injEq] at e; omega
  refine ⟨low, fun i => ?_⟩
  simp only [walk, low k (Nat.le_refl k)]
  by_cases hi : i = p * 256 + c
  · have h1 : i / 256 = p := by omega
    have h2 : i % 256 = c := by omega
    rw [if_pos hi, h1, hp]
    simp only [hchild, h2, if_true]
  · rw [if_neg hi]
    cases hw : walk un r k (i / 256) with
    | none => rfl
    | some w =>
      simp only
      by_cases e : w = v ∧ i / 256 = p
      · obtain ⟨e1, e2⟩ := e
        subst e1
        rw [e2, hchild]
        have : i % 256 ≠ c := by omega
        simp only [if_neg this]
      · rw [hun w k (i / 256) (by simp only [Ne, Prod.mk.injEq]; exact fun h => e ⟨h.1, h.2.2⟩) (by simp only [Ne, Prod.mk.injEq]; omega)]

/-- Below: the levels after the rebound node see the same children. -/
theorem walk_bind_deep {un un' : Lvid → Nat → Nat → UNode} {r : Option Lvid} {k p c : Nat} {v : Lvid}
    (hc : c < 256)
    (hp : walk un r k p = some v)
    (hun : ∀ w k' i, (w, k', i) ≠ (v, k, p) → (w, k', i) ≠ (v, k + 1, p * 256 + c) → un' w k' i = un w k' i)
    (hchild : (un' v k p).child = fun c' => if c' = c then some v else (un v k p).child c')
    (hcopy : ∀ c', (un' v (k + 1) (p * 256 + c)).child c' =
      match walk un r (k + 1) (p * 256 + c) with
      | none => none
      | some w => (un w (k + 1) (p * 256 + c)).child c') :
    ∀ d i, walk un' r (k + 2 + d) i = walk un r (k + 2 + d) i := by
  have hk1 := (walk_bind hc hp hun hchild).2
  intro d
  induction d with
  | zero =>
    intro i
    show walk un' r (k + 1 + 1) i = walk un r (k + 1 + 1) i
    have e1 : walk un' r (k + 1 + 1) i =
      match walk un' r (k + 1) (i / 256) with
      | none => none
      | some w => (un' w (k + 1) (i / 256)).child (i % 256) := rfl
    have e2 : walk un r (k + 1 + 1) i =
      match walk un r (k + 1) (i / 256) with
      | none => none
      | some w => (un w (k + 1) (i / 256)).child (i % 256) := rfl
    rw [e1, e2, hk1]
    by_cases hi : i / 256 = p * 256 + c
    · rw [if_pos hi, hi]
      exact hcopy (i % 256)
    · rw [if_neg hi]
      cases hw : walk un r (k + 1) (i / 256) with
      | none => rfl
      | some w =>
        simp only
        rw [hun w (k + 1) (i / 256) (by simp only [Ne, Prod.mk.injEq]; omega) (by simp only [Ne, Prod.mk.injEq]; omega)]
  | succ d ih =>
    intro i
    have e1 : walk un' r (k + 2 + (d + 1)) i =
      match walk un' r (k + 2 + d) (i / 256) with
      | none => none
      | some w => (un' w (k + 2 + d) (i / 256)).child (i % 256) := rfl
    have e2 : walk un r (k + 2 + (d + 1)) i =
      match walk un r (k + 2 + d) (i / 256) with
      | none => none
      | some w => (un w (k + 2 + d) (i / 256)).child (i % 256) := rfl
    rw [e1, e2, ih]
    cases hw : walk un r (k + 2 + d) (i / 256) with
    | none => rfl
    | some w =>
      simp only
      rw [hun w (k + 2 + d) (i / 256) (by simp only [Ne, Prod.mk.injEq]; omega) (by simp only [Ne, Prod.mk.injEq]; omega)]

/-! ### Only the mounted volume is written -/

/-- `s'` differs from `s` only in what belongs to the mounted volume. -/
structure Own (s s' : St) : Prop where
  cur : s'.cur = s.cur
  vol : ∀ v, v ≠ s.cur → s'.vol v = s.vol v
  fos : ∀ V, s.vol s.cur = some V → ∃ V', s'.vol s.cur = some V' ∧ V'.fossil = V.fossil
  un : ∀ v k i, v ≠ s.cur → s'.un v k i = s.un v k i
  dat : ∀ v b j, v ≠ s.cur → s'.dat v b j = s.dat v b j
  big : s'.big = s.big
  per : s'.per = s.per

theorem Own.refl (s : St) : Own s s :=
  ⟨rfl, fun _ _ => rfl, fun V h => ⟨V, h, rfl⟩, fun _ _ _ _ => rfl, fun _ _ _ _ => rfl, rfl, rfl⟩

theorem Own.trans {s s' s'' : St} (a : Own s s') (b : Own s' s'') : Own s s'' where
  cur := b.cur.trans a.cur
  vol v h := (b.vol v (by rw [a.cur]; exact h)).trans (a.vol v h)
  fos V h := by
    obtain ⟨V', h1, h2⟩ := a.fos V h
    rw [← a.cur] at h1
    obtain ⟨V'', h3, h4⟩ := b.fos V' h1
    rw [a.cur] at h3
    exact ⟨V'', h3, h4.trans h2⟩
  un v k i h := (b.un v k i (by rw [a.cur]; exact h)).trans (a.un v k i h)
  dat v k i h := (b.dat v k i (by rw [a.cur]; exact h)).trans (a.dat v k i h)
  big := b.big.trans a.big
  per := b.per.trans a.per

theorem Own.mut {s s' : St} (a : Own s s') (h : s.mut = true) : s'.mut = true := by
  unfold St.mut at *
  rw [a.cur]
  cases hv : s.vol s.cur with
  | none => rw [hv] at h; cases h
  | some V =>
    obtain ⟨V', h1, h2⟩ := a.fos V hv
    rw [hv] at h
    rw [h1]; simp only [h2]; exact h

theorem own_setUn (s : St) (k i : Nat) (n : UNode) : Own s (s.setUn k i n) :=
  ⟨rfl, fun _ _ => rfl, fun V h => ⟨V, h, rfl⟩,
    fun v k' i' h => by simp only [St.setUn]; rw [if_neg (fun e => h e.1)], fun _ _ _ _ => rfl, rfl, rfl⟩

theorem own_setRoot (s : St) : Own s s.setRoot :=
  ⟨rfl, fun v h => by simp only [St.setRoot]; rw [if_neg h],
    fun V h => ⟨{ V with root := some s.cur }, by simp [St.setRoot, h], rfl⟩,
    fun v k' i' h => rfl, fun _ _ _ _ => rfl, rfl, rfl⟩

theorem own_bind (s : St) (k i c : Nat) : Own s (s.bind k i c) := own_setUn _ _ _ _

theorem own_setCache (s : St) (b j : Nat) (e : Option Ent) : Own s (s.setCache b j e) :=
  ⟨rfl, fun _ _ => rfl, fun V h => ⟨V, h, rfl⟩, fun _ _ _ _ => rfl, fun _ _ _ _ => rfl, rfl, rfl⟩

theorem own_setUsed (b j : Nat) (x : Bool) (s : St) : Own s (setUsed b j x s) := own_setUn _ _ _ _

theorem own_redirty (raw : Bool) (b j : Nat) (s : St) : Own s (redirty raw b j s) :=
  ⟨rfl, fun _ _ => rfl, fun V h => ⟨V, h, rfl⟩, fun _ _ _ _ => rfl, fun _ _ _ _ => rfl, rfl, rfl⟩

theorem own_cow (mk : Bool) (k : Nat) : ∀ i s, Own s (cow mk k i s).1 := by
  induction k with
  | zero =>
    intro i s
    simp only [cow]
    split
    · split
      · split
        · exact Own.refl s
        · exact (own_setUn _ _ _ _).trans (own_setRoot _)
      · split
        · exact (own_setUn _ _ _ _).trans (own_setRoot _)
        · exact Own.refl s
    · exact Own.refl s
  | succ k ih =>
    intro i s
    have h := ih (i / 256) s
    simp only [cow]
    split
    · rename_i s' e; rw [e] at h; exact h
    · rename_i s' e
      rw [e] at h
      split
      · split
        · exact h
        · exact h.trans ((own_setUn _ _ _ _).trans (own_bind _ _ _ _))
      · split
        · exact h.trans ((own_setUn _ _ _ _).trans (own_bind _ _ _ _))
        · exact h

theorem cow_cache (mk : Bool) (k : Nat) : ∀ i s, (cow mk k i s).1.cache = s.cache ∧ (cow mk k i s).1.dat = s.dat := by
  induction k with
  | zero =>
    intro i s
    simp only [cow]
    split
    · split
      · split <;> exact ⟨rfl, rfl⟩
      · split <;> exact ⟨rfl, rfl⟩
    · exact ⟨rfl, rfl⟩
  | succ k ih =>
    intro i s
    have h := ih (i / 256) s
    simp only [cow]
    split
    · rename_i s' e; rw [e] at h; exact h
    · rename_i s' e
      rw [e] at h
      split
      · split
        · exact h
        · exact h
      · split
        · exact h
        · exact h

theorem own_load {b j : Nat} {s s' : St} (h : load b j s = some s') : Own s s' := by
  unfold load at h
  split at h
  · cases h; exact Own.refl s
  · split at h
    · split at h
      · cases h
      · cases h; exact own_setCache _ _ _ _
    · cases h

theorem own_preClone {raw : Bool} {b j n : Nat} : ∀ {s s' : St}, preClone raw b j n s = some s' → Own s s' := by
  induction n with
  | zero => intro s s' h; cases h; exact Own.refl s
  | succ n ih =>
    intro s s' h
    simp only [preClone] at h
    split at h
    · cases h
    · rename_i s1 e
      have h1 := ih e
      split at h
      · exact h1.trans (own_load h)
      · cases h; exact h1

theorem own_cowBlk {raw : Bool} {b j : Nat} {s s' : St} (h : cowBlk raw b j s = some s') : Own s s' := by
  have hc := own_cow false 4 (b / 256) s
  unfold cowBlk at h
  split at h
  · cases h
  · rename_i s1 e
    rw [e] at hc
    split at h
    · cases h
    · split at h
      · cases h; exact hc
      · split at h
        · cases h
        · rename_i s2 e2
          cases h
          exact hc.trans ((own_preClone e2).trans ((own_bind _ _ _ _).trans (own_redirty _ _ _ _)))

theorem own_failClone {raw : Bool} {b j : Nat} {s s' : St} (h : failClone raw b j s = some s') : Own s s' := by
  have hc := own_cow false 4 (b / 256) s
  unfold failClone at h
  split at h
  · cases h
  · rename_i s1 e
    rw [e] at hc
    split at h
    · cases h
    · rename_i s2 e2
      cases h
      exact hc.trans ((own_preClone e2).trans (own_redirty _ _ _ _))

theorem own_stageCow {raw : Bool} {b j : Nat} {s s' : St} (h : stageCow raw b j s = some s') : Own s s' := by
  unfold stageCow at h
  split at h
  · split at h
    · cases h; exact Own.refl s
    · split at h
      · cases h
      · rename_i s1 e; cases h; exact (own_cowBlk e).trans (own_setCache _ _ _ _)
  · split at h
    · split at h
      · cases h
      · rename_i s1 e; cases h; exact (own_cowBlk e).trans (own_setCache _ _ _ _)
    · cases h

theorem own_write {b j : Nat} {g} {s s' : St} (h : write b j g s = some s') : Own s s' := by
  unfold write at h
  rw [Option.map_eq_some_iff] at h
  obtain ⟨s1, e, rfl⟩ := h
  exact (own_stageCow e).trans (own_setCache _ _ _ _)

theorem own_spawn {b j : Nat} {s s' : St} (h : spawn b j s = some s') : Own s s' := by
  have hc := own_cow true 4 (b / 256) s
  unfold spawn at h
  split at h
  · cases h
  · rename_i s1 e
    rw [e] at hc
    split at h
    · cases h
    · rw [Option.map_eq_some_iff] at h
      obtain ⟨s2, e2, rfl⟩ := h
      exact hc.trans ((own_setUsed _ _ _ _).trans ((own_stageCow e2).trans (own_setCache _ _ _ _)))

theorem own_free {b j : Nat} {s s' : St} (h : free b j s = some s') : Own s s' := by
  unfold free at h
  split at h
  · cases h
  · rename_i s1 e
    split at h
    · cases h
      exact (own_cowBlk e).trans ((own_setUsed _ _ _ _).trans (own_setCache _ _ _ _))
    · cases h

theorem own_flush {b j : Nat} {s s' : St} (h : flush b j s = some s') : Own s s' := by
  unfold flush at h
  split at h
  · cases h
  · split at h
    · split at h <;> cases h
      refine ⟨rfl, fun _ _ => rfl, fun V h => ⟨V, h, rfl⟩, fun _ _ _ _ => rfl, fun v b' j' hv => ?_, rfl, rfl⟩
      simp only [St.setCache]
      rw [if_neg (fun e => hv e.1)]
    · cases h

theorem own_evict {b j : Nat} {s s' : St} (h : evict b j s = some s') : Own s s' := by
  unfold evict at h
  split at h
  · cases h
  · split at h
    · cases h
    · cases h; exact own_setCache _ _ _ _

end Silofs.Snap
