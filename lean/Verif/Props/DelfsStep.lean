import Verif.Props.DelfsHeld
import Verif.Props.Snap
/-
C44: what is stored in a volume is reached from it, after any history; consequences for deletion.
-/
set_option linter.unusedSimpArgs false
set_option linter.unusedVariables false
namespace Silofs.Snap

/-- The address of a cached object is in the mounted volume only if its block is. -/
def LinkC (s : St) : Prop :=
  ∀ b j e, s.cache b j = some e → (e.link = s.cur ∧ s.loc s.cur 5 b = some s.cur) ∨ s.fos e.link

/-- A part of a step of the mounted volume. -/
structure Fine (s s' : St) : Prop where
  grow : Grow s s'
  own : Own s s'
  link : LinkC s → LinkC s'

theorem Fine.refl (s : St) : Fine s s := ⟨Grow.refl s, Own.refl s, id⟩

theorem Fine.trans {s s' s'' : St} (a : Fine s s') (b : Fine s' s'') : Fine s s'' :=
  ⟨a.grow.trans b.grow, a.own.trans b.own, fun h => b.link (a.link h)⟩

theorem link_grow {s s' : St} (g : Grow s s') (o : Own s s')
    (hc : ∀ b j e', s'.cache b j = some e' → ∃ e, s.cache b j = some e ∧ e'.link = e.link) (h : LinkC s) : LinkC s' := by
  intro b j e' he
  obtain ⟨e, h1, h2⟩ := hc b j e' he
  rw [h2]
  rcases h b j e h1 with ⟨h3, h4⟩ | h3
  · rw [g.cur]; exact Or.inl ⟨h3, g.own 5 b (by omega) h4⟩
  · exact Or.inr (fos_own o h3)

theorem fine_cow (mk : Bool) (k i : Nat) (s : St) (hk : k ≤ 4) (hm : (s.vol s.cur).isSome = true) :
    Fine s (cow mk k i s).1 := by
  refine ⟨cow_grow mk k i s hk hm, own_cow mk k i s, fun h => ?_⟩
  refine link_grow (cow_grow mk k i s hk hm) (own_cow mk k i s) (fun b j e' he => ⟨e', ?_, rfl⟩) h
  rw [(cow_cache mk k i s).1] at he
  exact he

theorem fine_load {b j : Nat} {s s' : St} (hw : Wf s) (e : load b j s = some s') : Fine s s' := by
  obtain ⟨a1, a2, a3, a4, a5, a6⟩ := load_same e
  have o := own_load e
  have g : Grow s s' := grow_same a1 a2 o.cur
  refine ⟨g, o, fun h => ?_⟩
  unfold load at e
  split at e
  · cases e; exact h
  · split at e
    · split at e
      · cases e
      · rename_i w hl
        cases e
        intro b' j' e' he
        by_cases hb : b' = b ∧ j' = j
        · obtain ⟨rfl, rfl⟩ := hb
          rw [setCache_self] at he
          cases he
          rcases hw.loc hl with e1 | e1
          · subst e1
            exact Or.inl ⟨rfl, g.own 5 b' (by omega) hl⟩
          · exact Or.inr (fos_own o e1)
        · rw [setCache_other _ _ _ _ _ _ hb] at he
          rcases h b' j' e' he with ⟨h3, h4⟩ | h3
          · exact Or.inl ⟨h3, g.own 5 b' (by omega) h4⟩
          · exact Or.inr (fos_own o h3)
    · cases e

theorem fine_preClone {raw : Bool} {b j : Nat} {n : Nat} : ∀ {s s' : St}, Wf s → s.mut = true →
    preClone raw b j n s = some s' → Fine s s' := by
  induction n with
  | zero => intro s s' h m e; simp only [preClone] at e; cases e; exact Fine.refl s
  | succ n ih =>
    intro s s' h m e
    simp only [preClone] at e
    split at e
    · cases e
    · rename_i s1 e1
      have f := ih h m e1
      split at e
      · exact f.trans (fine_load (wf_same h m e1) e)
      · cases e; exact f

theorem fine_redirty (raw : Bool) (b j : Nat) (s : St) : Fine s (redirty raw b j s) := by
  have g : Grow s (redirty raw b j s) := grow_same rfl rfl rfl
  refine ⟨g, own_redirty raw b j s, link_grow g (own_redirty raw b j s) (fun b' j' e' he => ?_)⟩
  simp only [redirty] at he
  split at he
  · rw [Option.map_eq_some_iff] at he
    obtain ⟨e, h1, h2⟩ := he
    exact ⟨e, h1, by rw [← h2]⟩
  · exact ⟨e', he, rfl⟩

theorem fine_bind {s : St} {b : Nat} (hp : s.loc s.cur 4 (b / 256) = some s.cur) :
    Fine s (s.bind 4 (b / 256) (b % 256)) :=
  ⟨bind_grow hp, own_bind _ _ _ _, link_grow (bind_grow hp) (own_bind _ _ _ _) (fun b' j' e' he => ⟨e', he, rfl⟩)⟩

theorem fine_setUsed {s : St} {b j : Nat} {x : Bool} (hp : s.loc s.cur 4 (b / 256) = some s.cur) :
    Fine s (setUsed b j x s) :=
  ⟨setUsed_grow hp, own_setUsed _ _ _ _, link_grow (setUsed_grow hp) (own_setUsed _ _ _ _) (fun b' j' e' he => ⟨e', he, rfl⟩)⟩

theorem cow_own {b : Nat} {mk : Bool} {s s1 : St} (h : Wf s) (e : cow mk 4 (b / 256) s = (s1, true)) :
    s1.loc s1.cur 4 (b / 256) = some s1.cur := by
  have hm := (cow_maps mk 4 (b / 256) s (Nat.le_refl 4) h.mounted)
  rw [e] at hm
  have h1 := hm.1.cur
  have h2 := hm.2 rfl
  simp only at h1 h2
  rw [h1]
  exact h2

theorem fine_cowBlk {raw : Bool} {b j : Nat} {s s' : St} (h : Wf s) (m : s.mut = true)
    (e : cowBlk raw b j s = some s') : Fine s s' := by
  have fc := fine_cow false 4 (b / 256) s (Nat.le_refl 4) h.mounted
  have hw := wf_cow false 4 (b / 256) s h m
  have hm := (own_cow false 4 (b / 256) s).mut m
  unfold cowBlk at e
  split at e
  · cases e
  · rename_i s1 e1
    have hp := cow_own h e1
    rw [e1] at fc hw hm
    split at e
    · cases e
    · split at e
      · cases e; exact fc
      · split at e
        · cases e
        · rename_i s2 e2
          cases e
          have f2 := fine_preClone (s := s1) hw hm e2
          have hp2 : s2.loc s2.cur 4 (b / 256) = some s2.cur := by
            rw [f2.grow.cur]; exact f2.grow.own 4 _ (by omega) hp
          exact (fc.trans f2).trans ((fine_bind hp2).trans (fine_redirty raw b j _))

theorem fine_failClone {raw : Bool} {b j : Nat} {s s' : St} (h : Wf s) (m : s.mut = true)
    (e : failClone raw b j s = some s') : Fine s s' := by
  have fc := fine_cow false 4 (b / 256) s (Nat.le_refl 4) h.mounted
  have hw := wf_cow false 4 (b / 256) s h m
  have hm := (own_cow false 4 (b / 256) s).mut m
  unfold failClone at e
  split at e
  · cases e
  · rename_i s1 e1
    rw [e1] at fc hw hm
    split at e
    · cases e
    · rename_i s2 e2
      cases e
      exact (fc.trans (fine_preClone (s := s1) hw hm e2)).trans (fine_redirty raw b j _)

theorem fine_setCache {s : St} {b j : Nat} {x : Option Ent}
    (hx : LinkC s → ∀ e, x = some e → (e.link = s.cur ∧ s.loc s.cur 5 b = some s.cur) ∨ s.fos e.link) :
    Fine s (s.setCache b j x) := by
  have g : Grow s (s.setCache b j x) := grow_same rfl rfl rfl
  have o := own_setCache s b j x
  refine ⟨g, o, fun h b' j' e he => ?_⟩
  have key : (e.link = s.cur ∧ s.loc s.cur 5 b' = some s.cur) ∨ s.fos e.link := by
    by_cases hb : b' = b ∧ j' = j
    · obtain ⟨rfl, rfl⟩ := hb
      rw [setCache_self] at he
      exact hx h e he
    · rw [setCache_other _ _ _ _ _ _ hb] at he
      exact h b' j' e he
  rcases key with ⟨h3, h4⟩ | h3
  · exact Or.inl ⟨h3, g.own 5 b' (by omega) h4⟩
  · exact Or.inr (fos_own o h3)

theorem fine_stageCow {raw : Bool} {b j : Nat} {s s' : St} (h : Wf s) (m : s.mut = true)
    (e : stageCow raw b j s = some s') : Fine s s' := by
  unfold stageCow at e
  split at e
  · split at e
    · cases e; exact Fine.refl s
    · split at e
      · cases e
      · rename_i s1 e1
        cases e
        have hb := (cowBlk_at h m e1).here
        refine (fine_cowBlk h m e1).trans (fine_setCache (fun _ e he => ?_))
        rw [Option.map_eq_some_iff] at he
        obtain ⟨e0, _, h2⟩ := he
        exact Or.inl ⟨by rw [← h2], hb⟩
  · split at e
    · split at e
      · cases e
      · rename_i s1 e1
        cases e
        have hb := (cowBlk_at h m e1).here
        refine (fine_cowBlk h m e1).trans (fine_setCache (fun _ e he => ?_))
        split at he
        · cases he; exact Or.inl ⟨rfl, hb⟩
        · cases he; exact Or.inl ⟨rfl, hb⟩
    · cases e

theorem fine_update {b j : Nat} {g} {s : St} : Fine s (update b j g s) := by
  unfold update
  refine fine_setCache (fun h e he => ?_)
  rw [Option.map_eq_some_iff] at he
  obtain ⟨e0, h1, h2⟩ := he
  have := h b j e0 h1
  rw [← h2]
  exact this

theorem fine_write {b j : Nat} {g} {s s' : St} (h : Wf s) (m : s.mut = true) (e : write b j g s = some s') :
    Fine s s' := by
  unfold write at e
  rw [Option.map_eq_some_iff] at e
  obtain ⟨s1, e1, e2⟩ := e
  rw [← e2]
  exact (fine_stageCow h m e1).trans fine_update

theorem fine_spawn {b j : Nat} {s s' : St} (h : Wf s) (m : s.mut = true) (e : spawn b j s = some s') :
    Fine s s' := by
  have fc := fine_cow true 4 (b / 256) s (Nat.le_refl 4) h.mounted
  have hw := wf_cow true 4 (b / 256) s h m
  have hm := (own_cow true 4 (b / 256) s).mut m
  unfold spawn at e
  split at e
  · cases e
  · rename_i s1 e1
    have hp := cow_own h e1
    rw [e1] at fc hw hm
    split at e
    · cases e
    · rw [Option.map_eq_some_iff] at e
      obtain ⟨s2, e2, e3⟩ := e
      rw [← e3]
      have hw1 : Wf (setUsed b j true s1) := wf_setUsed hw hm
      have hm1 : (setUsed b j true s1).mut = true := hm
      exact (fc.trans (fine_setUsed hp)).trans ((fine_stageCow hw1 hm1 e2).trans fine_update)

theorem fine_free {b j : Nat} {s s' : St} (h : Wf s) (m : s.mut = true) (e : free b j s = some s') :
    Fine s s' := by
  unfold free at e
  split at e
  · cases e
  · rename_i s1 e1
    split at e
    · cases e
      have hb := (cowBlk_at h m e1).here
      -- the leaf of a block of the volume is in the volume
      have hm1 := (own_cowBlk e1).mut m
      have hw1 := wf_cowBlk h m e1
      have hp : s1.loc s1.cur 4 (b / 256) = some s1.cur := by
        cases hl : s1.loc s1.cur 4 (b / 256) with
        | none =>
          rw [show s1.loc s1.cur 5 b = none by
            simp only [loc_walk] at hl ⊢; rw [walk_succ, hl]] at hb
          cases hb
        | some w =>
          have hc : (s1.un w 4 (b / 256)).child (b % 256) = some s1.cur := by
            simp only [loc_walk] at hl hb
            rw [walk_succ, hl] at hb
            exact hb
          rcases hw1.child _ _ _ _ _ hc with e | e
          · rw [e]
          · exact absurd e (St.not_fos hm1)
      exact ((fine_cowBlk h m e1).trans (fine_setUsed hp)).trans (fine_setCache (fun _ e he => (nomatch he)))
    · cases e

/-! ### The invariant -/

/-- All that is stored in a volume is reached from its super block, leaves have all their blocks, and
addresses of cached objects are right. -/
structure Good (s : St) : Prop where
  un : ∀ v k i, s.un v k i ≠ {} → k ≤ 4 ∧ s.loc v k i = some v
  dat : ∀ v b j, s.dat v b j ≠ (fun _ => 0) → s.loc v 5 b = some v
  full : ∀ v i c, c < 256 → s.loc v 4 i ≠ none → s.loc v 5 (i * 256 + c) ≠ none
  link : LinkC s

theorem good_fine {s s' : St} (h : Wf s) (m : s.mut = true) (g : Good s) (f : Fine s s') (hd : s'.dat = s.dat) :
    Good s' := by
  have lo : ∀ v, v ≠ s.cur → ∀ k i, s'.loc v k i = s.loc v k i := fun v hv k i => loc_other h m f.own hv k i
  refine ⟨fun v k i hu => ?_, fun v b j hu => ?_, fun v i c hc hl => ?_, f.link g.link⟩
  · by_cases e : v = s.cur
    · subst e
      have := f.grow.un (fun k i hh => g.un _ k i hh) k i
      rw [f.grow.cur] at this
      exact this hu
    · rw [f.own.un v k i e] at hu
      rw [lo v e]
      exact g.un v k i hu
  · rw [hd] at hu
    have := g.dat v b j hu
    by_cases e : v = s.cur
    · subst e; exact f.grow.own 5 b (by omega) this
    · rw [lo v e]; exact this
  · by_cases e : v = s.cur
    · subst e
      have := f.grow.full (fun i c hc hl => g.full _ i c hc hl) i c hc
      rw [f.grow.cur] at this
      exact this hl
    · rw [lo v e] at hl ⊢
      exact g.full v i c hc hl

theorem good_flush {b j : Nat} {s s' : St} (h : Wf s) (g : Good s) (e : flush b j s = some s') : Good s' := by
  unfold flush at e
  split at e
  · cases e
  · rename_i e0 he
    split at e
    · rename_i hdirty
      split at e
      · rename_i hl
        cases e
        have m : s.mut = true := by
          cases hm : s.mut with
          | true => rfl
          | false => rw [h.clean hm b j e0 he] at hdirty; cases hdirty
        have h5 : s.loc s.cur 5 b = some s.cur := by
          rcases hl with hl | hl
          · rcases g.link b j e0 he with h1 | h1
            · exact h1.2
            · rw [hl] at h1; exact absurd h1 (St.not_fos m)
          · exact hl
        refine ⟨g.un, fun v b' j' hu => ?_, g.full, fun b' j' e' he' => ?_⟩
        · have hu' : (if v = s.cur ∧ b' = b ∧ j' = j then e0.val else s.dat v b' j') ≠ fun _ => 0 := hu
          split at hu'
          · rename_i hx
            rw [hx.1, hx.2.1]; exact h5
          · exact g.dat v b' j' hu'
        · by_cases hb : b' = b ∧ j' = j
          · obtain ⟨rfl, rfl⟩ := hb
            have he2 : (s.setCache b' j' (some { e0 with link := s.cur, dirty := false })).cache b' j' = some e' := he'
            rw [setCache_self] at he2
            cases he2
            exact Or.inl ⟨rfl, h5⟩
          · have he2 : (s.setCache b j (some { e0 with link := s.cur, dirty := false })).cache b' j' = some e' := he'
            rw [setCache_other _ _ _ _ _ _ hb] at he2
            exact g.link b' j' e' he2
      · cases e
    · cases e

theorem cowBlk_dat {raw : Bool} {b j : Nat} {s s' : St} (h : Wf s) (m : s.mut = true)
    (e : cowBlk raw b j s = some s') : s'.dat = s.dat := (cowBlk_at h m e).dat

theorem stageCow_dat {raw : Bool} {b j : Nat} {s s' : St} (h : Wf s) (m : s.mut = true)
    (e : stageCow raw b j s = some s') : s'.dat = s.dat := by
  unfold stageCow at e
  split at e
  · split at e
    · cases e; rfl
    · split at e
      · cases e
      · rename_i s1 e1
        cases e
        show s1.dat = s.dat
        exact cowBlk_dat h m e1
  · split at e
    · split at e
      · cases e
      · rename_i s1 e1
        cases e
        show s1.dat = s.dat
        exact cowBlk_dat h m e1
    · cases e

/-- **C44**: in every history, all that is stored under a volume is reached from it. -/
theorem good_step {a : Act} {s s' : St} (h : Wf s) (g : Good s) (st : Step a s s') : Good s' := by
  cases st with
  | cow mk k i m hk => exact good_fine h m g (fine_cow mk k i s hk h.mounted) (cow_cache mk k i s).2
  | load b j e =>
    obtain ⟨a1, a2, a3, a4, a5, a6⟩ := load_same e
    have hl : ∀ v k i, s'.loc v k i = s.loc v k i := fun v k i => by simp only [loc_walk, a2, St.root, a1]
    refine ⟨fun v k i hu => ?_, fun v b j hu => ?_, fun v i c hc hx => ?_, (fine_load h e).link g.link⟩
    · rw [a2] at hu; rw [hl]; exact g.un v k i hu
    · rw [a4] at hu; rw [hl]; exact g.dat v b j hu
    · rw [hl] at hx ⊢; exact g.full v i c hc hx
  | touch b j m e => exact good_fine h m g (fine_cowBlk h m e) (cowBlk_dat h m e)
  | failClone raw b j m e =>
    refine good_fine h m g (fine_failClone h m e) ?_
    unfold failClone at e
    have hcc := (cow_cache false 4 (b / 256) s).2
    have hmm := wf_cow false 4 (b / 256) s h m
    split at e
    · cases e
    · rename_i s1 e1
      rw [e1] at hcc
      split at e
      · cases e
      · rename_i s2 e2
        cases e
        exact (preClone_same e2).2.2.2.1.trans hcc
  | flush b j e => exact good_flush h g e
  | evict b j e =>
    unfold evict at e
    split at e
    · cases e
    · split at e
      · cases e
      · cases e
        exact ⟨g.un, g.dat, g.full, (fine_setCache (s := s) (b := b) (j := j) (x := none) (fun _ e he => (nomatch he))).link g.link⟩
  | write b j gg m e =>
    refine good_fine h m g (fine_write h m e) ?_
    unfold write at e
    rw [Option.map_eq_some_iff] at e
    obtain ⟨s1, e1, e2⟩ := e
    rw [← e2]
    show s1.dat = s.dat
    exact stageCow_dat h m e1
  | spawn b j m e =>
    refine good_fine h m g (fine_spawn h m e) ?_
    have hw := wf_cow true 4 (b / 256) s h m
    have hm := (own_cow true 4 (b / 256) s).mut m
    have hcc := (cow_cache true 4 (b / 256) s).2
    unfold spawn at e
    split at e
    · cases e
    · rename_i s1 e1
      rw [e1] at hw hm hcc
      split at e
      · cases e
      · rw [Option.map_eq_some_iff] at e
        obtain ⟨s2, e2, e3⟩ := e
        rw [← e3]
        show s2.dat = s.dat
        exact (stageCow_dat (wf_setUsed hw hm) hm e2).trans hcc
  | free b j m e =>
    refine good_fine h m g (fine_free h m e) ?_
    unfold free at e
    split at e
    · cases e
    · rename_i s1 e1
      split at e
      · cases e
        show s1.dat = s.dat
        exact cowBlk_dat h m e1
      · cases e
  | fork a n m hc ha hn hne =>
    have un0 : ∀ v, s.vol v = none → ∀ k i, s.un v k i = {} := by
      intro v hv k i
      by_cases e : s.un v k i = {}
      · exact e
      · have hl := (g.un v k i e).2
        have hr : s.root v = none := by simp [St.root, hv]
        have : ∀ k i, s.loc v k i = none := by
          intro k
          induction k with
          | zero => intro i; simp only [St.loc, walk, hr, ite_self]
          | succ k ih =>
            intro i
            have := loc_child_none (ih (i / 256)) (Nat.mod_lt i (show 256 > 0 by decide))
            rwa [show i / 256 * 256 + i % 256 = i by omega] at this
        rw [this] at hl; cases hl
    have dat0 : ∀ v, s.vol v = none → ∀ b j, s.dat v b j = fun _ => 0 := by
      intro v hv b j
      by_cases e : s.dat v b j = fun _ => 0
      · exact e
      · have hl := g.dat v b j e
        have hr : s.root v = none := by simp [St.root, hv]
        have : ∀ k i, s.loc v k i = none := by
          intro k
          induction k with
          | zero => intro i; simp only [St.loc, walk, hr, ite_self]
          | succ k ih =>
            intro i
            have := loc_child_none (ih (i / 256)) (Nat.mod_lt i (show 256 > 0 by decide))
            rwa [show i / 256 * 256 + i % 256 = i by omega] at this
        rw [this] at hl; cases hl
    have old : ∀ v, (s.vol v).isSome = true → ∀ k i, (fork a n s).loc v k i = s.loc v k i := by
      intro v hv k i
      simp only [loc_walk, root_fork h ha hn hv]
      rfl
    have new : ∀ v, v = a ∨ v = n → ∀ k i, (fork a n s).loc v k i = s.loc s.cur k i := by
      intro v hv k i
      have hr : (fork a n s).root v = s.root s.cur := by
        rcases hv with e | e <;> subst e <;> simp [St.root, fork]
      simp only [loc_walk, hr]
      rfl
    have known : ∀ v, s.vol v ≠ none → (s.vol v).isSome = true := by
      intro v hv
      cases hx : s.vol v with
      | none => exact absurd hx hv
      | some V => rfl
    refine ⟨fun v k i hu => ?_, fun v b j hu => ?_, fun v i c hc' hx => ?_, fun b j e he => ?_⟩
    · have hu' : s.un v k i ≠ {} := hu
      have hv : s.vol v ≠ none := fun e => hu' (un0 v e k i)
      rw [old v (known v hv)]
      exact g.un v k i hu'
    · have hu' : s.dat v b j ≠ fun _ => 0 := hu
      have hv : s.vol v ≠ none := fun e => hu' (dat0 v e b j)
      rw [old v (known v hv)]
      exact g.dat v b j hu'
    · by_cases hv : v = a ∨ v = n
      · rw [new v hv] at hx ⊢; exact g.full _ i c hc' hx
      · by_cases hk : s.vol v = none
        · have hr : (fork a n s).root v = none := by
            simp only [St.root, fork]
            rw [if_neg hv]
            split <;> simp [hk]
          have : ∀ k i, (fork a n s).loc v k i = none := by
            intro k
            induction k with
            | zero => intro i; simp only [St.loc, walk, hr, ite_self]
            | succ k ih =>
              intro i
              have := loc_child_none (ih (i / 256)) (Nat.mod_lt i (show 256 > 0 by decide))
              rwa [show i / 256 * 256 + i % 256 = i by omega] at this
          exact absurd (this 4 i) hx
        · rw [old v (known v hk)] at hx ⊢; exact g.full v i c hc' hx
    · rcases g.link b j e he with ⟨h1, _⟩ | h1
      · rw [h1]; exact Or.inr (fos_fork_cur ha hn h)
      · exact Or.inr (fos_fork ha hn h1)
  | mount v hc hv =>
    exact ⟨g.un, g.dat, g.full, fun b j e he => (nomatch he)⟩

end Silofs.Snap
