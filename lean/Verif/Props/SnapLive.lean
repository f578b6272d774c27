import Verif.Props.SnapCow
import Verif.Spec.Snap
/-
C25: taking a snapshot and copy-on-write after it keep the content of the live volume.
-/
set_option linter.unusedSimpArgs false
set_option linter.unusedVariables false
namespace Silofs.Snap

/-- What a user of the mounted volume reads. -/
def St.see (s : St) (b j : Nat) : Option (Nat → Nat) :=
  if s.used s.cur b j then
    match s.cache b j with
    | some e => some e.val
    | none => s.disk s.cur b j
  else none

/-- A cached object agrees with storage, or will be written where the volume looks for it. -/
structure Entry (s : St) (b j : Nat) (e : Ent) : Prop where
  used : s.used s.cur b j = true
  data : (e.dirty = true ∧ s.loc s.cur 5 b = some s.cur) ∨ s.disk s.cur b j = some e.val
  link : e.link = s.cur → s.loc s.cur 5 b = some s.cur
  known : (s.vol e.link).isSome = true

/-- The cache entry of an object, if any, is good. -/
def CacheAt (s : St) (b j : Nat) : Prop := ∀ e, s.cache b j = some e → Entry s b j e

/-- The cache is good, but for the reserved object at offset 0. -/
def Cached (s : St) : Prop := ∀ b j, ¬ (b = 0 ∧ j = 0) → CacheAt s b j

/-! ### Space maps -/

theorem Own.isSome {s s' : St} (o : Own s s') {v : Lvid} (h : (s.vol v).isSome = true) :
    (s'.vol v).isSome = true := by
  by_cases e : v = s.cur
  · subst e
    rw [Option.isSome_iff_exists] at h
    obtain ⟨V, hV⟩ := h
    obtain ⟨V', h1, _⟩ := o.fos V hV
    rw [h1]; rfl
  · rw [o.vol v e]; exact h

theorem used_loc {s : St} {v : Lvid} {b j : Nat} (h : s.loc v 4 (b / 256) = none) : s.used v b j = false := by
  simp [St.used, h]

/-- Nothing changes for an object whose allocation, place, storage and cache entry are the same. -/
theorem same_at {s s' : St} {b j : Nat} (o : Own s s')
    (hu : s'.used s'.cur b j = s.used s.cur b j)
    (hl : s'.loc s'.cur 5 b = s.loc s.cur 5 b ∨ s.used s.cur b j = false)
    (hd : ∀ w, s.loc s.cur 5 b = some w → s'.dat w b j = s.dat w b j)
    (hc : s'.cache b j = s.cache b j)
    (h : CacheAt s b j) : CacheAt s' b j ∧ s'.see b j = s.see b j := by
  rcases hl with hl | hl
  · have hdisk : s'.disk s'.cur b j = s.disk s.cur b j := by
      simp only [St.disk, hl]
      cases hw : s.loc s.cur 5 b with
      | none => rfl
      | some w => simp only [Option.map_some]; rw [hd w hw]
    refine ⟨fun e he => ?_, by simp only [St.see, hu, hc, hdisk]⟩
    rw [hc] at he
    have h1 := h e he
    exact ⟨hu.trans h1.used, by rw [hl, hdisk, o.cur]; exact h1.data, by rw [hl, o.cur]; exact h1.link,
      o.isSome h1.known⟩
  · refine ⟨fun e he => ?_, by simp [St.see, hu, hl]⟩
    rw [hc] at he
    have := (h e he).used
    rw [hl] at this
    cases this

theorem cow_at {s : St} {mk : Bool} {k i : Nat} (hk : k ≤ 4) (h : Wf s) {b j : Nat} (hc : CacheAt s b j) :
    CacheAt (cow mk k i s).1 b j ∧ (cow mk k i s).1.see b j = s.see b j := by
  have o := own_cow mk k i s
  obtain ⟨m, _⟩ := cow_maps mk k i s hk h.mounted
  obtain ⟨c1, c2⟩ := cow_cache mk k i s
  refine same_at o (m.used o.per b j) ?_ (fun w _ => by rw [c2]) (by rw [c1]) hc
  rcases m.blk b with e | e
  · exact Or.inl (by rw [o.cur]; exact e)
  · exact Or.inr (used_loc e.2)

/-! ### Loading -/

theorem load_at {s s' : St} {b0 j0 : Nat} (h : Wf s) (e : load b0 j0 s = some s') {b j : Nat} (hc : CacheAt s b j) :
    CacheAt s' b j ∧ s'.see b j = s.see b j := by
  have o := own_load e
  unfold load at e
  split at e
  · cases e; exact ⟨hc, rfl⟩
  · rename_i hn
    split at e
    · rename_i hu
      split at e
      · cases e
      · rename_i w hw
        cases e
        by_cases eq : b = b0 ∧ j = j0
        · obtain ⟨rfl, rfl⟩ := eq
          have hcache : (s.setCache b j (some ⟨s.dat w b j, w, false⟩)).cache b j = some ⟨s.dat w b j, w, false⟩ := by
            simp [St.setCache]
          refine ⟨fun e he => ?_, ?_⟩
          · rw [hcache] at he
            cases he
            refine ⟨hu, Or.inr ?_, fun el => ?_, ?_⟩
            · show (s.loc s.cur 5 b).map _ = _
              rw [hw]; rfl
            · exact hw.trans (by rw [show w = s.cur from el]; rfl)
            · show (s.vol w).isSome = true
              rcases h.loc hw with e | ⟨W, e, _⟩
              · rw [e]; exact h.mounted
              · rw [e]; rfl
          · show (if s.used s.cur b j = true then _ else none) = _
            simp only [St.see, hu, if_true, hcache, hn, St.disk, hw, Option.map_some]
        · refine same_at o rfl (Or.inl rfl) (fun _ _ => rfl) ?_ hc
          simp only [St.setCache]
          rw [if_neg eq]
    · cases e

theorem load_cached {s s' : St} {b j : Nat} (e : load b j s = some s') :
    (s'.cache b j).isSome = true ∧ ∀ b' j', (b', j') ≠ (b, j) → s'.cache b' j' = s.cache b' j' := by
  unfold load at e
  split at e
  · rename_i x hx; cases e; exact ⟨by rw [hx]; rfl, fun _ _ _ => rfl⟩
  · split at e
    · split at e
      · cases e
      · cases e
        refine ⟨by simp [St.setCache], fun b' j' hne => ?_⟩
        simp only [St.setCache]
        rw [if_neg (fun x => hne (by rw [x.1, x.2]))]
    · cases e

theorem wf_same {s s' : St} (h : Wf s) (m : s.mut = true) {raw : Bool} {b j n : Nat}
    (e : preClone raw b j n s = some s') : Wf s' := by
  obtain ⟨a1, a2, a3, _⟩ := preClone_same e
  exact wf_cache h m a1 a2 a3

theorem preClone_at {raw : Bool} {b0 j0 : Nat} {n : Nat} : ∀ {s s' : St}, Wf s → s.mut = true →
    preClone raw b0 j0 n s = some s' →
    (∀ b j, CacheAt s b j → CacheAt s' b j ∧ s'.see b j = s.see b j) ∧
    (∀ j, j < n → s.used s.cur b0 j = true → skip raw b0 j0 j s = false → (s'.cache b0 j).isSome = true) ∧
    (∀ b j e, s.cache b j = some e → s'.cache b j = some e) ∧
    (∀ b j, skip raw b0 j0 j s = true ∨ b ≠ b0 → s'.cache b j = s.cache b j) := by
  induction n with
  | zero =>
    intro s s' h m e
    cases e
    exact ⟨fun b j hc => ⟨hc, rfl⟩, fun j hj => by omega, fun _ _ _ h => h, fun _ _ _ => rfl⟩
  | succ n ih =>
    intro s s' h m e
    simp only [preClone] at e
    split at e
    · cases e
    · rename_i s1 e1
      obtain ⟨i1, i2, i3, i4⟩ := ih h m e1
      have hw1 := wf_same h m e1
      obtain ⟨a1, a2, a3, a4, a5, a6⟩ := preClone_same e1
      have hus : s1.used s1.cur b0 n = s.used s.cur b0 n := by
        simp only [St.used, St.loc, St.root, a1, a2, a3, a5]
      have hsk : ∀ j, skip raw b0 j0 j s1 = skip raw b0 j0 j s := fun j => by simp only [skip, a6]
      split at e
      · rename_i hcond
        rw [Bool.and_eq_true] at hcond
        obtain ⟨l1, l2⟩ := load_cached e
        refine ⟨fun b j hc => ?_, fun j hj hu hs => ?_, fun b j x hx => ?_, fun b j hs => ?_⟩
        · obtain ⟨p1, p2⟩ := i1 b j hc
          obtain ⟨q1, q2⟩ := load_at hw1 e p1
          exact ⟨q1, q2.trans p2⟩
        · by_cases ej : j = n
          · subst ej; exact l1
          · have := i2 j (by omega) hu hs
            rw [l2 b0 j (by simp only [Ne, Prod.mk.injEq]; omega)]
            exact this
        · have := i3 b j x hx
          by_cases eq : (b, j) = (b0, n)
          · cases eq
            unfold load at e
            rw [this] at e
            cases e
            exact this
          · rw [l2 b j eq]; exact this
        · have eq : (b, j) ≠ (b0, n) := by
            intro eq
            cases eq
            rcases hs with hs | hs
            · have := hcond.2
              rw [hsk, hs] at this
              cases this
            · exact hs rfl
          rw [l2 b j eq]
          exact i4 b j hs
      · rename_i hcond
        cases e
        refine ⟨i1, fun j hj hu hs => ?_, i3, i4⟩
        by_cases ej : j = n
        · subst ej
          exfalso
          apply hcond
          rw [hus, hu, hsk, hs]; rfl
        · exact i2 j (by omega) hu hs

/-! ### Rebinding a block -/

theorem bind_loc {s : St} {b : Nat} (hp : s.loc s.cur 4 (b / 256) = some s.cur) :
    (∀ k', k' ≤ 4 → ∀ i, (s.bind 4 (b / 256) (b % 256)).loc s.cur k' i = s.loc s.cur k' i) ∧
    (∀ i, (s.bind 4 (b / 256) (b % 256)).loc s.cur 5 i = if i = b then some s.cur else s.loc s.cur 5 i) := by
  have hi : b / 256 * 256 + b % 256 = b := by omega
  have := walk_bind (un' := (s.bind 4 (b / 256) (b % 256)).un) (r := s.root s.cur) (Nat.mod_lt b (by decide)) hp
    (fun w k' i h1 _ => by
      simp only [St.bind, St.setUn]
      rw [if_neg (fun e => h1 (by rw [e.1, e.2.1, e.2.2]))])
    (by simp [St.bind, St.setUn])
  rw [hi] at this
  exact this

theorem bind_used {s : St} {b : Nat} (hp : s.loc s.cur 4 (b / 256) = some s.cur) (b' j' : Nat) :
    (s.bind 4 (b / 256) (b % 256)).used s.cur b' j' = s.used s.cur b' j' := by
  simp only [St.used, (bind_loc hp).1 4 (Nat.le_refl 4)]
  show (decide (j' < s.per) && _) = _
  cases hw : s.loc s.cur 4 (b' / 256) with
  | none => rfl
  | some w =>
    simp only
    by_cases e : w = s.cur ∧ b' / 256 = b / 256
    · simp [St.bind, St.setUn, e]
    · simp only [St.bind, St.setUn]
      rw [if_neg (fun h => e ⟨h.1, h.2.2⟩)]

/-- What making a block mutable does. -/
structure Blk (raw : Bool) (b j : Nat) (s s' : St) : Prop where
  here : s'.loc s'.cur 5 b = some s'.cur
  used : ∀ b' j', s'.used s'.cur b' j' = s.used s.cur b' j'
  other : ∀ b' j', ¬ (b' = 0 ∧ j' = 0) → ¬ (b' = b ∧ skip raw b j j' s = true) → CacheAt s b' j' →
    CacheAt s' b' j' ∧ s'.see b' j' = s.see b' j'
  mine : s.loc s.cur 5 b = some s.cur → ∀ b' j', CacheAt s b' j' → CacheAt s' b' j' ∧ s'.see b' j' = s.see b' j'
  keep : ∀ b' j' e, s.cache b' j' = some e → ∃ e', s'.cache b' j' = some e' ∧ e'.val = e.val
  skips : ∀ j', skip raw b j j' s = true → s'.cache b j' = s.cache b j'
  dat : s'.dat = s.dat
  old : ∃ w, s.loc s.cur 5 b = some w

theorem cowBlk_at {raw : Bool} {b j : Nat} {s s' : St} (h : Wf s) (m : s.mut = true)
    (e : cowBlk raw b j s = some s') : Blk raw b j s s' := by
  have hw := wf_cow false 4 (b / 256) s h m
  have hat := fun b' j' => cow_at (s := s) (mk := false) (k := 4) (i := b / 256) (Nat.le_refl 4) h (b := b') (j := j')
  obtain ⟨hm, hp⟩ := cow_maps false 4 (b / 256) s (Nat.le_refl 4) h.mounted
  have ho := own_cow false 4 (b / 256) s
  have hcc := cow_cache false 4 (b / 256) s
  unfold cowBlk at e
  split at e
  · cases e
  · rename_i s1 e1
    rw [e1] at hw hat hm hp ho hcc
    replace hp : s1.loc s.cur 4 (b / 256) = some s.cur := hp rfl
    replace hw : Wf s1 := hw
    replace ho : Own s s1 := ho
    replace hm : Maps false s s1 := hm
    simp only at hat hcc
    have hp1 : s1.loc s1.cur 4 (b / 256) = some s1.cur := by rw [ho.cur]; exact hp
    have hl5 : s1.loc s1.cur 5 b = (s1.un s1.cur 4 (b / 256)).child (b % 256) := by
      simp only [loc_walk] at hp1 ⊢
      rw [walk_succ, hp1]
    have blk : ∀ x, s1.loc s.cur 5 x = s.loc s.cur 5 x := fun x => by
      rcases hm.blk x with e | e
      · exact e
      · cases e.1
    have used1 := hm.used ho.per
    split at e
    · cases e
    · rename_i w hcw
      split at e
      · rename_i ew
        cases e
        have here : s'.loc s'.cur 5 b = some s'.cur := by rw [hl5, hcw, ew]
        exact ⟨here, used1, fun b' j' _ _ hc => hat b' j' hc, fun _ b' j' hc => hat b' j' hc,
          fun b' j' x hx => ⟨x, by rw [hcc.1]; exact hx, rfl⟩, fun j' _ => by rw [hcc.1], hcc.2,
          ⟨s.cur, by rw [← blk b, ← ho.cur]; exact here⟩⟩
      · rename_i ew
        split at e
        · cases e
        · rename_i s2 e2
          cases e
          have m1 := ho.mut m
          obtain ⟨c1, c2, c3, c4⟩ := preClone_at hw m1 e2
          obtain ⟨a1, a2, a3, a4, a5, a6⟩ := preClone_same e2
          have hwf2 := wf_same hw m1 e2
          have o2 := own_preClone e2
          have loc2 : ∀ k i, s2.loc s2.cur k i = s1.loc s1.cur k i := fun k i => by
            simp only [St.loc, St.root, a1, a2, a3]
          have used2 : ∀ b' j', s2.used s2.cur b' j' = s1.used s1.cur b' j' := fun b' j' => by
            simp only [St.used, St.loc, St.root, a1, a2, a3, a5]
          have hp2 : s2.loc s2.cur 4 (b / 256) = some s2.cur := by rw [loc2, hp1, a3]
          generalize hs3 : s2.bind 4 (b / 256) (b % 256) = s3
          have o3 : Own s2 s3 := hs3 ▸ own_bind _ _ _ _
          obtain ⟨bl1, bl2⟩ := bind_loc hp2
          have bu := bind_used hp2
          rw [hs3] at bl1 bl2 bu
          have cache3 : s3.cache = s2.cache := by rw [← hs3]; rfl
          have cur3 : s3.cur = s2.cur := o3.cur
          have big3 : s3.big = s.big := (o3.big.trans a6).trans ho.big
          have per3 : s3.per = s2.per := o3.per
          have hsk1 : ∀ j', skip raw b j j' s1 = skip raw b j j' s := fun j' => by simp only [skip, ho.big]
          have hsk3 : ∀ j', skip raw b j j' s3 = skip raw b j j' s := fun j' => by simp only [skip, big3]
          have o4 : Own s3 (redirty raw b j s3) := own_redirty _ _ _ _
          have hcache4 : ∀ b' j', (redirty raw b j s3).cache b' j' =
              if b' = b ∧ j' < s3.per ∧ s3.used s3.cur b j' = true ∧ skip raw b j j' s3 = false then
                (s3.cache b' j').map fun e => { e with dirty := true }
              else s3.cache b' j' := fun b' j' => rfl
          have used3 : ∀ b' j', s3.used s3.cur b' j' = s.used s.cur b' j' := fun b' j' => by
            rw [cur3, bu, used2, used1]
          have oldb : s.loc s.cur 5 b = some w := by rw [← blk, ← ho.cur, hl5, hcw]
          refine ⟨?_, used3, ?_, ?_, ?_, ?_, ?_, ⟨w, oldb⟩⟩
          · show s3.loc s3.cur 5 b = some s3.cur
            rw [cur3, bl2, if_pos rfl]
          · intro b' j' hz hns hc
            obtain ⟨p1, p2⟩ := hat b' j' hc
            obtain ⟨q1, q2⟩ := c1 b' j' p1
            by_cases eb : b' = b
            · subst eb
              have hns' : skip raw b' j j' s = false := by
                cases hx : skip raw b' j j' s with
                | false => rfl
                | true => exact absurd ⟨rfl, hx⟩ hns
              cases hu : s.used s.cur b' j' with
              | false =>
                refine ⟨fun x hx => ?_, ?_⟩
                · rw [hcache4, if_neg (by rw [used3, hu]; simp), cache3] at hx
                  have := (q1 x hx).used
                  rw [used2, used1, hu] at this
                  cases this
                · have : (redirty raw b' j s3).used (redirty raw b' j s3).cur b' j' = false := (used3 b' j').trans hu
                  simp [St.see, this, hu]
              | true =>
                have hlt : j' < s.per := by
                  simp only [St.used, Bool.and_eq_true, decide_eq_true_eq] at hu
                  exact hu.1
                have hsome := c2 j' (by rw [ho.per]; exact hlt) (by rw [used1]; exact hu) (by rw [hsk1]; exact hns')
                rw [Option.isSome_iff_exists] at hsome
                obtain ⟨x, hx⟩ := hsome
                have h4 : (redirty raw b' j s3).cache b' j' = some { x with dirty := true } := by
                  rw [hcache4, if_pos ⟨rfl, by rw [per3, a5, ho.per]; exact hlt, by rw [used3]; exact hu,
                    by rw [hsk3]; exact hns'⟩, cache3, hx]
                  rfl
                have hq := q1 x hx
                have hcur : (redirty raw b' j s3).loc (redirty raw b' j s3).cur 5 b' =
                    some (redirty raw b' j s3).cur := by
                  show s3.loc s3.cur 5 b' = some s3.cur
                  rw [cur3, bl2, if_pos rfl]
                refine ⟨fun y hy => ?_, ?_⟩
                · rw [h4] at hy
                  cases hy
                  exact ⟨(used3 b' j').trans hu, Or.inl ⟨rfl, hcur⟩, fun _ => hcur,
                    (o3.trans o4).isSome hq.known⟩
                · have e5 : (redirty raw b' j s3).used (redirty raw b' j s3).cur b' j' = true := (used3 b' j').trans hu
                  have e6 : s2.used s2.cur b' j' = true := by rw [used2, used1]; exact hu
                  rw [← p2, ← q2]
                  simp only [St.see, e5, e6, if_true, h4, hx]
            · have hcache : (redirty raw b j s3).cache b' j' = s2.cache b' j' := by
                rw [hcache4, if_neg (fun x => eb x.1), cache3]
              have := same_at (b := b') (j := j') (o3.trans o4)
                (by show s3.used s3.cur b' j' = _; rw [cur3, bu])
                (Or.inl (by show s3.loc s3.cur 5 b' = _; rw [cur3, bl2, if_neg eb]))
                (fun w _ => by rw [← hs3]; rfl) hcache q1
              exact ⟨this.1, this.2.trans (q2.trans p2)⟩
          · intro hmine
            rw [oldb] at hmine
            exact absurd (Option.some.inj hmine) (by rw [← ho.cur]; exact ew)
          · intro b' j' x hx
            have hx1 : s1.cache b' j' = some x := by rw [hcc.1]; exact hx
            have hx2 := c3 b' j' x hx1
            rw [hcache4, cache3, hx2]
            split
            · exact ⟨{ x with dirty := true }, rfl, rfl⟩
            · exact ⟨x, rfl, rfl⟩
          · intro j' hs
            rw [hcache4, if_neg (by rw [hsk3, hs]; simp), cache3, c4 b j' (Or.inl (by rw [hsk1]; exact hs)), hcc.1]
          · show s3.dat = s.dat
            rw [← hs3]
            show s2.dat = s.dat
            rw [a4, hcc.2]

/-! ### Staging for writing -/

/-- A write does not lose the rest of the object: the object is not a 64K block, or it is
cached, or the block belongs to the mounted volume already. -/
def Keeps (s : St) (b j : Nat) : Prop :=
  s.big = false ∨ (s.cache b j).isSome = true ∨ s.loc s.cur 5 b = some s.cur

theorem setCache_self (s : St) (b j : Nat) (x : Option Ent) : (s.setCache b j x).cache b j = x := by
  simp [St.setCache]

theorem setCache_other (s : St) (b j : Nat) (x : Option Ent) (b' j' : Nat) (h : ¬ (b' = b ∧ j' = j)) :
    (s.setCache b j x).cache b' j' = s.cache b' j' := by
  simp only [St.setCache]; rw [if_neg h]

theorem setCache_at (s : St) (b j : Nat) (x : Option Ent) {b' j' : Nat} (h : ¬ (b' = b ∧ j' = j))
    (hc : CacheAt s b' j') : CacheAt (s.setCache b j x) b' j' ∧ (s.setCache b j x).see b' j' = s.see b' j' :=
  same_at (own_setCache s b j x) rfl (Or.inl rfl) (fun _ _ => rfl) (setCache_other s b j x b' j' h) hc

theorem skip_only {raw : Bool} {b j j' : Nat} {s : St} (hz : ¬ (b = 0 ∧ j' = 0)) (hs : skip raw b j j' s = true) :
    j' = j ∧ (raw = true ∨ s.big = true) := by
  simp only [skip, Bool.or_eq_true, Bool.and_eq_true, beq_iff_eq] at hs
  rcases hs with hs | hs
  · exact absurd hs hz
  · exact hs

/-- What staging an object for writing gives. -/
structure Staged (b j : Nat) (x : Nat → Nat) (s s' : St) : Prop where
  entry : ∃ e, s'.cache b j = some e ∧ e.val = x ∧ e.link = s'.cur
  here : s'.loc s'.cur 5 b = some s'.cur
  used : s'.used s'.cur b j = true
  other : ∀ b' j', ¬ (b' = 0 ∧ j' = 0) → ¬ (b' = b ∧ j' = j) → CacheAt s b' j' →
    CacheAt s' b' j' ∧ s'.see b' j' = s.see b' j'

theorem Staged.update {b j : Nat} {x : Nat → Nat} {s s' : St} (h : Staged b j x s s') (hw : Wf s') (g : (Nat → Nat) → Nat → Nat) :
    CacheAt (update b j g s') b j ∧ (update b j g s').see b j = some (g x) ∧
    ∀ b' j', ¬ (b' = 0 ∧ j' = 0) → ¬ (b' = b ∧ j' = j) → CacheAt s b' j' →
      CacheAt (update b j g s') b' j' ∧ (update b j g s').see b' j' = s.see b' j' := by
  obtain ⟨e, h1, h2, h3⟩ := h.entry
  have hcache : (Snap.update b j g s').cache b j = some { e with val := g e.val, dirty := true } := by
    unfold Snap.update
    rw [setCache_self, h1]; rfl
  refine ⟨fun y hy => ?_, ?_, fun b' j' hz hne hc => ?_⟩
  · rw [hcache] at hy
    cases hy
    exact ⟨h.used, Or.inl ⟨rfl, h.here⟩, fun _ => h.here, by show (s'.vol e.link).isSome = true; rw [h3]; exact hw.mounted⟩
  · have hu : (Snap.update b j g s').used (Snap.update b j g s').cur b j = true := h.used
    simp only [St.see, hu, if_true, hcache, h2]
  · obtain ⟨p1, p2⟩ := h.other b' j' hz hne hc
    obtain ⟨q1, q2⟩ := setCache_at s' b j _ hne p1
    exact ⟨q1, q2.trans p2⟩

theorem stageCow_at {b j : Nat} {s s' : St} (h : Wf s) (m : s.mut = true) (hz : ¬ (b = 0 ∧ j = 0))
    (hc : CacheAt s b j) (hk : Keeps s b j) (e : stageCow false b j s = some s') :
    ∃ x, s.see b j = some x ∧ Staged b j x s s' := by
  unfold stageCow at e
  split at e
  · rename_i x hx
    have hx1 := hc x hx
    have hsee : s.see b j = some x.val := by simp only [St.see, hx1.used, if_true, hx]
    split at e
    · rename_i hl
      cases e
      exact ⟨x.val, hsee, ⟨x, hx, rfl, hl⟩, hx1.link hl, hx1.used, fun b' j' _ _ hc' => ⟨hc', rfl⟩⟩
    · split at e
      · cases e
      · rename_i s1 e1
        cases e
        have blk := cowBlk_at h m e1
        obtain ⟨x', k1, k2⟩ := blk.keep b j x hx
        refine ⟨x.val, hsee, ⟨{ x' with link := s1.cur }, ?_, k2, rfl⟩, blk.here, ?_, fun b' j' hz' hne hc' => ?_⟩
        · rw [setCache_self, k1]; rfl
        · show s1.used s1.cur b j = true
          rw [blk.used]; exact hx1.used
        · have hns : ¬ (b' = b ∧ skip false b j j' s = true) := by
            rintro ⟨rfl, hs⟩
            exact hne ⟨rfl, (skip_only hz' hs).1⟩
          obtain ⟨p1, p2⟩ := blk.other b' j' hz' hns hc'
          obtain ⟨q1, q2⟩ := setCache_at s1 b j _ hne p1
          exact ⟨q1, q2.trans p2⟩
  · rename_i hn
    split at e
    · rename_i hu
      split at e
      · cases e
      · rename_i s1 e1
        cases e
        have blk := cowBlk_at h m e1
        have hu1 : s1.used s1.cur b j = true := by rw [blk.used]; exact hu
        obtain ⟨w, hw⟩ := blk.old
        have hsee : s.see b j = some (s.dat w b j) := by
          simp only [St.see, hu, if_true, hn, St.disk, hw, Option.map_some]
        -- the object itself is kept
        have hself : CacheAt s1 b j ∧ s1.see b j = s.see b j := by
          rcases hk with hb | hcached | hmine
          · refine blk.other b j hz (fun hs => ?_) hc
            rcases (skip_only hz hs.2).2 with x | x
            · cases x
            · rw [hb] at x; cases x
          · rw [hn] at hcached; cases hcached
          · exact blk.mine hmine b j hc
        refine ⟨s.dat w b j, hsee, ?_, blk.here, hu1, fun b' j' hz' hne hc' => ?_⟩
        · have h1 := hself.2
          rw [hsee] at h1
          simp only [St.see, hu1, if_true] at h1
          rw [setCache_self]
          cases hx : s1.cache b j with
          | some x =>
            rw [hx] at h1
            exact ⟨{ x with link := s1.cur }, rfl, Option.some.inj h1, rfl⟩
          | none =>
            rw [hx] at h1
            simp only [St.disk, blk.here, Option.map_some, Option.some.injEq] at h1
            exact ⟨_, rfl, h1, rfl⟩
        · have hns : ¬ (b' = b ∧ skip false b j j' s = true) := by
            rintro ⟨rfl, hs⟩
            exact hne ⟨rfl, (skip_only hz' hs).1⟩
          obtain ⟨p1, p2⟩ := blk.other b' j' hz' hns hc'
          obtain ⟨q1, q2⟩ := setCache_at s1 b j _ hne p1
          exact ⟨q1, q2.trans p2⟩
    · cases e

/-! ### Allocation marks -/

theorem setUsed_loc {s : St} {b j : Nat} {x : Bool} (k i : Nat) :
    (setUsed b j x s).loc s.cur k i = s.loc s.cur k i := by
  have : ∀ w k i, ((setUsed b j x s).un w k i).child = (s.un w k i).child := by
    intro w k i
    simp only [setUsed, St.setUn]
    split
    · rename_i h; rw [h.1, h.2.1, h.2.2]
    · rfl
  show walk _ (s.root s.cur) k i = walk _ (s.root s.cur) k i
  induction k generalizing i with
  | zero => rfl
  | succ k ih =>
    rw [walk_succ, walk_succ, ih]
    cases walk s.un (s.root s.cur) k (i / 256) with
    | none => rfl
    | some w => simp only; rw [this]

theorem setUsed_used {s : St} {b j : Nat} {x : Bool} (hp : s.loc s.cur 4 (b / 256) = some s.cur) (b' j' : Nat) :
    (setUsed b j x s).used s.cur b' j' =
      if b' = b ∧ j' = j then (decide (j < s.per) && x) else s.used s.cur b' j' := by
  simp only [St.used, setUsed_loc]
  show (decide (j' < s.per) && _) = _
  by_cases hb : b' / 256 = b / 256
  · rw [hb, hp]
    simp only [setUsed, St.setUn, and_self, if_true]
    by_cases e : b' = b ∧ j' = j
    · obtain ⟨rfl, rfl⟩ := e
      simp
    · rw [if_neg e]
      rw [if_neg (fun h => e ⟨by omega, h.2⟩)]
  · have e : ¬ (b' = b ∧ j' = j) := fun h => hb (by rw [h.1])
    rw [if_neg e]
    cases hw : s.loc s.cur 4 (b' / 256) with
    | none => rfl
    | some w =>
      simp only [setUsed, St.setUn]
      rw [if_neg (fun h => hb h.2.2)]

theorem setUsed_at {s : St} {b j : Nat} {x : Bool} (hp : s.loc s.cur 4 (b / 256) = some s.cur) {b' j' : Nat}
    (h : ¬ (b' = b ∧ j' = j)) (hc : CacheAt s b' j') :
    CacheAt (setUsed b j x s) b' j' ∧ (setUsed b j x s).see b' j' = s.see b' j' :=
  same_at (own_setUsed b j x s) (by show (setUsed b j x s).used s.cur b' j' = _; rw [setUsed_used hp, if_neg h])
    (Or.inl (setUsed_loc 5 b')) (fun _ _ => rfl) rfl hc

end Silofs.Snap
