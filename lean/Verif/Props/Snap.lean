import Verif.Props.SnapLive
/-
C24 and C25: every volume is a map from objects to content, over all histories.
-/
set_option linter.unusedSimpArgs false
set_option linter.unusedVariables false
namespace Silofs.Snap
open SnapSpec (Vols Next)

/-- What users of all volumes see.  The object at offset 0 is reserved. -/
def St.abs (s : St) : Vols :=
  { cur := s.cur
    view := fun v b j =>
      if b = 0 ∧ j = 0 then none else if v = s.cur then s.see b j else s.content v b j }

theorem abs_eq {s s' : St} (hcur : s'.cur = s.cur) (hv : ∀ v, v ≠ s.cur → ∀ b j, s'.content v b j = s.content v b j)
    (hs : ∀ b j, ¬ (b = 0 ∧ j = 0) → s'.see b j = s.see b j) : s'.abs = s.abs := by
  simp only [St.abs, hcur, Vols.mk.injEq, true_and]
  funext v b j
  by_cases hz : b = 0 ∧ j = 0
  · rw [if_pos hz, if_pos hz]
  · rw [if_neg hz, if_neg hz]
    by_cases e : v = s.cur
    · rw [if_pos e, if_pos e, hs b j hz]
    · rw [if_neg e, if_neg e, hv v e]

theorem abs_set {s s' : St} {b j : Nat} {x : Option (Nat → Nat)} (hz : ¬ (b = 0 ∧ j = 0)) (hcur : s'.cur = s.cur)
    (hv : ∀ v, v ≠ s.cur → ∀ b j, s'.content v b j = s.content v b j)
    (hx : s'.see b j = x)
    (hs : ∀ b' j', ¬ (b' = 0 ∧ j' = 0) → ¬ (b' = b ∧ j' = j) → s'.see b' j' = s.see b' j') :
    s'.abs = s.abs.set b j x := by
  have key : ∀ v b' j', s'.abs.view v b' j' = if v = s.cur ∧ b' = b ∧ j' = j then x else s.abs.view v b' j' := by
    intro v b' j'
    simp only [St.abs, hcur]
    by_cases h : b' = 0 ∧ j' = 0
    · rw [if_pos h, if_pos h]
      rw [if_neg]
      rintro ⟨_, rfl, rfl⟩
      exact hz h
    · rw [if_neg h, if_neg h]
      by_cases e : v = s.cur
      · rw [if_pos e, if_pos e]
        by_cases eq : b' = b ∧ j' = j
        · rw [if_pos ⟨e, eq⟩, eq.1, eq.2, hx]
        · rw [if_neg (fun x => eq x.2), hs b' j' h eq]
      · rw [if_neg e, if_neg e, hv v e, if_neg (fun x => e x.1)]
  show (⟨s'.cur, s'.abs.view⟩ : Vols) = ⟨s.cur, fun v b' j' => if v = s.cur ∧ b' = b ∧ j' = j then x else s.abs.view v b' j'⟩
  rw [hcur]
  congr 1
  funext v b' j'
  exact key v b' j'

/-- When a request is known to keep everything else.  For 64K data blocks a write needs the block
in the cache or in the mounted volume; preparing one needs it in the mounted volume. -/
def Safe (a : Act) (s : St) : Prop :=
  match a with
  | .touch b _ => s.big = false ∨ s.loc s.cur 5 b = some s.cur
  | .write b j _ => ¬ (b = 0 ∧ j = 0) ∧ Keeps s b j
  | .spawn b j => ¬ (b = 0 ∧ j = 0)
  | .free b j => ¬ (b = 0 ∧ j = 0)
  | _ => True

theorem see_clean {s : St} (hc : Cached s) (h : s.clean) {b j : Nat} (hz : ¬ (b = 0 ∧ j = 0)) :
    s.see b j = s.content s.cur b j := by
  simp only [St.see, St.content]
  split
  · cases hx : s.cache b j with
    | none => rfl
    | some e =>
      rcases (hc b j hz e hx).data with ⟨hd, _⟩ | hd
      · rw [h b j e hx] at hd; cases hd
      · simp only [hd]
  · rfl

theorem content_none {s : St} {v : Lvid} (h : s.vol v = none) (b j : Nat) : s.content v b j = none := by
  have hr : s.root v = none := by simp [St.root, h]
  have : ∀ k i, s.loc v k i = none := by
    intro k
    induction k with
    | zero => intro i; simp [St.loc, walk, hr]
    | succ k ih =>
      intro i
      have := ih (i / 256)
      simp only [loc_walk] at this ⊢
      rw [walk_succ, this]
  simp [St.content, used_loc (this 4 _)]

/-- **C24/C25**, one step: the storage, cache and copy-on-write machinery refines the specification
in which every volume is a separate map. -/
theorem C25_step_partial {a : Act} {s s' : St} (h : Wf s) (hc : Cached s) (st : Step a s s') (safe : Safe a s) :
    Cached s' ∧ Next a s.abs s'.abs := by
  cases st with
  | cow mk k i m hk =>
    have o := own_cow mk k i s
    have hat := fun b j hz => cow_at (mk := mk) (k := k) (i := i) hk h (hc b j hz)
    exact ⟨fun b j hz => (hat b j hz).1, abs_eq o.cur (fun v hv => content_other h m o hv) (fun b j hz => (hat b j hz).2)⟩
  | load b j e =>
    have hat := fun b' j' hz => load_at h e (hc b' j' hz)
    obtain ⟨a1, a2, a3, a4, a5, _⟩ := load_same e
    exact ⟨fun b j hz => (hat b j hz).1, abs_eq a3 (fun v _ => content_same a1 a2 a4 a5 v) (fun b j hz => (hat b j hz).2)⟩
  | touch b j m e =>
    have o := own_cowBlk e
    have blk := cowBlk_at h m e
    have hat : ∀ b' j', ¬ (b' = 0 ∧ j' = 0) → CacheAt s' b' j' ∧ s'.see b' j' = s.see b' j' := by
      intro b' j' hz
      rcases safe with hb | hmine
      · refine blk.other b' j' hz ?_ (hc b' j' hz)
        rintro ⟨rfl, hs⟩
        rcases (skip_only hz hs).2 with x | x
        · cases x
        · rw [hb] at x; cases x
      · exact blk.mine hmine b' j' (hc b' j' hz)
    exact ⟨fun b j hz => (hat b j hz).1, abs_eq o.cur (fun v hv => content_other h m o hv) (fun b j hz => (hat b j hz).2)⟩
  | failClone raw b j m e =>
    have o := own_failClone e
    have hat : ∀ b' j', ¬ (b' = 0 ∧ j' = 0) → CacheAt s' b' j' ∧ s'.see b' j' = s.see b' j' := by
      intro b' j' hz
      have hw := wf_cow false 4 (b / 256) s h m
      have oc := own_cow false 4 (b / 256) s
      obtain ⟨p1, p2⟩ := cow_at (mk := false) (k := 4) (i := b / 256) (Nat.le_refl 4) h (hc b' j' hz)
      unfold failClone at e
      split at e
      · cases e
      · rename_i s1 e1
        rw [e1] at hw oc p1 p2
        split at e
        · cases e
        · rename_i s2 e2
          cases e
          obtain ⟨q1, q2⟩ := (preClone_at hw (oc.mut m) e2).1 b' j' p1
          rw [← p2, ← q2]
          have hcache : (redirty raw b j s2).cache b' j' =
              if b' = b ∧ j' < s2.per ∧ s2.used s2.cur b j' = true ∧ skip raw b j j' s2 = false then
                (s2.cache b' j').map fun e => { e with dirty := true }
              else s2.cache b' j' := rfl
          cases hx : s2.cache b' j' with
          | none =>
            have hn : (redirty raw b j s2).cache b' j' = none := by rw [hcache, hx]; split <;> rfl
            refine ⟨fun y hy => (by rw [hn] at hy; cases hy), ?_⟩
            show (if s2.used s2.cur b' j' = true then _ else none) = _
            simp only [St.see, hn, hx]
            rfl
          | some x =>
            obtain ⟨x', h1, h2, h3, h4⟩ : ∃ x', (redirty raw b j s2).cache b' j' = some x' ∧ x'.val = x.val ∧
                x'.link = x.link ∧ (x.dirty = true → x'.dirty = true) := by
              rw [hcache, hx]
              split
              · exact ⟨{ x with dirty := true }, rfl, rfl, rfl, fun _ => rfl⟩
              · exact ⟨x, rfl, rfl, rfl, id⟩
            have hq := q1 x hx
            refine ⟨fun y hy => ?_, ?_⟩
            · rw [h1] at hy
              cases hy
              refine ⟨hq.used, ?_, by rw [h3]; exact hq.link, by rw [h3]; exact hq.known⟩
              rcases hq.data with ⟨d1, d2⟩ | d
              · exact Or.inl ⟨h4 d1, d2⟩
              · exact Or.inr (by rw [h2]; exact d)
            · show (if s2.used s2.cur b' j' = true then _ else none) = _
              simp only [St.see, h1, hx, h2]
    exact ⟨fun b j hz => (hat b j hz).1, abs_eq o.cur (fun v hv => content_other h m o hv) (fun b j hz => (hat b j hz).2)⟩
  | flush b j e =>
    have o := own_flush e
    have m : s.mut = true := by
      cases hm : s.mut with
      | true => rfl
      | false =>
        have c := h.clean hm
        unfold flush at e
        split at e
        · cases e
        · rename_i x hx
          rw [c _ _ _ hx] at e
          cases e
    have hat : ∀ b' j', ¬ (b' = 0 ∧ j' = 0) → CacheAt s' b' j' ∧ s'.see b' j' = s.see b' j' := by
      intro b' j' hz
      unfold flush at e
      split at e
      · cases e
      · rename_i x hx
        split at e
        · rename_i hd
          split at e <;> cases e
          rename_i hl
          generalize hs' : ({ s.setCache b j (some { x with link := s.cur, dirty := false }) with
            dat := fun v b' j' => if v = s.cur ∧ b' = b ∧ j' = j then x.val else s.dat v b' j' } : St) = s1 at o
          have hcache : s1.cache = (s.setCache b j (some { x with link := s.cur, dirty := false })).cache := by
            rw [← hs']
          have hloc : ∀ k i, s1.loc s1.cur k i = s.loc s.cur k i := by rw [← hs']; exact fun _ _ => rfl
          have hused : ∀ b j, s1.used s1.cur b j = s.used s.cur b j := by rw [← hs']; exact fun _ _ => rfl
          by_cases eq : b' = b ∧ j' = j
          · obtain ⟨rfl, rfl⟩ := eq
            have hen := hc b' j' hz x hx
            have here : s.loc s.cur 5 b' = some s.cur := by
              rcases hl with hl | hl
              · exact hen.link hl
              · exact hl
            have hdisk : s1.disk s1.cur b' j' = some x.val := by
              simp only [St.disk, hloc, here, Option.map_some]
              rw [← hs']
              simp
            have hc1 : s1.cache b' j' = some { x with link := s.cur, dirty := false } := by
              rw [hcache, setCache_self]
            refine ⟨fun y hy => ?_, ?_⟩
            · rw [hc1] at hy
              cases hy
              exact ⟨(hused b' j').trans hen.used, Or.inr hdisk, fun _ => by rw [hloc, here, o.cur],
                by rw [show s1.vol = s.vol by rw [← hs']; rfl]; exact h.mounted⟩
            · simp only [St.see, hused, hc1, hx]
          · refine same_at o (hused b' j') (Or.inl (hloc 5 b')) (fun w _ => ?_) ?_ (hc b' j' hz)
            · rw [← hs']
              simp only
              rw [if_neg (fun y => eq y.2)]
            · rw [hcache, setCache_other _ _ _ _ _ _ eq]
        · cases e
    exact ⟨fun b j hz => (hat b j hz).1, abs_eq o.cur (fun v hv => content_other h m o hv) (fun b j hz => (hat b j hz).2)⟩
  | evict b j e =>
    have o := own_evict e
    unfold evict at e
    split at e
    · cases e
    · rename_i x hx
      split at e
      · cases e
      · rename_i hd
        cases e
        have hat : ∀ b' j', ¬ (b' = 0 ∧ j' = 0) → CacheAt (s.setCache b j none) b' j' ∧
            (s.setCache b j none).see b' j' = s.see b' j' := by
          intro b' j' hz
          by_cases eq : b' = b ∧ j' = j
          · obtain ⟨rfl, rfl⟩ := eq
            have hn := setCache_self s b' j' none
            refine ⟨fun y hy => (by rw [hn] at hy; cases hy), ?_⟩
            have hen := hc b' j' hz x hx
            have hu : (s.setCache b' j' none).used (s.setCache b' j' none).cur b' j' = true := hen.used
            simp only [St.see, hu, hen.used, if_true, hn, hx]
            rcases hen.data with ⟨d, _⟩ | d
            · exact absurd d hd
            · exact d
          · exact setCache_at s b j none eq (hc b' j' hz)
        exact ⟨fun b j hz => (hat b j hz).1, abs_eq rfl (fun v _ => content_same (s := s) rfl rfl rfl rfl v)
          (fun b j hz => (hat b j hz).2)⟩
  | write b j g m e =>
    have o := own_write e
    unfold write at e
    rw [Option.map_eq_some_iff] at e
    obtain ⟨s1, e1, rfl⟩ := e
    obtain ⟨hz, hk⟩ := safe
    obtain ⟨x, hx, hst⟩ := stageCow_at h m hz (hc b j hz) hk e1
    obtain ⟨u1, u2, u3⟩ := hst.update (wf_stageCow h m e1) g
    refine ⟨fun b' j' hz' => ?_, x, ?_, abs_set hz o.cur (fun v hv => content_other h m o hv) u2
      (fun b' j' hz' hne => (u3 b' j' hz' hne (hc b' j' hz')).2)⟩
    · by_cases eq : b' = b ∧ j' = j
      · rw [eq.1, eq.2]; exact u1
      · exact (u3 b' j' hz' eq (hc b' j' hz')).1
    · simp only [St.abs, if_neg hz, if_true, hx]
  | spawn b j m e =>
    have o := own_spawn e
    have hz : ¬ (b = 0 ∧ j = 0) := safe
    have hw := wf_cow true 4 (b / 256) s h m
    have oc := own_cow true 4 (b / 256) s
    obtain ⟨hm, hp⟩ := cow_maps true 4 (b / 256) s (Nat.le_refl 4) h.mounted
    have hat := fun b' j' hz => cow_at (mk := true) (k := 4) (i := b / 256) (Nat.le_refl 4) h (hc b' j' hz)
    have hcc := cow_cache true 4 (b / 256) s
    unfold spawn at e
    split at e
    · cases e
    · rename_i s1 e1
      rw [e1] at hw oc hm hp hat hcc
      replace hw : Wf s1 := hw
      replace oc : Own s s1 := oc
      replace hp : s1.loc s1.cur 4 (b / 256) = some s1.cur := by rw [oc.cur]; exact hp rfl
      simp only at hat hcc
      have m1 := oc.mut m
      split at e
      · cases e
      · rename_i hnu
        rw [Bool.or_eq_true, not_or] at hnu
        obtain ⟨hnu, hper⟩ := hnu
        have hper' : j < s1.per := by simpa using hper
        have hu1 : s1.used s1.cur b j = false := by simpa using hnu
        have hn1 : s1.cache b j = none := by
          cases hx : s1.cache b j with
          | none => rfl
          | some x =>
            have := ((hat b j hz).1 x hx).used
            rw [hu1] at this
            cases this
        rw [Option.map_eq_some_iff] at e
        obtain ⟨s2, e2, rfl⟩ := e
        have hw2 := wf_setUsed (b := b) (j := j) (x := true) hw m1
        have m2 : (setUsed b j true s1).mut = true := m1
        have hus : (setUsed b j true s1).used (setUsed b j true s1).cur b j = true := by
          show (setUsed b j true s1).used s1.cur b j = true
          rw [setUsed_used hp, if_pos ⟨rfl, rfl⟩]
          simp [hper']
        have hst : Staged b j (fun _ => 0) (setUsed b j true s1) s2 := by
          unfold stageCow at e2
          rw [show (setUsed b j true s1).cache b j = none from hn1] at e2
          simp only [hus, if_true] at e2
          split at e2
          · cases e2
          · rename_i s3 e3
            cases e2
            have blk := cowBlk_at hw2 m2 e3
            have hsk : skip true b j j (setUsed b j true s1) = true := by simp [skip]
            have hn3 : s3.cache b j = none := by rw [blk.skips j hsk]; exact hn1
            refine ⟨?_, blk.here, ?_, fun b' j' hz' hne hc' => ?_⟩
            · rw [setCache_self, hn3]
              exact ⟨_, rfl, rfl, rfl⟩
            · show s3.used s3.cur b j = true
              rw [blk.used]; exact hus
            · have hns : ¬ (b' = b ∧ skip true b j j' (setUsed b j true s1) = true) := by
                rintro ⟨rfl, hs⟩
                exact hne ⟨rfl, (skip_only hz' hs).1⟩
              obtain ⟨p1, p2⟩ := blk.other b' j' hz' hns hc'
              obtain ⟨q1, q2⟩ := setCache_at s3 b j _ hne p1
              exact ⟨q1, q2.trans p2⟩
        obtain ⟨u1, u2, u3⟩ := hst.update (wf_stageCow hw2 m2 e2) id
        have oth : ∀ b' j', ¬ (b' = 0 ∧ j' = 0) → ¬ (b' = b ∧ j' = j) →
            CacheAt (update b j id s2) b' j' ∧ (update b j id s2).see b' j' = s.see b' j' := by
          intro b' j' hz' hne
          obtain ⟨p1, p2⟩ := hat b' j' hz'
          obtain ⟨q1, q2⟩ := setUsed_at (x := true) hp hne p1
          obtain ⟨r1, r2⟩ := u3 b' j' hz' hne q1
          exact ⟨r1, r2.trans (q2.trans p2)⟩
        refine ⟨fun b' j' hz' => ?_, ?_, abs_set hz o.cur (fun v hv => content_other h m o hv) u2
          (fun b' j' hz' hne => (oth b' j' hz' hne).2)⟩
        · by_cases eq : b' = b ∧ j' = j
          · rw [eq.1, eq.2]; exact u1
          · exact (oth b' j' hz' eq).1
        · have : s.see b j = none := by
            rw [← (hat b j hz).2]
            simp [St.see, hu1]
          simp only [St.abs, if_neg hz, if_true, this]
  | free b j m e =>
    have o := own_free e
    have hz : ¬ (b = 0 ∧ j = 0) := safe
    unfold free at e
    split at e
    · cases e
    · rename_i s1 e1
      have blk := cowBlk_at h m e1
      have o1 := own_cowBlk e1
      split at e
      · rename_i hu
        cases e
        have hp1 : s1.loc s1.cur 4 (b / 256) = some s1.cur := by
          -- the leaf was made mutable
          have hw := wf_cow false 4 (b / 256) s h m
          obtain ⟨_, hp⟩ := cow_maps false 4 (b / 256) s (Nat.le_refl 4) h.mounted
          have oc := own_cow false 4 (b / 256) s
          unfold cowBlk at e1
          split at e1
          · cases e1
          · rename_i s2 e2
            rw [e2] at hp hw oc
            replace oc : Own s s2 := oc
            replace hp : s2.loc s2.cur 4 (b / 256) = some s2.cur := by rw [oc.cur]; exact hp rfl
            split at e1
            · cases e1
            · split at e1
              · cases e1; exact hp
              · split at e1
                · cases e1
                · rename_i s3 e3
                  cases e1
                  obtain ⟨a1, a2, a3, _⟩ := preClone_same e3
                  have hp3 : s3.loc s3.cur 4 (b / 256) = some s3.cur := by
                    simp only [St.loc, St.root, a1, a2, a3] at hp ⊢
                    exact hp
                  show (s3.bind 4 (b / 256) (b % 256)).loc s3.cur 4 (b / 256) = some s3.cur
                  rw [(bind_loc hp3).1 4 (Nat.le_refl 4)]
                  exact hp3
        have oth : ∀ b' j', ¬ (b' = 0 ∧ j' = 0) → ¬ (b' = b ∧ j' = j) →
            CacheAt ((setUsed b j false s1).setCache b j none) b' j' ∧
              ((setUsed b j false s1).setCache b j none).see b' j' = s.see b' j' := by
          intro b' j' hz' hne
          have hns : ¬ (b' = b ∧ skip false b j j' s = true) := by
            rintro ⟨rfl, hs⟩
            exact hne ⟨rfl, (skip_only hz' hs).1⟩
          obtain ⟨p1, p2⟩ := blk.other b' j' hz' hns (hc b' j' hz')
          obtain ⟨q1, q2⟩ := setUsed_at (x := false) hp1 hne p1
          obtain ⟨r1, r2⟩ := setCache_at (setUsed b j false s1) b j none hne q1
          exact ⟨r1, r2.trans (q2.trans p2)⟩
        refine ⟨fun b' j' hz' => ?_, ?_, abs_set hz o.cur (fun v hv => content_other h m o hv) ?_
          (fun b' j' hz' hne => (oth b' j' hz' hne).2)⟩
        · by_cases eq : b' = b ∧ j' = j
          · intro y hy
            rw [eq.1, eq.2, setCache_self] at hy
            cases hy
          · exact (oth b' j' hz' eq).1
        · simp only [St.abs, if_neg hz, if_true]
          have hus : s.used s.cur b j = true := by rw [← blk.used]; exact hu
          obtain ⟨w, hw⟩ := blk.old
          simp only [St.see, hus, if_true, St.disk, hw]
          cases s.cache b j <;> simp
        · have : ((setUsed b j false s1).setCache b j none).used ((setUsed b j false s1).setCache b j none).cur b j = false := by
            show (setUsed b j false s1).used s1.cur b j = false
            rw [setUsed_used hp1, if_pos ⟨rfl, rfl⟩, Bool.and_false]
          simp [St.see, this]
      · cases e
  | fork a n m hcl ha hn hne =>
    have hra : (fork a n s).root a = s.root s.cur := by simp [St.root, fork]
    have hrn : (fork a n s).root n = s.root s.cur := by simp [St.root, fork]
    have hloc : ∀ k i, (fork a n s).loc (fork a n s).cur k i = s.loc s.cur k i := by
      intro k i
      show walk s.un ((fork a n s).root n) k i = _
      rw [hrn]; rfl
    have hused : ∀ b j, (fork a n s).used (fork a n s).cur b j = s.used s.cur b j := by
      intro b j; simp only [St.used, hloc]; rfl
    have hdisk : ∀ b j, (fork a n s).disk (fork a n s).cur b j = s.disk s.cur b j := by
      intro b j; simp only [St.disk, hloc]; rfl
    have hsee : ∀ b j, (fork a n s).see b j = s.see b j := by
      intro b j; simp only [St.see, hused, hdisk]; rfl
    refine ⟨fun b j hz x hx => ?_, ?_⟩
    · have hen := hc b j hz x hx
      refine ⟨(hused b j).trans hen.used, Or.inr ?_, fun hl => ?_, ?_⟩
      · rw [hdisk]
        rcases hen.data with ⟨d, _⟩ | d
        · rw [hcl b j x hx] at d; cases d
        · exact d
      · have hk := hen.known
        rw [show x.link = n from hl, hn] at hk
        cases hk
      · simp only [fork]
        split
        · rfl
        · split
          · rw [Option.isSome_map]; exact hen.known
          · exact hen.known
    · show (fork a n s).abs = _
      simp only [St.abs, Vols.mk.injEq]
      refine ⟨rfl, ?_⟩
      funext v b j
      by_cases hz : b = 0 ∧ j = 0
      · simp only [if_pos hz]
        by_cases e : v = a ∨ v = n
        · rw [if_pos e, if_pos hz]
        · rw [if_neg e, if_pos hz]
      · simp only [if_neg hz]
        show (if v = n then (fork a n s).see b j else (fork a n s).content v b j) = _
        by_cases e : v = a ∨ v = n
        · rw [if_pos e]
          simp only [if_neg hz, if_true]
          by_cases en : v = n
          · rw [if_pos en, hsee]
          · have ea : v = a := e.resolve_right en
            rw [if_neg en, see_clean hc hcl hz, ea]
            simp only [St.content, St.used, St.disk, St.loc, hra]; rfl
        · rw [if_neg e]
          simp only [if_neg hz]
          rw [if_neg (fun x => e (Or.inr x))]
          by_cases ec : v = s.cur
          · rw [if_pos ec, see_clean hc hcl hz, ec]
            have hr := root_fork h ha hn h.mounted
            simp only [St.content, St.used, St.disk, St.loc, hr]; rfl
          · rw [if_neg ec]
            have hr : (fork a n s).root v = s.root v := by
              simp only [St.root, fork]
              rw [if_neg e, if_neg ec]
            simp only [St.content, St.used, St.disk, St.loc, hr]; rfl
  | mount v hcl hv =>
    refine ⟨fun b j hz x hx => (by cases hx), ?_⟩
    show (mount v s).abs = { s.abs with cur := v }
    simp only [St.abs, Vols.mk.injEq]
    refine ⟨rfl, ?_⟩
    funext u b j
    by_cases hz : b = 0 ∧ j = 0
    · rw [if_pos hz, if_pos hz]
    · rw [if_neg hz, if_neg hz]
      show (if u = v then (mount v s).see b j else s.content u b j) = _
      have hm : (mount v s).see b j = s.content v b j := rfl
      by_cases eu : u = v
      · rw [if_pos eu, hm]
        by_cases ec : u = s.cur
        · rw [if_pos ec, see_clean hc hcl hz, ← ec, eu]
        · rw [if_neg ec, eu]
      · rw [if_neg eu]
        by_cases ec : u = s.cur
        · rw [if_pos ec, see_clean hc hcl hz, ec]
        · rw [if_neg ec]

/-! ### Histories -/

/-- A history with its requests. -/
inductive Run : List Act → St → St → Prop
  | nil {s : St} : Run [] s s
  | cons {a : Act} {as : List Act} {s s' s'' : St} : Safe a s → Step a s s' → Run as s' s'' → Run (a :: as) s s''

/-- The specification over a history. -/
inductive SpecRun : List Act → Vols → Vols → Prop
  | nil {m : Vols} : SpecRun [] m m
  | cons {a : Act} {as : List Act} {m m' m'' : Vols} : Next a m m' → SpecRun as m' m'' → SpecRun (a :: as) m m''

/-- **C25** (partial: not for writes to part of an uncached 64K block of an older volume, see
`C25_write_violated` and `C25_prepare_violated`).  Any history of writes, allocations, frees,
write-back, eviction, failing requests, snapshots and mounts behaves as if every volume were a
separate map from objects to content. -/
theorem C25_history_partial {as : List Act} {s s' : St} (h : Wf s) (hc : Cached s) (r : Run as s s') :
    Wf s' ∧ Cached s' ∧ SpecRun as s.abs s'.abs := by
  induction r with
  | nil => exact ⟨h, hc, .nil⟩
  | cons safe st _ ih =>
    obtain ⟨c1, n1⟩ := C25_step_partial h hc st safe
    obtain ⟨w2, c2, n2⟩ := ih (wf_step h st) c1
    exact ⟨w2, c2, .cons n1 n2⟩

/-- An empty repository with one volume. -/
def fresh (v : Lvid) (big : Bool) (per : Nat) : St :=
  { vol := fun u => if u = v then some {} else none, un := fun _ _ _ => {}, dat := fun _ _ _ _ => 0,
    cur := v, cache := fun _ _ => none, big := big, per := per }

theorem fresh_wf (v : Lvid) (big : Bool) (per : Nat) : Wf (fresh v big per) ∧ Cached (fresh v big per) := by
  refine ⟨⟨by simp [fresh], fun u V w hu hr => ?_, fun _ _ _ _ _ e => (by cases e), fun _ _ _ _ _ => rfl,
    fun _ _ _ _ e => (by cases e)⟩, fun b j _ x hx => (by cases hx)⟩
  simp only [fresh] at hu
  split at hu
  · cases hu; cases hr
  · cases hu

/-! ### 64K blocks -/

/-- Volume 1 with one 64K object in block 1, 7 in every byte, nothing cached. -/
def one : St :=
  { vol := fun u => if u = 1 then some { root := some 1 } else none
    un := fun v k i =>
      if v = 1 ∧ i = 0 ∧ k ≤ 4 then
        { child := fun c => if c = 0 ∨ k = 4 then some 1 else none
          used := fun c j => k = 4 && c == 1 && j == 0 }
      else {}
    dat := fun v b j _ => if v = 1 ∧ b = 1 ∧ j = 0 then 7 else 0
    cur := 1, cache := fun _ _ => none, big := true, per := 1 }

theorem one_wf : Wf one ∧ Cached one ∧ one.clean := by
  refine ⟨⟨rfl, fun u V w hu hr => ?_, fun v k i c w e => ?_, fun v k i c hv => ?_, fun _ _ _ _ e => (by cases e)⟩,
    fun b j _ x hx => (by cases hx), fun _ _ _ e => (by cases e)⟩
  · simp only [one] at hu
    split at hu
    · rename_i e; cases hu; cases hr; exact Or.inl e.symm
    · cases hu
  · simp only [one] at e
    split at e
    · rename_i h
      simp only at e
      split at e
      · cases e; exact Or.inl h.1.symm
      · cases e
    · cases e
  · simp only [one] at hv ⊢
    split at hv
    · cases hv
    · rename_i h
      rw [if_neg (fun x => h x.1)]

/-- After a snapshot. -/
def two : St := fork 2 3 one

theorem two_fork : Step (.fork 2 3) one two := .fork 2 3 (by decide +kernel) one_wf.2.2 rfl rfl (by decide)

theorem two_wf : Wf two ∧ Cached two :=
  ⟨wf_step one_wf.1 two_fork, (C25_step_partial one_wf.1 one_wf.2.1 two_fork trivial).1⟩

/-- A write to the first byte. -/
def setFirst (f : Nat → Nat) (i : Nat) : Nat := if i = 0 then 9 else f i

/-- Result of a step, as a state. -/
def got (x : Option St) : St := x.getD one

theorem got_some {x : Option St} (h : x.isSome = true) : x = some (got x) := by
  cases x with
  | none => cases h
  | some y => rfl

/-- **C25 is violated**: after a snapshot, the first write to part of a 64K data block that is not in
the cache loses the rest of the block in the live volume (vstage.c:2200-2222: the block itself is
not loaded before it is rebound). -/
theorem C25_write_violated :
    ∃ s s' g, Wf s ∧ Cached s ∧ Step (.write 1 0 g) s s' ∧ (∀ f i, i ≠ 0 → g f i = f i) ∧
      ∃ x x', s.see 1 0 = some x ∧ s'.see 1 0 = some x' ∧ x 5 = 7 ∧ x' 5 = 0 := by
  refine ⟨two, got (write 1 0 setFirst two), setFirst, two_wf.1, two_wf.2,
    .write 1 0 setFirst (by decide +kernel) (got_some (by decide +kernel)), fun f i h => by simp [setFirst, h], ?_⟩
  refine ⟨fun _ => 7, (((got (write 1 0 setFirst two)).see 1 0).getD fun _ => 1), ?_, ?_, rfl, by decide +kernel⟩
  · rfl
  · have : ((got (write 1 0 setFirst two)).see 1 0).isSome = true := by decide +kernel
    cases h : (got (write 1 0 setFirst two)).see 1 0 with
    | none => rw [h] at this; cases this
    | some y => rfl

/-- **C25 is violated**: preparing an allocated 64K block for writing, which is all that `fallocate`
does with it (file.c:3662-3670), replaces its content by that of a new block. -/
theorem C25_prepare_violated :
    ∃ s s', Wf s ∧ Cached s ∧ Step (.touch 1 0) s s' ∧
      ∃ x x', s.see 1 0 = some x ∧ s'.see 1 0 = some x' ∧ x 5 = 7 ∧ x' 5 = 0 := by
  refine ⟨two, got (cowBlk false 1 0 two), two_wf.1, two_wf.2,
    .touch 1 0 (by decide +kernel) (got_some (by decide +kernel)), ?_⟩
  refine ⟨fun _ => 7, (((got (cowBlk false 1 0 two)).see 1 0).getD fun _ => 1), ?_, ?_, rfl, by decide +kernel⟩
  · rfl
  · have : ((got (cowBlk false 1 0 two)).see 1 0).isSome = true := by decide +kernel
    cases h : (got (cowBlk false 1 0 two)).see 1 0 with
    | none => rw [h] at this; cases this
    | some y => rfl

/-- The same with smaller objects. -/
def small : St := { one with big := false }

/-- **C25 is violated**: when rebinding fails after the objects of the block were loaded, they stay
dirty although their block belongs to an older volume, and cannot be written back
(vstage.c:2282-2293, flush.c:476-490). -/
theorem C25_flush_violated :
    ∃ s s' e, Wf s ∧ Cached s ∧ s.clean ∧ Step .internal s s' ∧
      s'.cache 1 0 = some e ∧ e.dirty = true ∧ flush 1 0 s' = none := by
  have h : Wf small ∧ Cached small ∧ small.clean :=
    ⟨⟨one_wf.1.mounted, one_wf.1.root, one_wf.1.child, one_wf.1.fresh, one_wf.1.clean⟩,
      fun b j _ x hx => (by cases hx), fun _ _ _ e => (by cases e)⟩
  have f : Step (.fork 2 3) small (fork 2 3 small) :=
    .fork 2 3 (by decide +kernel) h.2.2 rfl rfl (by decide)
  have hsome : ((got (failClone false 1 0 (fork 2 3 small))).cache 1 0).isSome = true := by
    decide +kernel
  refine ⟨fork 2 3 small, got (failClone false 1 0 (fork 2 3 small)),
    (((got (failClone false 1 0 (fork 2 3 small))).cache 1 0).getD ⟨fun _ => 0, 0, false⟩),
    wf_step h.1 f, (C25_step_partial h.1 h.2.1 f trivial).1, fun _ _ _ e => (by cases e),
    .failClone false 1 0 (by decide +kernel) (got_some (by decide +kernel)), ?_, by decide +kernel, ?_⟩
  · cases h : (got (failClone false 1 0 (fork 2 3 small))).cache 1 0 with
    | none => rw [h] at hsome; cases hsome
    | some y => rfl
  · have : (flush 1 0 (got (failClone false 1 0 (fork 2 3 small)))).isSome = false := by decide +kernel
    cases h : flush 1 0 (got (failClone false 1 0 (fork 2 3 small))) with
    | none => rfl
    | some y => rw [h] at this; cases this

/-! ### Cases -/

/-- Smaller objects: block 1 with two objects of volume 1, 7 and 8 in every byte. -/
def pair : St :=
  { one with
    un := fun v k i =>
      if v = 1 ∧ i = 0 ∧ k ≤ 4 then
        { child := fun c => if c = 0 ∨ k = 4 then some 1 else none
          used := fun c j => k = 4 && c == 1 && j ≤ 1 }
      else {}
    dat := fun v b j _ => if v = 1 ∧ b = 1 then 7 + j else 0
    big := false, per := 2 }

theorem pair_wf : Wf pair ∧ Cached pair ∧ pair.clean := by
  refine ⟨⟨rfl, one_wf.1.root, fun v k i c w e => ?_, fun v k i c hv => ?_, fun _ _ _ _ e => (by cases e)⟩,
    fun b j _ x hx => (by cases hx), fun _ _ _ e => (by cases e)⟩
  · simp only [pair] at e
    split at e
    · rename_i h
      simp only at e
      split at e
      · cases e; exact Or.inl h.1.symm
      · cases e
    · cases e
  · simp only [pair, one] at hv ⊢
    split at hv
    · cases hv
    · rename_i h
      rw [if_neg (fun x => h x.1)]

/-- A history that the theorems speak about: snapshot, write one of two objects that share a block,
write both back, evict, mount the snapshot. -/
example : Run [.fork 2 3, .write 1 0 setFirst, .internal, .internal, .internal, .internal]
    pair (got (evict 1 1 (got (evict 1 0 (got (flush 1 1 (got (flush 1 0 (got (write 1 0 setFirst (fork 2 3 pair)))))))))))  := by
  refine .cons trivial (.fork 2 3 (by decide +kernel) pair_wf.2.2 rfl rfl (by decide)) ?_
  refine .cons ⟨by decide, Or.inl rfl⟩ (.write 1 0 _ (by decide +kernel) (got_some (by decide +kernel))) ?_
  refine .cons trivial (.flush 1 0 (got_some (by decide +kernel))) ?_
  refine .cons trivial (.flush 1 1 (got_some (by decide +kernel))) ?_
  refine .cons trivial (.evict 1 0 (got_some (by decide +kernel))) ?_
  exact .cons trivial (.evict 1 1 (got_some (by decide +kernel))) .nil

/-- In it both objects of the live volume are in a new block, with the right content, and the snapshot
still has the old content. -/
example :
    let s := got (evict 1 1 (got (evict 1 0 (got (flush 1 1 (got (flush 1 0 (got (write 1 0 setFirst (fork 2 3 pair)))))))))) 
    s.loc 3 5 1 = some 3 ∧ s.loc 2 5 1 = some 1 ∧ (s.see 1 0).map (· 0) = some 9 ∧ (s.see 1 0).map (· 1) = some 7 ∧
      (s.see 1 1).map (· 0) = some 8 ∧ (s.content 2 1 0).map (· 0) = some 7 := by decide +kernel

/-- The history theorems start from an empty repository. -/
example : Wf (fresh 1 false 64) ∧ Cached (fresh 1 false 64) := fresh_wf 1 false 64

end Silofs.Snap
