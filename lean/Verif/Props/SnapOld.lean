import Verif.Props.SnapBase
/-
C24: what a snapshot holds never changes.
-/
set_option linter.unusedSimpArgs false
set_option linter.unusedVariables false
namespace Silofs.Snap

/-- The volume was closed by a fork. -/
def St.fos (s : St) (w : Lvid) : Prop := ∃ W, s.vol w = some W ∧ W.fossil = true

/-- Well-formed storage: a node refers to its own volume or to closed ones. -/
structure Wf (s : St) : Prop where
  mounted : (s.vol s.cur).isSome = true
  root : ∀ v V w, s.vol v = some V → V.root = some w → w = v ∨ s.fos w
  child : ∀ v k i c w, (s.un v k i).child c = some w → w = v ∨ s.fos w
  fresh : ∀ v k i c, s.vol v = none → (s.un v k i).child c = none
  clean : s.mut = false → ∀ b j e, s.cache b j = some e → e.dirty = false

theorem Wf.loc {s : St} (h : Wf s) {v : Lvid} : ∀ {k i w}, s.loc v k i = some w → w = v ∨ s.fos w := by
  intro k
  induction k with
  | zero =>
    intro i w e
    simp only [St.loc, walk, St.root] at e
    split at e
    · cases hv : s.vol v with
      | none => rw [hv] at e; cases e
      | some V => rw [hv] at e; exact h.root v V w hv e
    · cases e
  | succ k ih =>
    intro i w e
    simp only [St.loc, walk] at e
    split at e
    · cases e
    · rename_i u hu
      rcases ih hu with e1 | hf
      · subst e1; exact h.child _ _ _ _ _ e
      · rcases h.child _ _ _ _ _ e with e1 | hf'
        · subst e1; exact Or.inr hf
        · exact Or.inr hf'

theorem St.not_fos {s : St} (h : s.mut = true) : ¬ s.fos s.cur := by
  rintro ⟨W, h1, h2⟩
  simp [St.mut, h1, h2] at h

theorem fos_own {s s' : St} (o : Own s s') {w : Lvid} : s.fos w → s'.fos w := by
  rintro ⟨W, h1, h2⟩
  by_cases e : w = s.cur
  · subst e
    obtain ⟨V', h3, h4⟩ := o.fos W h1
    exact ⟨V', h3, h4.trans h2⟩
  · exact ⟨W, (o.vol w e).trans h1, h2⟩

/-- Resolving from another volume is not affected. -/
theorem loc_other {s s' : St} (h : Wf s) (m : s.mut = true) (o : Own s s') {v : Lvid} (hv : v ≠ s.cur) (k i : Nat) :
    s'.loc v k i = s.loc v k i := by
  have hr : s'.root v = s.root v := by simp only [St.root, o.vol v hv]
  simp only [St.loc, hr]
  refine walk_congr (fun k' i' w _ hw => o.un w k' i' ?_) i
  intro e
  subst e
  rcases h.loc (v := v) hw with e | hf
  · exact hv e.symm
  · exact St.not_fos m hf

/-! ### Well-formedness is kept -/

theorem wf_setUn {s : St} {k i : Nat} {n : UNode} (h : Wf s) (m : s.mut = true)
    (hn : ∀ c w, n.child c = some w → w = s.cur ∨ s.fos w) : Wf (s.setUn k i n) where
  mounted := h.mounted
  root := h.root
  child v k' i' c w e := by
    simp only [St.setUn] at e
    split at e
    · rename_i he; rw [he.1]; exact hn c w e
    · exact h.child v k' i' c w e
  fresh v k' i' c hv := by
    have : v ≠ s.cur := by
      intro e
      have := h.mounted
      have hv' : s.vol v = none := hv
      rw [← e, hv'] at this
      cases this
    simp only [St.setUn]
    rw [if_neg (fun e => this e.1)]
    exact h.fresh v k' i' c hv
  clean hm := by
    have : s.mut = false := hm
    rw [m] at this
    cases this

theorem mut_setUn (s : St) (k i : Nat) (n : UNode) : (s.setUn k i n).mut = s.mut := rfl

theorem mut_setRoot (s : St) : s.setRoot.mut = s.mut := by
  simp only [St.mut, St.setRoot, if_true]
  cases s.vol s.cur <;> rfl

theorem wf_setRoot {s : St} (h : Wf s) (m : s.mut = true) : Wf s.setRoot where
  mounted := by
    have := h.mounted
    simp only [St.setRoot, if_true, Option.isSome_map]
    exact this
  root v V w hv hr := by
    simp only [St.setRoot] at hv
    split at hv
    · rename_i e
      rw [Option.map_eq_some_iff] at hv
      obtain ⟨V', _, rfl⟩ := hv
      simp only [Option.some.injEq] at hr
      exact Or.inl (by rw [← hr, e])
    · rcases h.root v V w hv hr with e | hf
      · exact Or.inl e
      · exact Or.inr (fos_own (own_setRoot s) hf)
  child v k i c w e := by
    rcases h.child v k i c w e with e | hf
    · exact Or.inl e
    · exact Or.inr (fos_own (own_setRoot s) hf)
  fresh v k i c hv := by
    refine h.fresh v k i c ?_
    simp only [St.setRoot] at hv
    split at hv
    · rwa [Option.map_eq_none_iff] at hv
    · exact hv
  clean hm := by rw [mut_setRoot, m] at hm; cases hm

theorem wf_bind {s : St} {k i c : Nat} (h : Wf s) (m : s.mut = true) : Wf (s.bind k i c) := by
  refine wf_setUn h m (fun c' w e => ?_)
  simp only at e
  split at e
  · cases e; exact Or.inl rfl
  · exact h.child _ _ _ _ _ e

theorem wf_setUsed {s : St} {b j : Nat} {x : Bool} (h : Wf s) (m : s.mut = true) : Wf (setUsed b j x s) :=
  wf_setUn h m (fun c' w e => h.child _ _ _ _ _ e)

/-- The cache does not matter for well-formedness of a writable volume. -/
theorem wf_cache {s s' : St} (h : Wf s) (m : s.mut = true) (hv : s'.vol = s.vol) (hu : s'.un = s.un)
    (hc : s'.cur = s.cur) : Wf s' where
  mounted := by rw [hv, hc]; exact h.mounted
  root v V w e1 e2 := by rw [hv] at e1; simp only [St.fos, hv]; exact h.root v V w e1 e2
  child v k i c w e := by rw [hu] at e; simp only [St.fos, hv]; exact h.child v k i c w e
  fresh v k i c e := by rw [hv] at e; rw [hu]; exact h.fresh v k i c e
  clean hm := by
    have : s'.mut = s.mut := by simp only [St.mut, hv, hc]
    rw [this, m] at hm; cases hm

/-- The node a reference of the mounted volume leads to. -/
theorem child_copy {s : St} (h : Wf s) {w : Lvid} (hw : w = s.cur ∨ s.fos w) (k i c : Nat) (u : Lvid)
    (e : (s.un w k i).child c = some u) : u = s.cur ∨ s.fos u := by
  rcases h.child _ _ _ _ _ e with e1 | hf
  · subst e1; exact hw
  · exact Or.inr hf

theorem wf_cow (mk : Bool) (k : Nat) : ∀ i s, Wf s → s.mut = true → Wf (cow mk k i s).1 := by
  induction k with
  | zero =>
    intro i s h m
    simp only [cow]
    split
    · split
      · rename_i w hr
        split
        · exact h
        · have hw := h.loc (v := s.cur) (k := 0) (i := 0) (w := w) (by simp only [St.loc, walk, if_true, hr])
          exact wf_setRoot (wf_setUn h m (fun c u e => child_copy h hw 0 0 c u e)) m
      · split
        · refine wf_setRoot (wf_setUn h m (fun c u e => ?_)) m
          simp [freshNode] at e
        · exact h
    · exact h
  | succ k ih =>
    intro i s h m
    have h1 := ih (i / 256) s h m
    have o1 := own_cow mk k (i / 256) s
    simp only [cow]
    split
    · rename_i s' e; rw [e] at h1; exact h1
    · rename_i s' e
      rw [e] at h1 o1
      have m1 := o1.mut m
      split
      · rename_i w hw
        have hw' := h1.child _ _ _ _ _ hw
        split
        · exact h1
        · exact wf_bind (wf_setUn h1 m1 (fun c u e => child_copy h1 hw' _ _ c u e)) m1
      · split
        · refine wf_bind (wf_setUn h1 m1 (fun c u e => ?_)) m1
          simp only [freshNode] at e
          split at e
          · cases e; exact Or.inl rfl
          · cases e
        · exact h1

theorem load_same {b j : Nat} {s s' : St} (h : load b j s = some s') :
    s'.vol = s.vol ∧ s'.un = s.un ∧ s'.cur = s.cur ∧ s'.dat = s.dat ∧ s'.per = s.per ∧ s'.big = s.big := by
  unfold load at h
  split at h
  · cases h; exact ⟨rfl, rfl, rfl, rfl, rfl, rfl⟩
  · split at h
    · split at h
      · cases h
      · cases h; exact ⟨rfl, rfl, rfl, rfl, rfl, rfl⟩
    · cases h

theorem preClone_same {raw : Bool} {b j n : Nat} : ∀ {s s' : St}, preClone raw b j n s = some s' →
    s'.vol = s.vol ∧ s'.un = s.un ∧ s'.cur = s.cur ∧ s'.dat = s.dat ∧ s'.per = s.per ∧ s'.big = s.big := by
  induction n with
  | zero => intro s s' h; cases h; exact ⟨rfl, rfl, rfl, rfl, rfl, rfl⟩
  | succ n ih =>
    intro s s' h
    simp only [preClone] at h
    split at h
    · cases h
    · rename_i s1 e
      obtain ⟨a1, a2, a3, a4, a5, a6⟩ := ih e
      split at h
      · obtain ⟨b1, b2, b3, b4, b5, b6⟩ := load_same h
        exact ⟨b1.trans a1, b2.trans a2, b3.trans a3, b4.trans a4, b5.trans a5, b6.trans a6⟩
      · cases h; exact ⟨a1, a2, a3, a4, a5, a6⟩

theorem wf_cowBlk {raw : Bool} {b j : Nat} {s s' : St} (h : Wf s) (m : s.mut = true)
    (e : cowBlk raw b j s = some s') : Wf s' := by
  have hc := wf_cow false 4 (b / 256) s h m
  have oc := own_cow false 4 (b / 256) s
  unfold cowBlk at e
  split at e
  · cases e
  · rename_i s1 e1
    rw [e1] at hc oc
    have m1 := oc.mut m
    split at e
    · cases e
    · split at e
      · cases e; exact hc
      · split at e
        · cases e
        · rename_i s2 e2
          cases e
          obtain ⟨a1, a2, a3, _⟩ := preClone_same e2
          have h2 := wf_cache hc m1 a1 a2 a3
          have m2 := (own_preClone e2).mut m1
          exact wf_cache (wf_bind h2 m2) m2 rfl rfl rfl

theorem wf_failClone {raw : Bool} {b j : Nat} {s s' : St} (h : Wf s) (m : s.mut = true)
    (e : failClone raw b j s = some s') : Wf s' := by
  have hc := wf_cow false 4 (b / 256) s h m
  have oc := own_cow false 4 (b / 256) s
  unfold failClone at e
  split at e
  · cases e
  · rename_i s1 e1
    rw [e1] at hc oc
    have m1 := oc.mut m
    split at e
    · cases e
    · rename_i s2 e2
      cases e
      obtain ⟨a1, a2, a3, _⟩ := preClone_same e2
      exact wf_cache hc m1 a1 a2 a3

theorem wf_stageCow {raw : Bool} {b j : Nat} {s s' : St} (h : Wf s) (m : s.mut = true)
    (e : stageCow raw b j s = some s') : Wf s' := by
  unfold stageCow at e
  split at e
  · split at e
    · cases e; exact h
    · split at e
      · cases e
      · rename_i s1 e1; cases e
        exact wf_cache (wf_cowBlk h m e1) ((own_cowBlk e1).mut m) rfl rfl rfl
  · split at e
    · split at e
      · cases e
      · rename_i s1 e1; cases e
        exact wf_cache (wf_cowBlk h m e1) ((own_cowBlk e1).mut m) rfl rfl rfl
    · cases e

theorem wf_write {b j : Nat} {g} {s s' : St} (h : Wf s) (m : s.mut = true) (e : write b j g s = some s') : Wf s' := by
  unfold write at e
  rw [Option.map_eq_some_iff] at e
  obtain ⟨s1, e1, rfl⟩ := e
  exact wf_cache (wf_stageCow h m e1) ((own_stageCow e1).mut m) rfl rfl rfl

theorem wf_spawn {b j : Nat} {s s' : St} (h : Wf s) (m : s.mut = true) (e : spawn b j s = some s') : Wf s' := by
  have hc := wf_cow true 4 (b / 256) s h m
  have oc := own_cow true 4 (b / 256) s
  unfold spawn at e
  split at e
  · cases e
  · rename_i s1 e1
    rw [e1] at hc oc
    have m1 := oc.mut m
    split at e
    · cases e
    · rw [Option.map_eq_some_iff] at e
      obtain ⟨s2, e2, rfl⟩ := e
      have h2 := wf_stageCow (wf_setUsed hc m1) m1 e2
      have m2 := (own_stageCow e2).mut m1
      exact wf_cache h2 m2 rfl rfl rfl

theorem wf_free {b j : Nat} {s s' : St} (h : Wf s) (m : s.mut = true) (e : free b j s = some s') : Wf s' := by
  unfold free at e
  split at e
  · cases e
  · rename_i s1 e1
    have m1 := (own_cowBlk e1).mut m
    split at e
    · cases e
      exact wf_cache (wf_setUsed (wf_cowBlk h m e1) m1) m1 rfl rfl rfl
    · cases e

theorem wf_load {b j : Nat} {s s' : St} (h : Wf s) (e : load b j s = some s') : Wf s' := by
  unfold load at e
  split at e
  · cases e; exact h
  · split at e
    · split at e
      · cases e
      · cases e
        refine ⟨h.mounted, h.root, h.child, h.fresh, fun hm b' j' e' he => ?_⟩
        simp only [St.setCache] at he
        split at he
        · cases he; rfl
        · exact h.clean hm _ _ _ he
    · cases e

theorem wf_flush {b j : Nat} {s s' : St} (h : Wf s) (e : flush b j s = some s') : Wf s' := by
  unfold flush at e
  split at e
  · cases e
  · split at e
    · split at e <;> cases e
      refine ⟨h.mounted, h.root, h.child, h.fresh, fun hm b' j' e' he => ?_⟩
      simp only [St.setCache] at he
      split at he
      · cases he; rfl
      · exact h.clean hm _ _ _ he
    · cases e

theorem wf_evict {b j : Nat} {s s' : St} (h : Wf s) (e : evict b j s = some s') : Wf s' := by
  unfold evict at e
  split at e
  · cases e
  · split at e
    · cases e
    · cases e
      refine ⟨h.mounted, h.root, h.child, h.fresh, fun hm b' j' e' he => ?_⟩
      simp only [St.setCache] at he
      split at he
      · cases he
      · exact h.clean hm _ _ _ he

theorem fos_fork {s : St} {a n w : Lvid} (ha : s.vol a = none) (hn : s.vol n = none) (h : s.fos w) :
    (fork a n s).fos w := by
  obtain ⟨W, h1, h2⟩ := h
  have h3 : ¬ (w = a ∨ w = n) := by
    rintro (e | e) <;> subst e
    · rw [ha] at h1; cases h1
    · rw [hn] at h1; cases h1
  by_cases e : w = s.cur
  · exact ⟨{ W with fossil := true }, by simp only [fork]; rw [if_neg h3, if_pos e, h1]; rfl, rfl⟩
  · exact ⟨W, by simp only [fork]; rw [if_neg h3, if_neg e, h1], h2⟩

theorem fos_fork_cur {s : St} {a n : Lvid} (ha : s.vol a = none) (hn : s.vol n = none) (h : Wf s) :
    (fork a n s).fos s.cur := by
  have hm := h.mounted
  rw [Option.isSome_iff_exists] at hm
  obtain ⟨W, h1⟩ := hm
  have h3 : ¬ (s.cur = a ∨ s.cur = n) := by
    rintro (e | e) <;> rw [e] at h1
    · rw [ha] at h1; cases h1
    · rw [hn] at h1; cases h1
  exact ⟨{ W with fossil := true }, by simp only [fork]; rw [if_neg h3, if_true, h1]; rfl, rfl⟩

theorem wf_fork {s : St} {a n : Lvid} (h : Wf s) (ha : s.vol a = none) (hn : s.vol n = none) (hc : s.clean) :
    Wf (fork a n s) where
  mounted := by simp [fork]
  root v V w hv hr := by
    simp only [fork] at hv
    split at hv
    · simp only [Option.some.injEq] at hv
      subst hv
      simp only at hr
      rcases h.loc (v := s.cur) (k := 0) (i := 0) (w := w) (by simp only [St.loc, walk, if_true, hr]) with e | hf
      · subst e; exact Or.inr (fos_fork_cur ha hn h)
      · exact Or.inr (fos_fork ha hn hf)
    · split at hv
      · rename_i e
        rw [Option.map_eq_some_iff] at hv
        obtain ⟨V', hv', rfl⟩ := hv
        rcases h.root v V' w hv' hr with e | hf
        · exact Or.inl e
        · exact Or.inr (fos_fork ha hn hf)
      · rcases h.root v V w hv hr with e | hf
        · exact Or.inl e
        · exact Or.inr (fos_fork ha hn hf)
  child v k i c w e := by
    rcases h.child v k i c w e with e | hf
    · exact Or.inl e
    · exact Or.inr (fos_fork ha hn hf)
  fresh v k i c hv := by
    refine h.fresh v k i c ?_
    simp only [fork] at hv
    split at hv
    · cases hv
    · split at hv
      · rwa [Option.map_eq_none_iff] at hv
      · exact hv
  clean _ := hc

theorem wf_mount {s : St} {v : Lvid} (h : Wf s) (hv : (s.vol v).isSome = true) : Wf (mount v s) :=
  ⟨hv, h.root, h.child, h.fresh, fun _ b j e he => by cases he⟩

/-- Every step keeps the storage well-formed. -/
theorem wf_step {a : Act} {s s' : St} (h : Wf s) (st : Step a s s') : Wf s' := by
  cases st with
  | cow mk k i m hk => exact wf_cow mk k i s h m
  | load b j e => exact wf_load h e
  | touch b j m e => exact wf_cowBlk h m e
  | failClone raw b j m e => exact wf_failClone h m e
  | flush b j e => exact wf_flush h e
  | evict b j e => exact wf_evict h e
  | write b j g m e => exact wf_write h m e
  | spawn b j m e => exact wf_spawn h m e
  | free b j m e => exact wf_free h m e
  | fork a n m hc ha hn hne => exact wf_fork h ha hn hc
  | mount v hc hv => exact wf_mount h hv

/-! ### C24 -/

/-- What volume `v` holds: the content of every allocated object, read from storage. -/
def St.content (s : St) (v : Lvid) (b j : Nat) : Option (Nat → Nat) :=
  if s.used v b j then s.disk v b j else none

theorem content_other {s s' : St} (h : Wf s) (m : s.mut = true) (o : Own s s') {v : Lvid} (hv : v ≠ s.cur)
    (b j : Nat) : s'.content v b j = s.content v b j := by
  have l := loc_other h m o hv
  have key : ∀ k i w, s.loc v k i = some w → w ≠ s.cur := by
    intro k i w hw e
    subst e
    rcases h.loc hw with e | hf
    · exact hv e.symm
    · exact St.not_fos m hf
  have hu : s'.used v b j = s.used v b j := by
    simp only [St.used, l, o.per]
    cases hw : s.loc v 4 (b / 256) with
    | none => rfl
    | some w => simp only; rw [o.un w _ _ (key _ _ _ hw)]
  have hd : s'.disk v b j = s.disk v b j := by
    simp only [St.disk, l]
    cases hw : s.loc v 5 b with
    | none => rfl
    | some w => simp only [Option.map_some]; rw [o.dat w _ _ (key _ _ _ hw)]
  simp only [St.content, hu, hd]

/-- Nothing but the cache changes. -/
theorem content_same {s s' : St} (hv : s'.vol = s.vol) (hu : s'.un = s.un) (hd : s'.dat = s.dat)
    (hp : s'.per = s.per) (v : Lvid) (b j : Nat) : s'.content v b j = s.content v b j := by
  simp only [St.content, St.used, St.disk, St.loc, St.root, hv, hu, hd, hp]
  rfl

theorem root_fork {s : St} {a n v : Lvid} (h : Wf s) (ha : s.vol a = none) (hn : s.vol n = none)
    (hv : (s.vol v).isSome = true) : (fork a n s).root v = s.root v := by
  have h3 : ¬ (v = a ∨ v = n) := by
    rintro (e | e) <;> subst e
    · rw [ha] at hv; cases hv
    · rw [hn] at hv; cases hv
  simp only [St.root, fork]
  rw [if_neg h3]
  split
  · cases s.vol v <;> rfl
  · rfl

/-- **C24** (one step).  Whatever happens in the mounted volume, a volume that is not mounted, and one
that was closed by a fork even if it is mounted, holds the same objects with the same content. -/
theorem C24_step {a : Act} {s s' : St} (h : Wf s) (st : Step a s s') {v : Lvid} (hv : (s.vol v).isSome = true)
    (hm : v ≠ s.cur ∨ s.fos v) : ∀ b j, s'.content v b j = s.content v b j := by
  intro b' j'
  have oth : s.mut = true → Own s s' → s'.content v b' j' = s.content v b' j' := by
    intro m o
    rcases hm with e | hf
    · exact content_other h m o e b' j'
    · exact content_other h m o (fun e => by rw [e] at hf; exact St.not_fos m hf) b' j'
  cases st with
  | cow mk k i m hk => exact oth m (own_cow mk k i s)
  | load b j e =>
    obtain ⟨a1, a2, _, a4, a5, _⟩ := load_same e
    exact content_same a1 a2 a4 a5 v b' j'
  | touch b j m e => exact oth m (own_cowBlk e)
  | failClone raw b j m e => exact oth m (own_failClone e)
  | flush b j e =>
    by_cases m : s.mut = true
    · exact oth m (own_flush e)
    · have c := h.clean (by simpa using m)
      unfold flush at e
      split at e
      · cases e
      · rename_i e1 he
        rw [c _ _ _ he] at e
        cases e
  | evict b j e =>
    unfold evict at e
    split at e
    · cases e
    · split at e
      · cases e
      · cases e; exact content_same (s' := s.setCache b j none) rfl rfl rfl rfl v b' j'
  | write b j g m e => exact oth m (own_write e)
  | spawn b j m e => exact oth m (own_spawn e)
  | free b j m e => exact oth m (own_free e)
  | fork a n m hc ha hn hne =>
    have hr := root_fork h ha hn hv
    simp only [St.content, St.used, St.disk, St.loc, hr]
    rfl
  | mount w hc hw => rfl

/-- A history; `P` restricts the mounted volume along it. -/
inductive Steps (P : St → Prop) : St → St → Prop
  | refl {s : St} : Steps P s s
  | step {s s' s'' : St} {a : Act} : Steps P s s' → P s' → Step a s' s'' → Steps P s s''

theorem step_known {a : Act} {s s' : St} (st : Step a s s') (h : Wf s) {v : Lvid} (hv : (s.vol v).isSome = true) :
    (s'.vol v).isSome = true ∧ (s.fos v → s'.fos v) := by
  have own : Own s s' → (s'.vol v).isSome = true ∧ (s.fos v → s'.fos v) := by
    intro o
    refine ⟨?_, fos_own o⟩
    by_cases e : v = s.cur
    · subst e
      rw [Option.isSome_iff_exists] at hv
      obtain ⟨V, hV⟩ := hv
      obtain ⟨V', h1, _⟩ := o.fos V hV
      rw [h1]; rfl
    · rw [o.vol v e]; exact hv
  cases st with
  | cow mk k i m hk => exact own (own_cow mk k i s)
  | load b j e => exact own (own_load e)
  | touch b j m e => exact own (own_cowBlk e)
  | failClone raw b j m e => exact own (own_failClone e)
  | flush b j e => exact own (own_flush e)
  | evict b j e => exact own (own_evict e)
  | write b j g m e => exact own (own_write e)
  | spawn b j m e => exact own (own_spawn e)
  | free b j m e => exact own (own_free e)
  | fork a n m hc ha hn hne =>
    refine ⟨?_, fos_fork ha hn⟩
    simp only [fork]
    split
    · rfl
    · split
      · rw [Option.isSome_map]; exact hv
      · exact hv
  | mount w hc hw => exact ⟨hv, id⟩

/-- **C24**: over any history of requests, write-back, failing requests, further snapshots and
mounting other volumes, a volume that is not mounted in it keeps its content. -/
theorem C24_snapshot {v : Lvid} {s s' : St} (h : Wf s) (hv : (s.vol v).isSome = true)
    (st : Steps (fun t => v ≠ t.cur) s s') :
    Wf s' ∧ (s'.vol v).isSome = true ∧ ∀ b j, s'.content v b j = s.content v b j := by
  induction st with
  | refl => exact ⟨h, hv, fun _ _ => rfl⟩
  | step st p one ih =>
    obtain ⟨i1, i2, i3⟩ := ih
    exact ⟨wf_step i1 one, (step_known one i1 i2).1, fun b j => (C24_step i1 one i2 (Or.inl p) b j).trans (i3 b j)⟩

/-- **C24**: a closed volume keeps its content even when it is mounted again. -/
theorem C24_closed {v : Lvid} {s s' : St} (h : Wf s) (hv : s.fos v) (st : Steps (fun _ => True) s s') :
    Wf s' ∧ s'.fos v ∧ ∀ b j, s'.content v b j = s.content v b j := by
  induction st with
  | refl => exact ⟨h, hv, fun _ _ => rfl⟩
  | step st p one ih =>
    obtain ⟨i1, i2, i3⟩ := ih
    have k := i2; obtain ⟨W, e, _⟩ := k
    have k : Option.isSome (some W) = true := rfl
    rw [← e] at k
    exact ⟨wf_step i1 one, (step_known one i1 k).2 i2, fun b j => (C24_step i1 one k (Or.inr i2) b j).trans (i3 b j)⟩

/-- **C24**: a fork makes the snapshot and the new volume equal to the forked one at that moment. -/
theorem C24_fork {s s' : St} {a n : Lvid} (h : Wf s) (st : Step (.fork a n) s s') :
    (∀ b j, s'.content a b j = s.content s.cur b j) ∧ (∀ b j, s'.content n b j = s.content s.cur b j) ∧
      (∀ b j, s'.content s.cur b j = s.content s.cur b j) ∧ s'.cur = n ∧ s'.fos s.cur := by
  have third := C24_step h st (v := s.cur) h.mounted
  cases st with
  | fork _ _ m hc ha hn hne =>
    refine ⟨fun b j => ?_, fun b j => ?_, fun b j => ?_, rfl, fos_fork_cur ha hn h⟩
    · have hr : (fork a n s).root a = s.root s.cur := by simp [St.root, fork]
      simp only [St.content, St.used, St.disk, St.loc, hr]; rfl
    · have hr : (fork a n s).root n = s.root s.cur := by simp [St.root, fork]
      simp only [St.content, St.used, St.disk, St.loc, hr]; rfl
    · have hr := root_fork h ha hn h.mounted
      simp only [St.content, St.used, St.disk, St.loc, hr]; rfl

/-- **C24**: the snapshot taken by a fork keeps the content of the moment of the fork for as long as
it is not mounted for writing itself. -/
theorem C24_snapshot_of_fork {s s1 s2 : St} {a n : Lvid} (h : Wf s) (f : Step (.fork a n) s s1)
    (st : Steps (fun t => a ≠ t.cur) s1 s2) : ∀ b j, s2.content a b j = s.content s.cur b j := by
  intro b j
  have hk : (s1.vol a).isSome = true := by
    cases f with
    | fork _ _ m hc ha hn hne => simp [fork]
  rw [(C24_snapshot (wf_step h f) hk st).2.2 b j]
  exact (C24_fork h f).1 b j

end Silofs.Snap
