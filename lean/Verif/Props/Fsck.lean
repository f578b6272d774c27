import Verif.Spec.Fsck
/-
C79: what `fsck` says of a file-system, what it does to it, and what `view` prints.
-/
set_option linter.unusedSimpArgs false
set_option linter.unusedVariables false
namespace Silofs.Fk
open Silofs Silofs.Addr Silofs.Pack

/-! ### Staging -/

theorem map_some {e : Env} {r : Repo} {d : Nat} {a : Laddr} {l : List (Option Laddr)} (h : e.map r d a = some l) :
    stage e d a r = (r, some l) := by
  unfold Env.map at h
  cases hb : r.read a with
  | error x => rw [hb] at h; cases h
  | ok b =>
    rw [hb] at h
    simp only at h
    have hs : requireSeg r a.lsid = r := by
      unfold requireSeg
      cases hg : r.seg a.lsid with
      | some g => rfl
      | none => unfold Repo.read at hb; rw [hg] at hb; cases hb
    unfold stage
    rw [hs, hb]
    simp only
    rw [h]

theorem map_none {e : Env} {r : Repo} {d : Nat} {a : Laddr} (hz : Strict e) (h : e.map r d a = none) :
    stage e d a r = (requireSeg r a.lsid, none) := by
  unfold stage
  cases hg : r.seg a.lsid with
  | some g =>
    have hs : requireSeg r a.lsid = r := by unfold requireSeg; rw [hg]
    rw [hs]
    unfold Env.map at h
    cases hb : r.read a with
    | error x => rfl
    | ok b =>
      rw [hb] at h
      simp only at h ⊢
      rw [h]
  | none =>
    have hs : requireSeg r a.lsid = spawnSeg r a.lsid := by unfold requireSeg; rw [hg]
    rw [hs]
    cases hb : (spawnSeg r a.lsid).read a with
    | error x => rfl
    | ok b =>
      have hb' : b = List.replicate a.len 0 := by
        unfold Repo.read at hb
        simp only [spawnSeg, if_true] at hb
        split at hb
        · cases hb
        · cases hb
          refine List.ext_getElem (by simp) (fun i h1 h2 => by simp)
      simp only
      rw [hb', hz]
      rfl

/-! ### The walk -/

/-- All maps met can be read: by recursion. -/
def Ht (e : Env) (r : Repo) : Nat → Laddr → Prop
  | 0, a => ∃ l, e.map r 0 a = some l
  | d + 1, a => ∃ l, e.map r (d + 1) a = some l ∧ ∀ c ∈ front l, Ht e r d c

theorem ht_iff {e : Env} {r : Repo} (d : Nat) : ∀ a, Ht e r d a ↔ ∀ j k, Met e r d a j k → ∃ l, e.map r j k = some l := by
  induction d with
  | zero =>
    intro a
    refine ⟨fun h j k m => ?_, fun h => h 0 a .self⟩
    cases m
    exact h
  | succ d ih =>
    intro a
    constructor
    · rintro ⟨l, h1, h2⟩ j k m
      cases m with
      | self => exact ⟨l, h1⟩
      | down g1 g2 g3 =>
        rw [h1] at g1
        cases g1
        exact (ih _).1 (h2 _ g2) j k g3
    · intro h
      obtain ⟨l, hl⟩ := h _ _ .self
      exact ⟨l, hl, fun c hc => (ih c).2 (fun j k m => h j k (.down hl hc m))⟩

/-- The addresses passed on below a map. -/
def visit (e : Env) (r : Repo) : Nat → Laddr → List Laddr
  | 0, a =>
    match e.map r 0 a with
    | none => []
    | some l => lmap l
  | d + 1, a =>
    match e.map r (d + 1) a with
    | none => []
    | some l => (front l).flatMap (visit e r d) ++ lmap l

def run {σ : Type} (f : Laddr → σ → σ × Option Err) (L : List Laddr) (o : σ) : σ := L.foldl (fun o a => (f a o).1) o

theorem run_append {σ : Type} (f : Laddr → σ → σ × Option Err) (L L' : List Laddr) (o : σ) :
    run f (L ++ L') o = run f L' (run f L o) := List.foldl_append

theorem cbList_run {σ : Type} {f : Laddr → σ → σ × Option Err} (hf : ∀ a o, (f a o).2 = none) (L : List Laddr) :
    ∀ x : Wk σ, cbList f L x = (⟨x.repo, run f L x.out⟩, none) := by
  induction L with
  | nil => intro x; rfl
  | cons a L ih =>
    intro x
    have : f a x.out = ((f a x.out).1, none) := by rw [← hf a x.out]
    rw [cbList, this]
    simp only
    rw [ih]
    rfl

theorem front_cons (a : Laddr) (l : List (Option Laddr)) : front (some a :: l) = a :: front l := rfl

/-- What a walk gives, from a state with repository `r`: all is well, or the walk ends with an error. -/
def Good {σ : Type} (f : Laddr → σ → σ × Option Err) (r : Repo) (o : σ) (L : List Laddr) (z : Wk σ × Option Err) : Prop :=
  z = (⟨r, run f L o⟩, none)

def Bad {σ : Type} (r : Repo) (z : Wk σ × Option Err) : Prop :=
  ∃ l o', z = (⟨requireSeg r l, o'⟩, some .other)

theorem loop_two {σ : Type} {f : Laddr → σ → σ × Option Err} {t : Laddr → Wk σ → Wk σ × Option Err} {r : Repo}
    {H : Laddr → Prop} {v : Laddr → List Laddr}
    (h1 : ∀ a o, H a → Good f r o (v a) (t a ⟨r, o⟩)) (h2 : ∀ a o, ¬ H a → Bad r (t a ⟨r, o⟩)) :
    ∀ l o, ((∀ c ∈ front l, H c) → Good f r o ((front l).flatMap v) (loop t l ⟨r, o⟩)) ∧
      (¬ (∀ c ∈ front l, H c) → Bad r (loop t l ⟨r, o⟩)) := by
  intro l
  induction l with
  | nil => intro o; exact ⟨fun _ => rfl, fun h => absurd (fun c hc => (nomatch hc)) h⟩
  | cons s l ih =>
    intro o
    cases s with
    | none => exact ⟨fun _ => rfl, fun h => absurd (fun c hc => (nomatch hc)) h⟩
    | some a =>
      rw [front_cons]
      by_cases ha : H a
      · have g := h1 a o ha
        unfold Good at g
        rw [loop, g]
        simp only
        obtain ⟨i1, i2⟩ := ih (run f (v a) o)
        constructor
        · intro hc
          have := i1 (fun c hc' => hc c (List.mem_cons_of_mem _ hc'))
          unfold Good at this ⊢
          rw [this, List.flatMap_cons, run_append]
        · intro hc
          refine i2 (fun hh => hc (fun c hc' => ?_))
          rcases List.mem_cons.1 hc' with rfl | hc'
          · exact ha
          · exact hh c hc'
      · refine ⟨fun hc => absurd (hc a (List.mem_cons_self ..)) ha, fun _ => ?_⟩
        obtain ⟨s, o', g⟩ := h2 a o ha
        rw [loop, g]
        exact ⟨s, o', rfl⟩

theorem trav_two {σ : Type} {f : Laddr → σ → σ × Option Err} (hf : ∀ a o, (f a o).2 = none) {e : Env} (hz : Strict e)
    {r : Repo} (d : Nat) : ∀ a o, (Ht e r d a → Good f r o (visit e r d a) (trav e f d a ⟨r, o⟩)) ∧
      (¬ Ht e r d a → Bad r (trav e f d a ⟨r, o⟩)) := by
  induction d with
  | zero =>
    intro a o
    unfold Ht visit trav Good
    cases hm : e.map r 0 a with
    | none =>
      rw [map_none hz hm]
      exact ⟨fun ⟨l, hl⟩ => (nomatch hl), fun _ => ⟨a.lsid, o, rfl⟩⟩
    | some l =>
      rw [map_some hm]
      simp only
      rw [cbList_run hf]
      exact ⟨fun _ => rfl, fun h => absurd ⟨l, rfl⟩ h⟩
  | succ d ih =>
    intro a o
    unfold Ht visit trav Good
    cases hm : e.map r (d + 1) a with
    | none =>
      rw [map_none hz hm]
      exact ⟨fun ⟨l, hl, _⟩ => (nomatch hl), fun _ => ⟨a.lsid, o, rfl⟩⟩
    | some l =>
      rw [map_some hm]
      simp only
      obtain ⟨l1, l2⟩ := loop_two (f := f) (t := trav e f d) (r := r) (H := Ht e r d) (v := visit e r d)
        (fun a o => (ih a o).1) (fun a o => (ih a o).2) l o
      constructor
      · rintro ⟨l', hl, hc⟩
        cases hl
        rw [l1 hc]
        simp only
        rw [cbList_run hf, run_append]
      · intro h
        obtain ⟨s, o', g⟩ := l2 (fun hc => h ⟨l, rfl, hc⟩)
        rw [g]
        exact ⟨s, o', rfl⟩

theorem spaces_two {σ : Type} {f : Laddr → σ → σ × Option Err} {t : Laddr → Wk σ → Wk σ × Option Err} {r : Repo}
    {H : Laddr → Prop} {v : Laddr → List Laddr}
    (h1 : ∀ a o, H a → Good f r o (v a) (t a ⟨r, o⟩)) (h2 : ∀ a o, ¬ H a → Bad r (t a ⟨r, o⟩)) :
    ∀ l o, ((∀ c, some c ∈ l → H c) → Good f r o ((l.filterMap id).flatMap v) (spaces t l ⟨r, o⟩)) ∧
      (¬ (∀ c, some c ∈ l → H c) → Bad r (spaces t l ⟨r, o⟩)) := by
  intro l
  induction l with
  | nil => intro o; exact ⟨fun _ => rfl, fun h => absurd (fun c hc => (nomatch hc)) h⟩
  | cons s l ih =>
    intro o
    cases s with
    | none =>
      rw [spaces]
      obtain ⟨i1, i2⟩ := ih o
      refine ⟨fun hc => i1 (fun c hc' => hc c (List.mem_cons_of_mem _ hc')), fun hc => i2 (fun hh => hc (fun c hc' => ?_))⟩
      rcases List.mem_cons.1 hc' with h | hc'
      · cases h
      · exact hh c hc'
    | some a =>
      have ef : (some a :: l).filterMap id = a :: l.filterMap id := rfl
      rw [ef]
      by_cases ha : H a
      · have g := h1 a o ha
        unfold Good at g
        rw [spaces, g]
        simp only
        obtain ⟨i1, i2⟩ := ih (run f (v a) o)
        constructor
        · intro hc
          have := i1 (fun c hc' => hc c (List.mem_cons_of_mem _ hc'))
          unfold Good at this ⊢
          rw [this, List.flatMap_cons, run_append]
        · intro hc
          refine i2 (fun hh => hc (fun c hc' => ?_))
          rcases List.mem_cons.1 hc' with h | hc'
          · cases h; exact ha
          · exact hh c hc'
      · refine ⟨fun hc => absurd (hc a (List.mem_cons_self ..)) ha, fun _ => ?_⟩
        obtain ⟨s, o', g⟩ := h2 a o ha
        rw [spaces, g]
        exact ⟨s, o', rfl⟩

/-- Every map met from the roots can be read. -/
def Sound (e : Env) (r : Repo) (roots : List (Option Laddr)) : Prop :=
  ∀ a, some a ∈ roots → ∀ d k, Met e r 4 a d k → ∃ l, e.map r d k = some l

/-- All the addresses passed on. -/
def listing (e : Env) (r : Repo) (roots : List (Option Laddr)) (sb br : Laddr) : List Laddr :=
  (roots.filterMap id).flatMap (visit e r 4) ++ (roots.filterMap id ++ [sb, br])

theorem inspect_two {σ : Type} {f : Laddr → σ → σ × Option Err} (hf : ∀ a o, (f a o).2 = none) {e : Env} (hz : Strict e)
    {r : Repo} (roots : List (Option Laddr)) (sb br : Laddr) (o : σ) :
    (Sound e r roots → inspect e f roots sb br ⟨r, o⟩ = (⟨r, run f (listing e r roots sb br) o⟩, none)) ∧
      (¬ Sound e r roots → Bad r (inspect e f roots sb br ⟨r, o⟩)) := by
  have hs : Sound e r roots ↔ ∀ c, some c ∈ roots → Ht e r 4 c :=
    ⟨fun h c hc => (ht_iff 4 c).2 (h c hc), fun h c hc => (ht_iff 4 c).1 (h c hc)⟩
  obtain ⟨s1, s2⟩ := spaces_two (f := f) (t := trav e f 4) (r := r) (H := Ht e r 4) (v := visit e r 4)
    (fun a o => (trav_two hf hz 4 a o).1) (fun a o => (trav_two hf hz 4 a o).2) roots o
  rw [hs]
  unfold inspect listing
  constructor
  · intro h
    rw [s1 h]
    simp only
    rw [cbList_run hf]
    simp only [run_append]
  · intro h
    obtain ⟨s, o', g⟩ := s2 h
    rw [g]
    exact ⟨s, o', rfl⟩

/-! ### fsck -/

/-- **C79**: `fsck` says that all is well exactly if every space map which it meets is stored and sound; and then it has not
changed the repository. -/
theorem C79_fsck {e : Env} (hz : Strict e) (roots : List (Option Laddr)) (sb br : Laddr) (r : Repo) :
    ((fsck e roots sb br r).2 = true ↔ ∀ a, some a ∈ roots → ∀ d k, Met e r 4 a d k → ∃ l, e.map r d k = some l) ∧
      ((fsck e roots sb br r).2 = true → (fsck e roots sb br r).1 = r) := by
  obtain ⟨h1, h2⟩ := inspect_two (f := noop) (fun _ _ => rfl) hz (r := r) roots sb br ()
  unfold fsck
  by_cases hs : Sound e r roots
  · rw [h1 hs]
    exact ⟨⟨fun _ => hs, fun _ => rfl⟩, fun _ => rfl⟩
  · obtain ⟨l, o, g⟩ := h2 hs
    rw [g]
    exact ⟨⟨fun h => (nomatch h), fun h => absurd h hs⟩, fun h => (nomatch h)⟩

/-- **C79**: with children taken in order, every space map of the file-system that is missing or damaged is found: success means
that all of them are there. -/
theorem C79_fsck_all {e : Env} (hz : Strict e) (roots : List (Option Laddr)) (sb br : Laddr) (r : Repo)
    (hg : NoGap e r roots) : (fsck e roots sb br r).2 = true ↔
      ∀ a, some a ∈ roots → ∀ d k, Under e r 4 a d k → ∃ l, e.map r d k = some l := by
  have mu : ∀ {d a j k}, Met e r d a j k → Under e r d a j k := by
    intro d a j k m
    induction m with
    | self => exact .self
    | @down d a l c j k h1 h2 h3 ih =>
      refine .down h1 ?_ ih
      unfold front at h2
      obtain ⟨o, ho, ho'⟩ := List.mem_filterMap.1 h2
      have : o = some c := ho'
      rw [← this]
      exact List.takeWhile_subset _ ho
  have um : ∀ {d a j k}, (∀ j k, Under e r d a j k → 0 < j → ∀ l, e.map r j k = some l → ∀ c, some c ∈ l → c ∈ front l) →
      Under e r d a j k → Met e r d a j k := by
    intro d a j k hd u
    induction u with
    | self => exact .self
    | @down d a l c j k h1 h2 h3 ih =>
      exact .down h1 (hd _ _ .self (by omega) l h1 c h2) (ih (fun j k hu => hd j k (.down h1 h2 hu)))
  rw [(C79_fsck hz roots sb br r).1]
  exact ⟨fun h a ha d k u => h a ha d k (um (fun j k hu => hg a ha j k hu) u), fun h a ha d k m => h a ha d k (mu m)⟩

/-- **C79**: whatever it finds, `fsck` changes no segment that is there, no boot record and no pack file; all it may do
is to add one empty segment. -/
theorem C79_fsck_keeps {e : Env} (hz : Strict e) (roots : List (Option Laddr)) (sb br : Laddr) (r : Repo) :
    (fsck e roots sb br r).1 = r ∨ ∃ l, r.seg l = none ∧ (fsck e roots sb br r).1 =
      { r with seg := fun k => if k = l then some ⟨l.lsize, fun _ => 0⟩ else r.seg k } := by
  obtain ⟨h1, h2⟩ := inspect_two (f := noop) (fun _ _ => rfl) hz (r := r) roots sb br ()
  unfold fsck
  by_cases hs : Sound e r roots
  · rw [h1 hs]
    exact Or.inl rfl
  · obtain ⟨l, o, g⟩ := h2 hs
    rw [g]
    show requireSeg r l = r ∨ _
    cases hl : r.seg l with
    | some x => exact Or.inl (by unfold requireSeg; rw [hl])
    | none => exact Or.inr ⟨l, hl, by show requireSeg r l = _; unfold requireSeg; rw [hl]; rfl⟩

/-- **C79 is violated** for what is not a space map: the answer depends on nothing else.  Two repositories in which the maps
are the same get the same answer, whatever has become of the data, the directories and the inodes. -/
theorem C79_blind {e : Env} (hz : Strict e) (roots : List (Option Laddr)) (sb br : Laddr) (r r' : Repo)
    (h : ∀ a, some a ∈ roots → ∀ d k, Met e r 4 a d k → e.map r' d k = e.map r d k) :
    (fsck e roots sb br r).2 = true → (fsck e roots sb br r').2 = true := by
  rw [(C79_fsck hz roots sb br r).1, (C79_fsck hz roots sb br r').1]
  intro hs a ha d k m
  have tr : ∀ {d a j k}, (∀ j k, Met e r d a j k → e.map r' j k = e.map r j k) → Met e r' d a j k → Met e r d a j k := by
    intro d a j k hd m
    induction m with
    | self => exact .self
    | @down d a l c j k h1 h2 h3 ih =>
      have h1' : e.map r (d + 1) a = some l := by rw [← hd _ _ .self]; exact h1
      exact .down h1' h2 (ih (fun j k hm => hd j k (.down h1' h2 hm)))
  have m' := tr (h a ha) m
  rw [h a ha d k m']
  exact hs a ha d k m'

/-! ### view -/

theorem has_merge {p a : Laddr} (hn : isNext p a = true) (s : Lsid) (q : Int) :
    Has { p with len := p.len + a.len } s q ↔ Has p s q ∨ Has a s q := by
  simp only [isNext, Bool.and_eq_true, beq_iff_eq, decide_eq_true_eq] at hn
  obtain ⟨⟨h1, h2⟩, h3⟩ := hn
  unfold Has
  simp only
  rw [← h1]
  constructor
  · rintro ⟨g1, g2, g3⟩
    by_cases hq : q < p.pos + p.len
    · exact Or.inl ⟨g1, g2, hq⟩
    · exact Or.inr ⟨g1, by omega, by omega⟩
  · rintro (⟨g1, g2, g3⟩ | ⟨g1, g2, g3⟩)
    · exact ⟨g1, g2, by omega⟩
    · exact ⟨g1, by omega, by omega⟩

theorem has_add (acc : List Laddr) (a : Laddr) (s : Lsid) (q : Int) :
    (∃ x ∈ lmapAdd acc a, Has x s q) ↔ (∃ x ∈ acc, Has x s q) ∨ Has a s q := by
  cases acc with
  | nil => simp [lmapAdd]
  | cons p acc =>
    unfold lmapAdd
    by_cases hn : isNext p a = true
    · simp only [hn, if_true, List.mem_cons, exists_eq_or_imp, has_merge hn]
      grind
    · simp only [hn, List.mem_cons, exists_eq_or_imp]
      grind

theorem has_fold (l : List Laddr) (s : Lsid) (q : Int) : ∀ acc,
    (∃ x ∈ l.foldl lmapAdd acc, Has x s q) ↔ (∃ x ∈ acc, Has x s q) ∨ ∃ x ∈ l, Has x s q := by
  induction l with
  | nil => intro acc; simp
  | cons a l ih =>
    intro acc
    rw [List.foldl_cons, ih, has_add]
    simp only [List.mem_cons, exists_eq_or_imp]
    grind

/-- Merging changes nothing in what is listed. -/
theorem has_lmap (l : List (Option Laddr)) (s : Lsid) (q : Int) :
    (∃ x ∈ lmap l, Has x s q) ↔ ∃ c, some c ∈ l ∧ Has c s q := by
  unfold lmap
  simp only [List.mem_reverse]
  rw [has_fold]
  simp

theorem has_visit {e : Env} {r : Repo} (s : Lsid) (q : Int) (d : Nat) : ∀ a,
    (∃ x ∈ visit e r d a, Has x s q) ↔
      ∃ j k l c, Met e r d a j k ∧ e.map r j k = some l ∧ some c ∈ l ∧ Has c s q := by
  induction d with
  | zero =>
    intro a
    unfold visit
    constructor
    · intro h
      cases hm : e.map r 0 a with
      | none => rw [hm] at h; obtain ⟨x, hx, _⟩ := h; cases hx
      | some l =>
        rw [hm] at h
        obtain ⟨c, hc, hh⟩ := (has_lmap l s q).1 h
        exact ⟨0, a, l, c, .self, hm, hc, hh⟩
    · rintro ⟨j, k, l, c, m, hm, hc, hh⟩
      cases m
      rw [hm]
      exact (has_lmap l s q).2 ⟨c, hc, hh⟩
  | succ d ih =>
    intro a
    unfold visit
    constructor
    · intro h
      cases hm : e.map r (d + 1) a with
      | none => rw [hm] at h; obtain ⟨x, hx, _⟩ := h; cases hx
      | some l =>
        rw [hm] at h
        obtain ⟨x, hx, hh⟩ := h
        rcases List.mem_append.1 hx with hx | hx
        · obtain ⟨c, hc, hx⟩ := List.mem_flatMap.1 hx
          obtain ⟨j, k, l', c', m, h1, h2, h3⟩ := (ih c).1 ⟨x, hx, hh⟩
          exact ⟨j, k, l', c', .down hm hc m, h1, h2, h3⟩
        · obtain ⟨c, hc, hh⟩ := (has_lmap l s q).1 ⟨x, hx, hh⟩
          exact ⟨d + 1, a, l, c, .self, hm, hc, hh⟩
    · rintro ⟨j, k, l, c, m, hm, hc, hh⟩
      cases m with
      | self =>
        rw [hm]
        obtain ⟨x, hx, hh⟩ := (has_lmap l s q).2 ⟨c, hc, hh⟩
        exact ⟨x, List.mem_append_right _ hx, hh⟩
      | @down _ _ l' c' _ _ h1 h2 h3 =>
        rw [h1]
        obtain ⟨x, hx, hh⟩ := (ih c').2 ⟨j, k, l, c, h3, hm, hc, hh⟩
        exact ⟨x, List.mem_append_left _ (List.mem_flatMap.2 ⟨c', h2, hx⟩), hh⟩

theorem has_listing {e : Env} {r : Repo} (roots : List (Option Laddr)) (sb br : Laddr) (s : Lsid) (q : Int) :
    (∃ x ∈ listing e r roots sb br, Has x s q) ↔ Belongs e r roots sb br s q := by
  unfold listing Belongs
  constructor
  · rintro ⟨x, hx, hh⟩
    rcases List.mem_append.1 hx with hx | hx
    · obtain ⟨a, ha, hx⟩ := List.mem_flatMap.1 hx
      obtain ⟨j, k, l, c, h1, h2, h3, h4⟩ := (has_visit s q 4 a).1 ⟨x, hx, hh⟩
      exact Or.inr (Or.inr (Or.inr ⟨a, j, k, l, c, by simpa using ha, h1, h2, h3, h4⟩))
    · rcases List.mem_append.1 hx with hx | hx
      · exact Or.inr (Or.inr (Or.inl ⟨x, by simpa using hx, hh⟩))
      · simp only [List.mem_cons, List.not_mem_nil, or_false] at hx
        rcases hx with rfl | rfl
        · exact Or.inl hh
        · exact Or.inr (Or.inl hh)
  · rintro (h | h | ⟨a, ha, h⟩ | ⟨a, j, k, l, c, ha, h1, h2, h3, h4⟩)
    · exact ⟨sb, by simp, h⟩
    · exact ⟨br, by simp, h⟩
    · exact ⟨a, List.mem_append_right _ (List.mem_append_left _ (by simpa using ha)), h⟩
    · obtain ⟨x, hx, hh⟩ := (has_visit s q 4 a).2 ⟨j, k, l, c, h1, h2, h3, h4⟩
      exact ⟨x, List.mem_append_left _ (List.mem_flatMap.2 ⟨a, by simpa using ha, hx⟩), hh⟩

/-- One line. -/
def line (a : Laddr) : Bytes := laddrToAscii a ++ [10]

theorem put_put (o : Out) (t u : Bytes) : (o.put t).put u = o.put (t ++ u) := by
  unfold Out.put
  simp only [List.append_assoc, List.take_append, List.length_append]
  congr 1
  omega

theorem show_run (L : List Laddr) : ∀ o : Out, run show' L o = o.put (L.flatMap line) := by
  induction L with
  | nil => intro o; simp [run, Out.put]
  | cons a L ih =>
    intro o
    show run show' L ((o.put (laddrToAscii a)).put [10]) = _
    rw [put_put, ih, put_put, List.flatMap_cons]
    rfl

/-- **C79**: `view` succeeds when `fsck` does.  With room for its output, what it prints then is a list of addresses, one on a line;
together they hold exactly the bytes that belong to the file-system.  (That an address can be read back from its line:
`C27_laddr_ascii_roundtrip`.) -/
theorem C79_view {e : Env} (hz : Strict e) (roots : List (Option Laddr)) (sb br : Laddr) (r : Repo) (room : Nat) :
    ((view e roots sb br r room).2.2 = (fsck e roots sb br r).2) ∧
    ((fsck e roots sb br r).2 = true → (view e roots sb br r room).1 = r) ∧
    ((fsck e roots sb br r).2 = true → ∃ L : List Laddr,
      (∀ s q, (∃ x ∈ L, Has x s q) ↔ Belongs e r roots sb br s q) ∧
      (view e roots sb br r room).2.1 = (L.flatMap fun a => laddrToAscii a ++ [10]).take room) := by
  obtain ⟨h1, h2⟩ := inspect_two (f := noop) (fun _ _ => rfl) hz (r := r) roots sb br ()
  obtain ⟨v1, v2⟩ := inspect_two (f := show') (fun _ _ => rfl) hz (r := r) roots sb br ⟨[], room⟩
  by_cases hs : Sound e r roots
  · unfold fsck view
    rw [h1 hs, v1 hs]
    refine ⟨rfl, fun _ => rfl, fun _ => ⟨listing e r roots sb br, fun s q => has_listing roots sb br s q, ?_⟩⟩
    show (run show' (listing e r roots sb br) ⟨[], room⟩).text = _
    rw [show_run]
    simp only [Out.put, List.nil_append]
    rfl
  · obtain ⟨l, o, g⟩ := h2 hs
    obtain ⟨l', o', g'⟩ := v2 hs
    unfold fsck view
    rw [g, g']
    exact ⟨rfl, fun h => (nomatch h), fun h => (nomatch h)⟩

end Silofs.Fk
