import Verif.Props.Cmdseq
/-
C75: who changes what, and under which lock; what a command has done when it reports success; and where it reports otherwise.
-/
set_option linter.unusedSimpArgs false
set_option linter.unusedVariables false
namespace Silofs.Cs

/-! ### Names are changed by those who say so -/

theorem unlinkName_mem {c : Cmd} {n : Nat} (h : .unlinkName n ∈ prog c) : c = .rmfs n := by
  cases c <;> simp only [prog, List.mem_cons, List.not_mem_nil, reduceCtorEq, or_self, or_false, false_or, Step.unlinkName.injEq] at h
  subst h; rfl

theorem eff_names {st : Step} {b : Bool} {c c' : Core} {r r' : Regs} {cm : Cmd} (h : Eff st b c r c' r') (hst : st ∈ prog cm)
    (n : Nat) (hn : n ∉ cm.writes) : c'.names n = c.names n := by
  cases h
  case save n' x hx =>
    dsimp only
    rw [upd_ne _ _ (fun he => hn ?_)]
    subst he
    rcases hx with ⟨rfl, _⟩ | ⟨rfl, _⟩
    · rcases save_mem hst with rfl | ⟨m, rfl⟩ | ⟨m, rfl⟩ | ⟨m, rfl⟩ <;> simp only [Cmd.writes, List.mem_cons, true_or]
    · obtain ⟨m, rfl⟩ := save2_mem hst
      simp only [Cmd.writes, List.mem_cons, true_or, or_true]
  case unlink n' =>
    dsimp only
    rw [upd_ne _ _ (fun he => hn ?_)]
    subst he
    rw [unlinkName_mem hst]
    simp only [Cmd.writes, List.mem_cons, true_or]
  all_goals rfl

/-- **C75**: a name is changed by nobody but the commands run on it. -/
theorem C75_frame {s : Sys} (h : Start s) (n : Nat) (hn : ∀ p, n ∉ (cmds s p).writes) (tr : List (Nat × Out)) :
    (run s tr).d.names n = s.d.names n := by
  have key : ∀ (c0 : Nat → Cmd) (s : Sys), Wf c0 s → (∀ p, n ∉ (c0 p).writes) → ∀ tr, (run s tr).d.names n = s.d.names n := by
    intro c0 s hw hn tr
    induction tr generalizing s with
    | nil => rfl
    | cons e tr ih =>
      have h1 := ih (step s e) (step_wf e hw)
      have h2 : (step s e).d.names n = s.d.names n := by
        rcases step_eff e hw with ⟨k1, _⟩ | ⟨st, b, r', k1, k2, k3, k4⟩
        · have : (core (step s e).d).names n = (core s.d).names n := by rw [k1]
          exact this
        · exact eff_names k4 k1 n (hn _)
      rw [← h2, ← h1]; rfl
  exact key _ s (start_wf h) hn tr

/-! ### Under the lock -/

def underLock : List Step → Bool
  | [] => false
  | .lock _ :: _ => false
  | .unlock _ :: _ => true
  | _ :: t => underLock t

/-- A lock opens a stretch, an unlock closes it. -/
def balanced : List Step → Bool
  | [] => true
  | .lock n :: t => underLock t && balanced t
  | .unlock n :: t => !underLock t && balanced t
  | _ :: t => balanced t

/-- Steps which change the repository. -/
def Step.alters : Step → Bool
  | .mkVol | .saveRec | .save _ | .save2 _ | .serve | .closeFs | .fork | .pack | .unpack | .delVol | .delRec | .unlinkName _ => true
  | _ => false

def guarded : List Step → Bool
  | [] => true
  | st :: t => (!st.alters || underLock (st :: t)) && guarded t

theorem balanced_prog (c : Cmd) : balanced (prog c) = true := by cases c <;> rfl
theorem guarded_prog (c : Cmd) (h : c.isSnap = false) : guarded (prog c) = true := by cases c <;> first | rfl | cases h

theorem balanced_drop {l t : List Step} (h : balanced (l ++ t) = true) : balanced t = true := by
  induction l with
  | nil => exact h
  | cons s l ih =>
    apply ih
    cases s <;> simp only [List.cons_append, balanced, Bool.and_eq_true] at h <;> first | exact h | exact h.2

theorem guarded_drop {l t : List Step} (h : guarded (l ++ t) = true) : guarded t = true := by
  induction l with
  | nil => exact h
  | cons s l ih =>
    simp only [List.cons_append, guarded, Bool.and_eq_true] at h
    exact ih h.2

/-- Whether a process holds a lock follows from where it is. -/
def Held (p : Proc) : Prop := p.st = .running → p.mem.hasLock = underLock p.todo

theorem act_lock {k : Nat} {d d' : Disk} {m m' : Mem} {st : Step} (h : act k d m st = some (d', m')) :
    m'.hasLock = match st with
      | .lock _ => true
      | .unlock _ => false
      | _ => m.hasLock := by
  cases st <;> simp only [act] at h
  case unlock n =>
    split at h <;> simp only [Option.some.injEq, Prod.mk.injEq] at h <;> obtain ⟨rfl, rfl⟩ := h
    · rfl
    · rename_i hx; simp only [Bool.not_eq_true] at hx; exact hx
  all_goals
    repeat' (split at h)
    all_goals first
      | (simp only [Option.some.injEq, Prod.mk.injEq] at h; obtain ⟨rfl, rfl⟩ := h; rfl)
      | (cases h; done)

theorem stepProc_held (d : Disk) (p : Proc) (o : Out) (hb : balanced p.todo = true) (h : Held p) : Held (stepProc d p o).2 := by
  unfold Held at h ⊢
  unfold stepProc die
  split
  · rename_i hr; intro hx; exact absurd hx hr
  · rename_i hr
    simp only [ne_eq, Decidable.not_not] at hr
    have h' := h hr
    split
    · intro _; exact h'
    · rename_i st rest ht
      rw [ht] at h' hb
      split
      · exact nofun
      · split
        · rename_i hi
          intro _
          dsimp only
          cases st <;> simp only [ignores, Bool.false_eq_true] at hi
          · simp only [skip, h', underLock]
          · simp only [skip, balanced, Bool.and_eq_true, Bool.not_eq_true'] at hb ⊢
            exact hb.1.symm
        · exact nofun
      · exact nofun
      · split
        · exact nofun
        · rename_i d' m' ha
          intro _
          dsimp only
          have hl := act_lock ha
          cases st <;> simp only [balanced, Bool.and_eq_true, Bool.not_eq_true', underLock] at hb h' hl ⊢ <;>
            first | (rw [hl, h']; done) | (rw [hl]; exact hb.1.symm)

/-- The repository without its locks. -/
def data (d : Disk) : Disk := { d with lockf := fun _ => false }

theorem act_data {k : Nat} {d d' : Disk} {m m' : Mem} {st : Step} (h : act k d m st = some (d', m')) (hs : st.alters = false) :
    data d' = data d := by
  cases st <;> simp only [Step.alters, Bool.true_eq_false] at hs <;> simp only [act] at h
  all_goals
    repeat' (split at h)
    all_goals first
      | (simp only [Option.some.injEq, Prod.mk.injEq] at h; obtain ⟨rfl, rfl⟩ := h; rfl)
      | (cases h; done)

theorem half_data {d : Disk} {m : Mem} {st : Step} (hs : st.alters = false) : data (half d m st) = data d := by
  have key : ∀ d' m', act 0 d m st = some (d', m') → data d' = data d := fun d' m' h => act_data h hs
  cases st <;> simp only [Step.alters, Bool.true_eq_false] at hs <;> simp only [half]
  all_goals
    split
    · rename_i h; exact key _ _ h
    · rfl

/-- A process changes the repository only with a step that does. -/
theorem stepProc_data (d : Disk) (p : Proc) (o : Out) (h : data (stepProc d p o).1 ≠ data d) :
    p.st = .running ∧ ∃ st rest, p.todo = st :: rest ∧ st.alters = true := by
  have hdie : ∀ d0, data (die d0 p).1 = data d0 := by
    intro d0; unfold die; split <;> rfl
  unfold stepProc at h
  split at h
  · exact absurd rfl h
  · rename_i hr
    simp only [ne_eq, Decidable.not_not] at hr
    refine ⟨hr, ?_⟩
    split at h
    · exact absurd rfl h
    · rename_i st rest ht
      refine ⟨st, rest, ht, ?_⟩
      rcases Bool.eq_false_or_eq_true st.alters with ha | ha
      · exact ha
      · exfalso
        split at h
        · exact h rfl
        · split at h
          · exact h rfl
          · exact h (hdie d)
        · exact h ((hdie _).trans (half_data ha))
        · split at h
          · exact h (hdie d)
          · rename_i hx
            exact h (act_data hx ha)

/-- **C75**: whatever a command other than a snapshot changes in a repository, it changes while it holds a lock; for any commands at the
same time, at every moment. -/
theorem C75_under_lock {s : Sys} (h : Start s) (tr : List (Nat × Out)) (e : Nat × Out)
    (hc : data (step (run s tr) e).d ≠ data (run s tr).d) :
    (cmds s e.1).isSnap = true ∨ ((run s tr).p e.1).mem.hasLock = true := by
  have hw := run_wf (start_wf h) tr
  have hh : ∀ p, Held ((run s tr).p p) := by
    have key : ∀ (c0 : Nat → Cmd) (s : Sys), Wf c0 s → (∀ p, Held (s.p p)) → ∀ tr p, Held ((run s tr).p p) := by
      intro c0 s hw hn tr
      induction tr generalizing s with
      | nil => exact hn
      | cons e tr ih =>
        refine ih (step s e) (step_wf e hw) (fun p => ?_)
        simp only [step, upd]
        split
        · refine stepProc_held _ _ _ ?_ (hn _)
          obtain ⟨l, hl⟩ := hw.todo e.1
          have := balanced_prog (c0 e.1)
          rw [hl] at this
          exact balanced_drop this
        · exact hn p
    refine key _ s (start_wf h) (fun p => ?_) tr
    obtain ⟨c, hc⟩ := h.procs p
    rw [hc]
    intro _
    cases c <;> rfl
  obtain ⟨hr, st, rest, ht, ha⟩ := stepProc_data _ _ _ hc
  rcases Bool.eq_false_or_eq_true (cmds s e.1).isSnap with hs | hs
  · exact Or.inl hs
  · right
    rw [hh e.1 hr, ht]
    obtain ⟨l, hl⟩ := hw.todo e.1
    have := guarded_prog _ hs
    rw [hl, ht] at this
    have := guarded_drop this
    simp only [guarded, ha, Bool.not_true, Bool.false_or, Bool.and_eq_true] at this
    exact this.1

/-! ### At the end -/

/-- How far a process is from being clean: what it holds will be given up by the steps still to do. -/
def willDrop (p : Proc) : Prop :=
  match p.st with
  | .running => (p.todo ≠ [] ∧ p.todo.getLast? = some .fini)
  | .failed => p.mem.env = false ∧ p.mem.pass = false ∧ p.mem.hasLock = false
  | .ok => p.mem.env = false ∧ p.mem.pass = false ∧ p.mem.hasLock = false
  | .killed => True

theorem last_prog (c : Cmd) : (prog c).getLast? = some .fini := by cases c <;> rfl

theorem stepProc_drop (d : Disk) (p : Proc) (o : Out) (hb : balanced p.todo = true) (hh : Held p) (h : willDrop p) :
    willDrop (stepProc d p o).2 := by
  have hdie : ∀ d0, willDrop (die d0 p).2 := fun d0 => ⟨rfl, rfl, rfl⟩
  unfold stepProc
  split
  · exact h
  · rename_i hr
    simp only [ne_eq, Decidable.not_not] at hr
    have h' : p.todo ≠ [] ∧ p.todo.getLast? = some .fini := by unfold willDrop at h; rw [hr] at h; exact h
    have hh' := hh hr
    split
    · exact h
    · rename_i st rest ht
      rw [ht] at h' hh' hb
      cases o with
      | kill => trivial
      | late => exact hdie _
      | err =>
        dsimp only
        split
        · rename_i hi
          unfold willDrop
          dsimp only
          rw [hr]
          dsimp only
          cases rest with
          | nil =>
            simp only [List.getLast?_singleton, Option.some.injEq] at h'
            rw [h'.2] at hi; cases hi
          | cons x xs =>
            refine ⟨nofun, ?_⟩
            rw [← h'.2, List.getLast?_cons_cons]
        · exact hdie _
      | go k =>
        dsimp only
        rcases ha : act k d p.mem st with _ | ⟨d', m'⟩
        · exact hdie _
        · dsimp only
          cases rest with
          | nil =>
            simp only [List.getLast?_singleton, Option.some.injEq] at h'
            obtain ⟨_, rfl⟩ := h'
            simp only [act, Option.some.injEq, Prod.mk.injEq] at ha
            obtain ⟨rfl, rfl⟩ := ha
            refine ⟨rfl, rfl, ?_⟩
            exact hh'
          | cons x xs =>
            rw [if_neg (by exact nofun)]
            refine ⟨nofun, ?_⟩
            rw [← h'.2, List.getLast?_cons_cons]

/-- **C75**: a command which has ended, with success or not, has given up its environment, its passphrase and its lock; for any commands
at the same time. -/
theorem C75_clean {s : Sys} (h : Start s) (tr : List (Nat × Out)) (p : Nat)
    (he : ((run s tr).p p).st = .ok ∨ ((run s tr).p p).st = .failed) :
    ((run s tr).p p).mem.env = false ∧ ((run s tr).p p).mem.pass = false ∧ ((run s tr).p p).mem.hasLock = false := by
  have key : ∀ (c0 : Nat → Cmd) (s : Sys), Wf c0 s → (∀ p, Held (s.p p) ∧ willDrop (s.p p)) → ∀ tr p, willDrop ((run s tr).p p) := by
    intro c0 s hw hn tr
    induction tr generalizing s with
    | nil => exact fun p => (hn p).2
    | cons e tr ih =>
      refine ih (step s e) (step_wf e hw) (fun p => ?_)
      have hbal : balanced (s.p e.1).todo = true := by
        obtain ⟨l, hl⟩ := hw.todo e.1
        have := balanced_prog (c0 e.1)
        rw [hl] at this
        exact balanced_drop this
      simp only [step, upd]
      split
      · exact ⟨stepProc_held _ _ _ hbal (hn _).1, stepProc_drop _ _ _ hbal (hn _).1 (hn _).2⟩
      · exact hn p
  have := key _ s (start_wf h) (fun p => by
    obtain ⟨c, hc⟩ := h.procs p
    rw [hc]
    refine ⟨fun _ => by cases c <;> rfl, ?_, last_prog c⟩
    cases c <;> exact nofun) tr p
  unfold willDrop at this
  rcases he with he | he <;> rw [he] at this <;> exact this

/-! ### Success -/

/-- What a list of steps does when none of them fails, but for errors nobody looks at. -/
inductive Exec : Disk → Mem → List Step → Disk → Mem → Prop
  | done (d m) : Exec d m [] d m
  | go {k d m st d1 m1 l d' m'} : act k d m st = some (d1, m1) → Exec d1 m1 l d' m' → Exec d m (st :: l) d' m'
  | pass {d m st l d' m'} : ignores st = true → Exec d (skip m st) l d' m' → Exec d m (st :: l) d' m'

/-- A run of one process on its own. -/
def solo (d : Disk) (p : Proc) (os : List Out) : Disk × Proc := os.foldl (fun x o => stepProc x.1 x.2 o) (d, p)

theorem solo_end (d : Disk) (p : Proc) (h : p.st ≠ .running) (os : List Out) : solo d p os = (d, p) := by
  induction os with
  | nil => rfl
  | cons o os ih =>
    have : stepProc d p o = (d, p) := by unfold stepProc; rw [if_pos h]
    unfold solo
    rw [List.foldl_cons, this]
    exact ih

theorem solo_exec (d : Disk) (p : Proc) (hr : p.st = .running) (ht : p.todo ≠ []) (os : List Out) (hok : (solo d p os).2.st = .ok) :
    Exec d p.mem p.todo (solo d p os).1 (solo d p os).2.mem := by
  induction os generalizing d p with
  | nil => simp only [solo, List.foldl_nil, hr, reduceCtorEq] at hok
  | cons o os ih =>
    rcases hp : p.todo with _ | ⟨st, rest⟩
    · exact absurd hp ht
    have hstep : solo d p (o :: os) = solo (stepProc d p o).1 (stepProc d p o).2 os := rfl
    have hfail : ∀ d0, (solo (die d0 p).1 (die d0 p).2 os).2.st ≠ .ok := by
      intro d0; rw [solo_end _ _ (by exact nofun)]; exact nofun
    rw [hstep] at hok ⊢
    unfold stepProc at hok ⊢
    rw [if_neg (by rw [hr]; simp only [ne_eq, not_true_eq_false, not_false_eq_true]), hp] at hok ⊢
    cases o with
    | kill => dsimp only at hok; rw [solo_end _ _ (by exact nofun)] at hok; cases hok
    | late => exact absurd hok (hfail _)
    | err =>
      dsimp only at hok ⊢
      by_cases hi : ignores st = true
      · rw [if_pos hi] at hok ⊢
        refine .pass hi ?_
        by_cases hre : rest = []
        · subst hre
          exfalso
          have : ∀ os, (solo d { p with todo := [], mem := skip p.mem st } os).2.st = .running := by
            intro os
            induction os with
            | nil => exact hr
            | cons o os ih =>
              have h1 : stepProc d { p with todo := [], mem := skip p.mem st } o = (d, { p with todo := [], mem := skip p.mem st }) := by
                unfold stepProc
                split <;> rfl
              unfold solo at ih ⊢
              rw [List.foldl_cons, h1]
              exact ih
          rw [this os] at hok; cases hok
        · exact ih d { p with todo := rest, mem := skip p.mem st } hr hre hok
      · rw [if_neg hi] at hok
        exact absurd hok (hfail _)
    | go k =>
      dsimp only at hok ⊢
      rcases ha : act k d p.mem st with _ | ⟨d1, m1⟩
      · rw [ha] at hok; exact absurd hok (hfail _)
      · rw [ha] at hok
        dsimp only at hok ⊢
        refine .go ha ?_
        by_cases hre : rest = []
        · subst hre
          rw [solo_end _ _ (by exact nofun)]
          exact .done _ _
        · rw [if_neg hre] at hok ⊢
          exact ih d1 { p with todo := rest, mem := m1, st := .running } rfl hre hok

theorem exec_go {d m st l d' m'} (h : Exec d m (st :: l) d' m') (hi : ignores st = false) :
    ∃ k d1 m1, act k d m st = some (d1, m1) ∧ Exec d1 m1 l d' m' := by
  cases h with
  | go h1 h2 => exact ⟨_, _, _, h1, h2⟩
  | pass h1 h2 => rw [hi] at h1; cases h1

theorem exec_idle {d m st l d' m'} (h : Exec d m (st :: l) d' m') (hs : st = .check ∨ st = .repo ∨ st = .closeRepo) : Exec d m l d' m' := by
  obtain ⟨k, d1, m1, h1, h2⟩ := exec_go h (by rcases hs with rfl | rfl | rfl <;> rfl)
  have : d1 = d ∧ m1 = m := by
    rcases hs with rfl | rfl | rfl <;> simp only [act, Option.some.injEq, Prod.mk.injEq] at h1 <;> exact ⟨h1.1.symm, h1.2.symm⟩
  rw [this.1, this.2] at h2; exact h2

theorem exec_pass {d m l d' m'} (h : Exec d m (.pass :: l) d' m') : Exec d { m with pass := true } l d' m' := by
  obtain ⟨k, d1, m1, h1, h2⟩ := exec_go h rfl
  simp only [act, Option.some.injEq, Prod.mk.injEq] at h1; obtain ⟨rfl, rfl⟩ := h1; exact h2

theorem exec_env {d m l d' m'} (h : Exec d m (.env :: l) d' m') : Exec d { m with env := true } l d' m' := by
  obtain ⟨k, d1, m1, h1, h2⟩ := exec_go h rfl
  simp only [act, Option.some.injEq, Prod.mk.injEq] at h1; obtain ⟨rfl, rfl⟩ := h1; exact h2

theorem exec_delEnv {d m l d' m'} (h : Exec d m (.delEnv :: l) d' m') : Exec d { m with env := false } l d' m' := by
  obtain ⟨k, d1, m1, h1, h2⟩ := exec_go h rfl
  simp only [act, Option.some.injEq, Prod.mk.injEq] at h1; obtain ⟨rfl, rfl⟩ := h1; exact h2

theorem exec_fini {d m d' m'} (h : Exec d m [.fini] d' m') : d' = d := by
  obtain ⟨k, d1, m1, h1, h2⟩ := exec_go h rfl
  simp only [act, Option.some.injEq, Prod.mk.injEq] at h1; obtain ⟨rfl, rfl⟩ := h1
  cases h2; rfl

theorem exec_absent {d m n l d' m'} (h : Exec d m (.absent n :: l) d' m') : d.names n = none ∧ Exec d m l d' m' := by
  obtain ⟨k, d1, m1, h1, h2⟩ := exec_go h rfl
  simp only [act] at h1
  split at h1
  · rename_i hn
    simp only [Option.some.injEq, Prod.mk.injEq] at h1; obtain ⟨rfl, rfl⟩ := h1; exact ⟨hn, h2⟩
  · cases h1

theorem exec_load {d m n l d' m'} (h : Exec d m (.load n :: l) d' m') :
    ∃ i, d.names n = some (.boot i) ∧ Exec d { m with ref := some i } l d' m' := by
  obtain ⟨k, d1, m1, h1, h2⟩ := exec_go h rfl
  simp only [act] at h1
  split at h1
  · rename_i i hn
    simp only [Option.some.injEq, Prod.mk.injEq] at h1; obtain ⟨rfl, rfl⟩ := h1; exact ⟨i, hn, h2⟩
  · cases h1

theorem exec_loadAr {d m n l d' m'} (h : Exec d m (.loadAr n :: l) d' m') :
    ∃ i, d.names n = some (.pack i) ∧ Exec d { m with arc := some i } l d' m' := by
  obtain ⟨k, d1, m1, h1, h2⟩ := exec_go h rfl
  simp only [act] at h1
  split at h1
  · rename_i i hn
    simp only [Option.some.injEq, Prod.mk.injEq] at h1; obtain ⟨rfl, rfl⟩ := h1; exact ⟨i, hn, h2⟩
  · cases h1

theorem exec_lock {d m n l d' m'} (h : Exec d m (.lock n :: l) d' m') :
    d.lockf n = false ∧ Exec { d with lockf := upd d.lockf n true } { m with hasLock := true } l d' m' := by
  obtain ⟨k, d1, m1, h1, h2⟩ := exec_go h rfl
  simp only [act] at h1
  split at h1
  · cases h1
  · rename_i hn
    simp only [Option.some.injEq, Prod.mk.injEq] at h1; obtain ⟨rfl, rfl⟩ := h1
    exact ⟨by simpa only [Bool.not_eq_true] using hn, h2⟩

theorem exec_poke {d m l d' m'} (h : Exec d m (.poke :: l) d' m') : Exec d m l d' m' := by
  obtain ⟨k, d1, m1, h1, h2⟩ := exec_go h rfl
  simp only [act] at h1
  split at h1
  · split at h1
    · simp only [Option.some.injEq, Prod.mk.injEq] at h1; obtain ⟨rfl, rfl⟩ := h1; exact h2
    · cases h1
  · cases h1

theorem exec_pokeAr {d m l d' m'} (h : Exec d m (.pokeAr :: l) d' m') : Exec d m l d' m' := by
  obtain ⟨k, d1, m1, h1, h2⟩ := exec_go h rfl
  simp only [act] at h1
  split at h1
  · split at h1
    · simp only [Option.some.injEq, Prod.mk.injEq] at h1; obtain ⟨rfl, rfl⟩ := h1; exact h2
    · cases h1
  · cases h1

theorem exec_openFs {d m l d' m' i} (h : Exec d m (.openFs :: l) d' m') (hi : m.ref = some i) :
    (d.recs i = true ∧ d.vols (d.recVol i) = .whole ∧ d.fossil (d.recVol i) = false) ∧ Exec d { m with vol := some (d.recVol i) } l d' m' := by
  obtain ⟨k, d1, m1, h1, h2⟩ := exec_go h rfl
  simp only [act, hi] at h1
  split at h1
  · rename_i hn
    simp only [Option.some.injEq, Prod.mk.injEq] at h1; obtain ⟨rfl, rfl⟩ := h1; exact ⟨hn, by rw [hi]; exact h2⟩
  · cases h1

theorem exec_super {d m l d' m' i} (h : Exec d m (.super :: l) d' m') (hi : m.ref = some i) :
    (d.recs i = true ∧ d.vols (d.recVol i) ≠ .absent ∧ d.fossil (d.recVol i) = false) ∧ Exec d { m with vol := some (d.recVol i) } l d' m' := by
  obtain ⟨k, d1, m1, h1, h2⟩ := exec_go h rfl
  simp only [act, hi] at h1
  split at h1
  · rename_i hn
    simp only [Option.some.injEq, Prod.mk.injEq] at h1; obtain ⟨rfl, rfl⟩ := h1; exact ⟨hn, by rw [hi]; exact h2⟩
  · cases h1

theorem exec_unlock {d m n l d' m'} (h : Exec d m (.unlock n :: l) d' m') (hm : m.hasLock = true) :
    Exec { d with lockf := upd d.lockf n false } { m with hasLock := false } l d' m' ∨ Exec d { m with hasLock := false } l d' m' := by
  cases h with
  | go h1 h2 =>
    simp only [act, hm, if_true, Option.some.injEq, Prod.mk.injEq] at h1; obtain ⟨rfl, rfl⟩ := h1; exact Or.inl h2
  | pass h1 h2 => exact Or.inr h2

theorem exec_closeFs {d m l d' m' v} (h : Exec d m (.closeFs :: l) d' m') (hv : m.vol = some v) :
    Exec { d with synced := upd d.synced v true } m l d' m' := by
  obtain ⟨k, d1, m1, h1, h2⟩ := exec_go h rfl
  simp only [act, hv, Option.some.injEq, Prod.mk.injEq] at h1; obtain ⟨rfl, rfl⟩ := h1; exact h2

theorem exec_save {d m n l d' m' r} (h : Exec d m (.save n :: l) d' m') (hr : m.out = some r) :
    Exec { d with names := upd d.names n (some r) } m l d' m' := by
  obtain ⟨k, d1, m1, h1, h2⟩ := exec_go h rfl
  simp only [act, hr, Option.some.injEq, Prod.mk.injEq] at h1; obtain ⟨rfl, rfl⟩ := h1; exact h2

theorem exec_save2 {d m n l d' m' r} (h : Exec d m (.save2 n :: l) d' m') (hr : m.out2 = some r) :
    Exec { d with names := upd d.names n (some r) } m l d' m' := by
  obtain ⟨k, d1, m1, h1, h2⟩ := exec_go h rfl
  simp only [act, hr, Option.some.injEq, Prod.mk.injEq] at h1; obtain ⟨rfl, rfl⟩ := h1; exact h2

/-- **C75**: when making a file-system reports success, the name, which was free before, refers to a new boot record of a new volume; the
volume is complete, empty, and on stable storage; nothing else has changed but the lock. -/
theorem C75_mkfs_ok (d : Disk) (n : Nat) (os : List Out) (h : (solo d (start (.mkfs n)) os).2.st = .ok) :
    d.names n = none ∧ ∃ lf, (solo d (start (.mkfs n)) os).1 =
      { d with
        names := upd d.names n (some (.boot (d.next + 1)))
        recs := upd d.recs (d.next + 1) true
        recVol := upd d.recVol (d.next + 1) d.next
        vols := upd d.vols d.next .whole
        cont := upd d.cont d.next 0
        synced := upd d.synced d.next true
        lockf := lf
        next := d.next + 2 } := by
  have h := solo_exec d (start (.mkfs n)) rfl (by exact nofun) os h
  generalize (solo d (start (.mkfs n)) os).1 = d' at h ⊢
  generalize (solo d (start (.mkfs n)) os).2.mem = m' at h
  change Exec d {} (prog (.mkfs n)) d' m' at h
  simp only [prog] at h
  obtain ⟨hn, h⟩ := exec_absent (exec_idle h (Or.inl rfl))
  obtain ⟨hl, h⟩ := exec_lock (exec_env (exec_idle (exec_pass (exec_idle h (Or.inl rfl))) (Or.inl rfl)))
  have h := exec_idle h (Or.inr (Or.inl rfl))
  obtain ⟨k, d1, m1, h1, h⟩ := exec_go h rfl
  simp only [act, Option.some.injEq, Prod.mk.injEq] at h1; obtain ⟨rfl, rfl⟩ := h1
  obtain ⟨k, d1, m1, h1, h⟩ := exec_go h rfl
  simp only [act, Option.some.injEq, Prod.mk.injEq] at h1; obtain ⟨rfl, rfl⟩ := h1
  have h := exec_idle (exec_closeFs (exec_save h rfl) rfl) (Or.inr (Or.inr rfl))
  refine ⟨hn, ?_⟩
  rcases exec_unlock h rfl with h | h
  · rw [exec_fini h]; exact ⟨_, rfl⟩
  · rw [exec_fini h]; exact ⟨_, rfl⟩

/-- **C75** (the name itself may stay: see `C75_rmfs_name_violated`).  When removing a file-system reports success, the boot record is gone
and so is the volume; nothing else has changed but the lock and the name. -/
theorem C75_rmfs_ok_partial (d : Disk) (n : Nat) (os : List Out) (h : (solo d (start (.rmfs n)) os).2.st = .ok) :
    ∃ i, d.names n = some (.boot i) ∧ d.recs i = true ∧ d.fossil (d.recVol i) = false ∧ ∃ lf nm, (nm = d.names ∨ nm = upd d.names n none) ∧
      (solo d (start (.rmfs n)) os).1 =
      { d with
        names := nm
        recs := upd d.recs i false
        vols := upd d.vols (d.recVol i) .absent
        synced := upd d.synced (d.recVol i) true
        lockf := lf } := by
  have h := solo_exec d (start (.rmfs n)) rfl (by exact nofun) os h
  generalize (solo d (start (.rmfs n)) os).1 = d' at h ⊢
  generalize (solo d (start (.rmfs n)) os).2.mem = m' at h
  change Exec d {} (prog (.rmfs n)) d' m' at h
  simp only [prog] at h
  obtain ⟨i, hn, h⟩ := exec_load (exec_idle (exec_pass (exec_idle h (Or.inl rfl))) (Or.inl rfl))
  obtain ⟨hl, h⟩ := exec_lock (exec_env h)
  obtain ⟨⟨h1, h2, h3⟩, h⟩ := exec_super (exec_poke (exec_idle h (Or.inr (Or.inl rfl)))) rfl
  refine ⟨i, hn, h1, h3, ?_⟩
  obtain ⟨k, d1, m1, ha, h⟩ := exec_go h rfl
  simp only [act, Option.some.injEq, Prod.mk.injEq] at ha; obtain ⟨rfl, rfl⟩ := ha
  obtain ⟨k, d1, m1, ha, h⟩ := exec_go h rfl
  simp only [act] at ha
  dsimp only at h1
  rw [if_pos h1] at ha
  simp only [Option.some.injEq, Prod.mk.injEq] at ha; obtain ⟨rfl, rfl⟩ := ha
  have h := exec_closeFs h rfl
  cases h with
  | go ha h =>
    simp only [act, Option.some.injEq, Prod.mk.injEq] at ha; obtain ⟨rfl, rfl⟩ := ha
    rcases exec_unlock (exec_idle h (Or.inr (Or.inr rfl))) rfl with h | h
    · rw [exec_fini h]; exact ⟨_, _, Or.inr rfl, rfl⟩
    · rw [exec_fini h]; exact ⟨_, _, Or.inr rfl, rfl⟩
  | pass ha h =>
    rcases exec_unlock (exec_idle h (Or.inr (Or.inr rfl))) rfl with h | h
    · rw [exec_fini h]; exact ⟨_, _, Or.inl rfl, rfl⟩
    · rw [exec_fini h]; exact ⟨_, _, Or.inl rfl, rfl⟩

/-- **C75**: when archiving reports success, the name of the archive, which was free before, refers to a new archive of the file-system
with the content it had; nothing else has changed but the lock. -/
theorem C75_archive_ok (d : Disk) (n a : Nat) (os : List Out) (h : (solo d (start (.archive n a)) os).2.st = .ok) :
    d.names a = none ∧ ∃ i, d.names n = some (.boot i) ∧ d.vols (d.recVol i) = .whole ∧ ∃ lf, (solo d (start (.archive n a)) os).1 =
      { d with
        names := upd d.names a (some (.pack d.next))
        arch := upd d.arch d.next (some (i, d.recVol i, d.cont (d.recVol i)))
        synced := upd d.synced (d.recVol i) true
        lockf := lf
        next := d.next + 1 } := by
  have h := solo_exec d (start (.archive n a)) rfl (by exact nofun) os h
  generalize (solo d (start (.archive n a)) os).1 = d' at h ⊢
  generalize (solo d (start (.archive n a)) os).2.mem = m' at h
  change Exec d {} (prog (.archive n a)) d' m' at h
  simp only [prog] at h
  obtain ⟨ha, h⟩ := exec_absent (exec_idle h (Or.inl rfl))
  obtain ⟨i, hn, h⟩ := exec_load (exec_idle (exec_pass h) (Or.inl rfl))
  obtain ⟨hl, h⟩ := exec_lock (exec_env h)
  obtain ⟨⟨h1, h2, h3⟩, h⟩ := exec_openFs (exec_poke (exec_idle h (Or.inr (Or.inl rfl)))) rfl
  refine ⟨ha, i, hn, h2, ?_⟩
  obtain ⟨k, d1, m1, hk, h⟩ := exec_go h rfl
  simp only [act] at hk
  dsimp only at h2
  rw [if_pos h2] at hk
  simp only [Option.some.injEq, Prod.mk.injEq] at hk; obtain ⟨rfl, rfl⟩ := hk
  have h := exec_idle (exec_closeFs (exec_save h rfl) rfl) (Or.inr (Or.inr rfl))
  rcases exec_unlock h rfl with h | h
  · rw [exec_fini (exec_delEnv h)]; exact ⟨_, rfl⟩
  · rw [exec_fini (exec_delEnv h)]; exact ⟨_, rfl⟩

/-- **C75**: when restoring reports success, the name, which was free before, refers to the boot record in the archive; the volume is
complete and has the content of the archive. -/
theorem C75_restore_ok (d : Disk) (a n : Nat) (os : List Out) (h : (solo d (start (.restore a n)) os).2.st = .ok) :
    d.names n = none ∧ ∃ j i v c, d.names a = some (.pack j) ∧ d.arch j = some (i, v, c) ∧ ∃ lf, (solo d (start (.restore a n)) os).1 =
      { d with
        names := upd d.names n (some (.boot i))
        recs := upd d.recs i true
        vols := upd d.vols v .whole
        cont := upd d.cont v c
        synced := upd d.synced v false
        lockf := lf } := by
  have h := solo_exec d (start (.restore a n)) rfl (by exact nofun) os h
  generalize (solo d (start (.restore a n)) os).1 = d' at h ⊢
  generalize (solo d (start (.restore a n)) os).2.mem = m' at h
  change Exec d {} (prog (.restore a n)) d' m' at h
  simp only [prog] at h
  obtain ⟨ha, h⟩ := exec_absent (exec_idle h (Or.inl rfl))
  obtain ⟨j, hn, h⟩ := exec_loadAr (exec_idle (exec_pass h) (Or.inl rfl))
  obtain ⟨hl, h⟩ := exec_lock (exec_env h)
  have h := exec_pokeAr (exec_idle h (Or.inr (Or.inl rfl)))
  obtain ⟨k, d1, m1, hk, h⟩ := exec_go h rfl
  simp only [act] at hk
  split at hk
  · rename_i i v c hc
    simp only [Option.some.injEq, Prod.mk.injEq] at hk; obtain ⟨rfl, rfl⟩ := hk
    refine ⟨ha, j, i, v, c, hn, hc, ?_⟩
    have h := exec_idle (exec_save h rfl) (Or.inr (Or.inr rfl))
    rcases exec_unlock h rfl with h | h
    · rw [exec_fini (exec_delEnv h)]; exact ⟨_, rfl⟩
    · rw [exec_fini (exec_delEnv h)]; exact ⟨_, rfl⟩
  · cases hk

/-- **C75**: when taking a snapshot reports success, the new name, which was free before, and the old one refer to two new boot records of
two new volumes, both complete, both with the content the old one had, both sharing with what was the volume before, which nobody can write
any more. -/
theorem C75_snap_ok (d : Disk) (n s : Nat) (os : List Out) (h : (solo d (start (.snap n s)) os).2.st = .ok) :
    d.names s = none ∧ ∃ i, d.names n = some (.boot i) ∧ d.vols (d.recVol i) = .whole ∧ (solo d (start (.snap n s)) os).1 =
      { d with
        names := upd (upd d.names s (some (.boot d.next))) n (some (.boot (d.next + 1)))
        recs := upd (upd d.recs d.next true) (d.next + 1) true
        recVol := upd (upd d.recVol d.next d.next) (d.next + 1) (d.next + 1)
        vols := upd (upd d.vols d.next .whole) (d.next + 1) .whole
        base := upd (upd d.base d.next (some (d.recVol i))) (d.next + 1) (some (d.recVol i))
        cont := upd (upd d.cont d.next (d.cont (d.recVol i))) (d.next + 1) (d.cont (d.recVol i))
        fossil := upd d.fossil (d.recVol i) true
        synced := upd d.synced (d.next + 1) true
        next := d.next + 2 } := by
  have h := solo_exec d (start (.snap n s)) rfl (by exact nofun) os h
  generalize (solo d (start (.snap n s)) os).1 = d' at h ⊢
  generalize (solo d (start (.snap n s)) os).2.mem = m' at h
  change Exec d {} (prog (.snap n s)) d' m' at h
  simp only [prog] at h
  obtain ⟨ha, h⟩ := exec_absent (exec_idle h (Or.inl rfl))
  obtain ⟨i, hn, h⟩ := exec_load (exec_idle (exec_pass h) (Or.inl rfl))
  obtain ⟨⟨h1, h2, h3⟩, h⟩ := exec_openFs (exec_poke (exec_idle (exec_env (exec_idle h (Or.inl rfl))) (Or.inr (Or.inl rfl)))) rfl
  obtain ⟨k, d1, m1, hk, h⟩ := exec_go h rfl
  simp only [act, Option.some.injEq, Prod.mk.injEq] at hk; obtain ⟨rfl, rfl⟩ := hk
  refine ⟨ha, i, hn, h2, ?_⟩
  have h := exec_idle (exec_closeFs h rfl) (Or.inr (Or.inr rfl))
  rw [exec_fini (exec_delEnv (exec_save2 (exec_save h rfl) rfl))]

/-! ### Contents -/

theorem act_cont {k : Nat} {d d' : Disk} {m m' : Mem} {st : Step} (h : act k d m st = some (d', m')) :
    d.next ≤ d'.next ∧ ∀ v, v < d.next → d'.cont v = d.cont v ∨ st = .serve ∧ m.vol = some v ∨
      st = .unpack ∧ ∃ j i c, m.arc = some j ∧ d.arch j = some (i, v, c) := by
  cases st <;> simp only [act] at h
  case mkVol =>
    simp only [Option.some.injEq, Prod.mk.injEq] at h; obtain ⟨rfl, rfl⟩ := h
    exact ⟨by dsimp only; omega, fun v hv => Or.inl (upd_ne _ _ (by omega))⟩
  case fork =>
    split at h
    · simp only [Option.some.injEq, Prod.mk.injEq] at h; obtain ⟨rfl, rfl⟩ := h
      refine ⟨by dsimp only; omega, fun v hv => Or.inl ?_⟩
      dsimp only
      rw [upd_ne _ _ (by omega), upd_ne _ _ (by omega)]
    · cases h
  case serve =>
    split at h
    · rename_i v hv
      simp only [Option.some.injEq, Prod.mk.injEq] at h; obtain ⟨rfl, rfl⟩ := h
      refine ⟨Nat.le_refl _, fun w hw => ?_⟩
      by_cases hwv : w = v
      · subst hwv; exact Or.inr (Or.inl ⟨rfl, hv⟩)
      · exact Or.inl (upd_ne _ _ hwv)
    · cases h
  case unpack =>
    split at h
    · rename_i j hj
      split at h
      · rename_i i v c hc
        simp only [Option.some.injEq, Prod.mk.injEq] at h; obtain ⟨rfl, rfl⟩ := h
        refine ⟨Nat.le_refl _, fun w hw => ?_⟩
        by_cases hwv : w = v
        · subst hwv; exact Or.inr (Or.inr ⟨rfl, j, i, c, hj, hc⟩)
        · exact Or.inl (upd_ne _ _ hwv)
      · cases h
    · cases h
  all_goals
    repeat' (split at h)
    all_goals first
      | (simp only [Option.some.injEq, Prod.mk.injEq] at h; obtain ⟨rfl, rfl⟩ := h
         first
           | exact ⟨Nat.le_refl _, fun v hv => Or.inl rfl⟩
           | exact ⟨Nat.le_succ _, fun v hv => Or.inl rfl⟩)
      | (cases h; done)

theorem half_cont (d : Disk) (m : Mem) (st : Step) : d.next ≤ (half d m st).next ∧ ∀ v, v < d.next → (half d m st).cont v = d.cont v := by
  have key : ∀ d' m', st ≠ .serve → st ≠ .unpack → act 0 d m st = some (d', m') → d.next ≤ d'.next ∧ ∀ v, v < d.next → d'.cont v = d.cont v := by
    intro d' m' h1 h2 h
    refine ⟨(act_cont h).1, fun v hv => ?_⟩
    rcases (act_cont h).2 v hv with hx | ⟨hx, _⟩ | ⟨hx, _⟩
    · exact hx
    · exact absurd hx h1
    · exact absurd hx h2
  cases st <;> simp only [half]
  case mkVol => exact ⟨by omega, fun v hv => trivial⟩
  case fork => split <;> exact ⟨Nat.le_refl _, fun v hv => rfl⟩
  case unpack => repeat' split
                 all_goals exact ⟨Nat.le_refl _, fun v hv => rfl⟩
  case delVol => split <;> exact ⟨Nat.le_refl _, fun v hv => rfl⟩
  all_goals first
    | exact ⟨Nat.le_refl _, fun v hv => trivial⟩
    | exact ⟨Nat.le_refl _, fun v hv => rfl⟩
    | (split
       · rename_i h; exact key _ _ nofun nofun h
       · exact ⟨Nat.le_refl _, fun v hv => rfl⟩)

theorem stepProc_cont (d : Disk) (p : Proc) (o : Out) :
    d.next ≤ (stepProc d p o).1.next ∧ ∀ v, v < d.next → (stepProc d p o).1.cont v = d.cont v ∨
      ∃ st rest, p.todo = st :: rest ∧ (st = .serve ∧ p.mem.vol = some v ∨
        st = .unpack ∧ ∃ j i c, p.mem.arc = some j ∧ d.arch j = some (i, v, c)) := by
  have hdie : ∀ d0, (die d0 p).1.next = d0.next ∧ (die d0 p).1.cont = d0.cont := by
    intro d0; unfold die; dsimp only; split <;> exact ⟨rfl, rfl⟩
  unfold stepProc
  split
  · exact ⟨Nat.le_refl _, fun v hv => Or.inl rfl⟩
  · split
    · exact ⟨Nat.le_refl _, fun v hv => Or.inl rfl⟩
    · rename_i st rest ht
      split
      · exact ⟨Nat.le_refl _, fun v hv => Or.inl rfl⟩
      · split
        · exact ⟨Nat.le_refl _, fun v hv => Or.inl rfl⟩
        · rw [(hdie d).1, (hdie d).2]; exact ⟨Nat.le_refl _, fun v hv => Or.inl rfl⟩
      · rw [(hdie _).1, (hdie _).2]
        exact ⟨(half_cont d p.mem st).1, fun v hv => Or.inl ((half_cont d p.mem st).2 v hv)⟩
      · split
        · rw [(hdie d).1, (hdie d).2]; exact ⟨Nat.le_refl _, fun v hv => Or.inl rfl⟩
        · rename_i h
          refine ⟨(act_cont h).1, fun v hv => ?_⟩
          rcases (act_cont h).2 v hv with hx | hx
          · exact Or.inl hx
          · exact Or.inr ⟨st, rest, ht, hx⟩

theorem serve_mem {c : Cmd} (h : .serve ∈ prog c) : ∃ n, c = .mount n := by
  cases c <;> simp only [prog, List.mem_cons, List.not_mem_nil, reduceCtorEq, or_self, or_false, false_or] at h
  exact ⟨_, rfl⟩

/-- **C75**: nothing but a mount of it or a restore of it changes what a volume contains: neither checks, archives, snapshots, nor the removal
of others, wherever they stop. -/
theorem C75_content {s : Sys} (h : Start s) (hm : ∀ p n, cmds s p ≠ .mount n) (hr : ∀ p a n, cmds s p ≠ .restore a n) (tr : List (Nat × Out))
    (v : Nat) (hv : v < s.d.next) : (run s tr).d.cont v = s.d.cont v := by
  have key : ∀ (c0 : Nat → Cmd) (s : Sys), Wf c0 s → (∀ p n, c0 p ≠ .mount n) → (∀ p a n, c0 p ≠ .restore a n) → v < s.d.next →
      ∀ tr, (run s tr).d.cont v = s.d.cont v := by
    intro c0 s hw hm hr hv tr
    induction tr generalizing s with
    | nil => rfl
    | cons e tr ih =>
      obtain ⟨h1, h2⟩ := stepProc_cont s.d (s.p e.1) e.2
      have h3 := ih (step s e) (step_wf e hw) (Nat.lt_of_lt_of_le hv h1)
      have h4 : (step s e).d.cont v = s.d.cont v := by
        rcases h2 v hv with h2 | ⟨st, rest, ht, hst⟩
        · exact h2
        · exfalso
          obtain ⟨l, hl⟩ := hw.todo e.1
          have hin : st ∈ prog (c0 e.1) := by
            rw [hl, ht]; simp only [List.mem_append, List.mem_cons, true_or, or_true]
          rcases hst with ⟨rfl, _⟩ | ⟨rfl, _⟩
          · obtain ⟨n, hn⟩ := serve_mem hin; exact hm _ _ hn
          · obtain ⟨a, n, hn⟩ := unpack_mem hin; exact hr _ _ _ hn
      rw [← h4, ← h3]; rfl
  exact key _ s (start_wf h) hm hr hv tr

/-! ### A name nobody can get rid of -/

/-- A list of steps which stops before it would change a name. `h`: the record behind the name has been loaded. -/
def blk (n : Nat) (h : Bool) : List Step → Bool
  | [] => true
  | .absent m :: t => m == n || blk n h t
  | .load m :: t => blk n (m == n) t
  | .poke :: t => h || blk n h t
  | .pack :: t => !h && blk n h t
  | .save m :: t => m != n && blk n h t
  | .save2 m :: t => m != n && blk n h t
  | .unlinkName m :: t => m != n && blk n h t
  | _ :: t => blk n h t

theorem blk_prog (n : Nat) (c : Cmd) : blk n false (prog c) = true := by
  cases c <;> simp only [prog, blk, Bool.or_eq_true, Bool.and_eq_true, beq_iff_eq, bne_iff_ne, Bool.not_eq_true', beq_eq_false_iff_ne] <;> grind

/-- A name whose boot record is gone for good. -/
structure Dead (n i : Nat) (c : Core) : Prop where
  name : c.names n = some (.boot i)
  only : ∀ m, c.names m = some (.boot i) → m = n
  rec_ : c.recs i = false
  old : i < c.next
  arch : ∀ j i' v k, c.arch j = some (i', v, k) → i' ≠ i

def Outs (i : Nat) (r : Regs) : Prop := r.out ≠ some (.boot i) ∧ r.out2 ≠ some (.boot i)

theorem eff_dead {st : Step} {b : Bool} {c c' : Core} {r r' : Regs} {n i : Nat} {rest : List Step} (he : Eff st b c r c' r')
    (hd : Dead n i c) (ho : Outs i r) (hk : blk n (r.ref == some i) (st :: rest) = true) :
    Dead n i c' ∧ Outs i r' ∧ (st ≠ .absent n → (st = .poke → r.ref ≠ some i) → blk n (r'.ref == some i) rest = true ∨ (∃ m, st = .load m)) := by
  have hd' := hd
  obtain ⟨d1, d2, d3, d4, d5⟩ := hd'
  obtain ⟨o1, o2⟩ := ho
  have hrest : ∀ x : Bool, blk n x (st :: rest) = true → st ≠ .absent n → (st = .poke → x = false) → blk n x rest = true ∨ ∃ m, st = .load m := by
    intro x hx h1 h2
    cases st <;> simp only [blk, Bool.or_eq_true, Bool.and_eq_true, beq_iff_eq, bne_iff_ne, Bool.not_eq_true', beq_eq_false_iff_ne] at hx
    case load => exact Or.inr ⟨_, rfl⟩
    all_goals left; grind
  have hp : (st = .poke → r.ref ≠ some i) → st = .poke → (r.ref == some i) = false := by
    intro h hs; simpa only [beq_eq_false_iff_ne] using h hs
  cases he with
  | idle => exact ⟨hd, ⟨o1, o2⟩, fun h1 h2 => hrest _ hk h1 (hp h2)⟩
  | load b c' r m i' hn => exact ⟨hd, ⟨o1, o2⟩, fun h1 h2 => Or.inr ⟨_, rfl⟩⟩
  | loadAr b c' r m i' hn => exact ⟨hd, ⟨o1, o2⟩, fun h1 h2 => hrest _ hk h1 (hp h2)⟩
  | useVol s b c' r i' hi hs => exact ⟨hd, ⟨o1, o2⟩, fun h1 h2 => hrest _ hk h1 (hp h2)⟩
  | mkVol => exact ⟨⟨d1, d2, d3, by dsimp only; omega, d5⟩, ⟨o1, o2⟩, fun h1 h2 => hrest _ hk h1 (hp h2)⟩
  | halfVol => exact ⟨⟨d1, d2, d3, by dsimp only; omega, d5⟩, ⟨o1, o2⟩, fun h1 h2 => hrest _ hk h1 (hp h2)⟩
  | saveRec b c' r v hv g' hg =>
    refine ⟨⟨d1, d2, ?_, by dsimp only; omega, d5⟩, ?_, fun h1 h2 => ?_⟩
    · dsimp only; rw [upd_ne _ _ (by omega)]; exact d3
    · rcases hg with rfl | rfl
      · exact ⟨o1, o2⟩
      · refine ⟨?_, o2⟩
        simp only [ne_eq, Option.some.injEq, Ref.boot.injEq]; omega
    · have : r'.ref = r.ref := by rcases hg with rfl | rfl <;> rfl
      rw [this]
      exact hrest _ hk h1 (hp h2)
  | fork b c' r i' hi =>
    refine ⟨⟨d1, d2, ?_, by dsimp only; omega, d5⟩, ?_, fun h1 h2 => hrest _ hk h1 (hp h2)⟩
    · dsimp only; rw [upd_ne _ _ (by omega), upd_ne _ _ (by omega)]; exact d3
    · simp only [Outs, ne_eq, Option.some.injEq, Ref.boot.injEq]; omega
  | pack b c' r i' k hi =>
    refine ⟨⟨d1, d2, d3, by dsimp only; omega, ?_⟩, ⟨nofun, o2⟩, fun h1 h2 => hrest _ hk h1 (hp h2)⟩
    intro j x v k' hj
    dsimp only at hj
    by_cases hjn : j = c.next
    · subst hjn
      rw [upd_self] at hj
      simp only [Option.some.injEq, Prod.mk.injEq] at hj
      simp only [blk, Bool.and_eq_true, Bool.not_eq_true', beq_eq_false_iff_ne] at hk
      intro hx
      apply hk.1
      rw [hi, hj.1, hx]
    · rw [upd_ne _ _ hjn] at hj
      exact d5 j x v k' hj
  | unpack b c' r j i' v k hj hj2 =>
    have := d5 j i' v k hj2
    refine ⟨⟨d1, d2, ?_, d4, d5⟩, ⟨?_, o2⟩, fun h1 h2 => hrest _ hk h1 (hp h2)⟩
    · dsimp only; rw [upd_ne _ _ (fun h => this h.symm)]; exact d3
    · simp only [ne_eq, Option.some.injEq, Ref.boot.injEq]; exact this
  | halfUnpack c' r j i' v k hj hj2 =>
    have := d5 j i' v k hj2
    refine ⟨⟨d1, d2, ?_, d4, d5⟩, ⟨o1, o2⟩, fun h1 h2 => hrest _ hk h1 (hp h2)⟩
    dsimp only; rw [upd_ne _ _ (fun h => this h.symm)]; exact d3
  | save s b c' r m x hx =>
    have hmn : m ≠ n := by
      rcases hx with ⟨rfl, _⟩ | ⟨rfl, _⟩ <;> simp only [blk, Bool.and_eq_true, bne_iff_ne] at hk <;> exact hk.1
    refine ⟨⟨?_, ?_, d3, d4, d5⟩, ⟨o1, o2⟩, fun h1 h2 => hrest _ hk h1 (hp h2)⟩
    · dsimp only; rw [upd_ne _ _ (fun h => hmn h.symm)]; exact d1
    · intro q hq
      dsimp only at hq
      by_cases hqm : q = m
      · subst hqm
        rw [upd_self] at hq
        rcases hx with ⟨_, hx⟩ | ⟨_, hx⟩
        · exact absurd (hx.trans hq) o1
        · exact absurd (hx.trans hq) o2
      · rw [upd_ne _ _ hqm] at hq; exact d2 q hq
  | delVol b c' r v x hv => exact ⟨⟨d1, d2, d3, d4, d5⟩, ⟨o1, o2⟩, fun h1 h2 => hrest _ hk h1 (hp h2)⟩
  | delRec b c' r i' hi =>
    refine ⟨⟨d1, d2, ?_, d4, d5⟩, ⟨o1, o2⟩, fun h1 h2 => hrest _ hk h1 (hp h2)⟩
    simp only [upd]; grind
  | unlink b c' r m =>
    have hmn : m ≠ n := by
      simp only [blk, Bool.and_eq_true, bne_iff_ne] at hk; exact hk.1
    refine ⟨⟨?_, ?_, d3, d4, d5⟩, ⟨o1, o2⟩, fun h1 h2 => hrest _ hk h1 (hp h2)⟩
    · dsimp only; rw [upd_ne _ _ (fun h => hmn h.symm)]; exact d1
    · intro q hq
      dsimp only at hq
      by_cases hqm : q = m
      · subst hqm; rw [upd_self] at hq; cases hq
      · rw [upd_ne _ _ hqm] at hq; exact d2 q hq

def Stuck (n i : Nat) (p : Proc) : Prop := Outs i (regs p.mem) ∧ (p.st = .running → blk n (p.mem.ref == some i) p.todo = true)

theorem act_passes {k : Nat} {d d' : Disk} {m m' : Mem} {st : Step} {n i : Nat} (hd : Dead n i (core d)) (h : act k d m st = some (d', m')) :
    st ≠ .absent n ∧ (st = .poke → m.ref ≠ some i) := by
  refine ⟨?_, ?_⟩
  · rintro rfl
    simp only [act, show d.names n = some (.boot i) from hd.name, reduceCtorEq, if_false] at h
  · rintro rfl hr
    simp only [act, hr, show d.recs i = false from hd.rec_, Bool.false_eq_true, if_false, reduceCtorEq] at h

theorem stepProc_dead (n i : Nat) (d : Disk) (p : Proc) (o : Out) (hd : Dead n i (core d)) (hp : Stuck n i p) :
    Dead n i (core (stepProc d p o).1) ∧ Stuck n i (stepProc d p o).2 := by
  have hdie : ∀ d0, Dead n i (core d0) → Dead n i (core (die d0 p).1) ∧ Stuck n i (die d0 p).2 := by
    intro d0 h0
    refine ⟨?_, hp.1, nofun⟩
    have : core (die d0 p).1 = core d0 := by unfold die; dsimp only; split <;> rfl
    rw [this]; exact h0
  unfold stepProc
  by_cases hr : p.st = .running
  · rw [if_neg (by simp only [hr, ne_eq, not_true_eq_false, not_false_eq_true])]
    rcases ht : p.todo with _ | ⟨st, rest⟩
    · exact ⟨hd, hp⟩
    · have hb := hp.2 hr
      rw [ht] at hb
      cases o with
      | kill => exact ⟨hd, hp.1, nofun⟩
      | err =>
        dsimp only
        split
        · rename_i hi
          refine ⟨hd, ?_, fun _ => ?_⟩
          · have : regs (skip p.mem st) = regs p.mem := by cases st <;> rfl
            show Outs i (regs (skip p.mem st))
            rw [this]; exact hp.1
          · have : (skip p.mem st).ref = p.mem.ref := by cases st <;> rfl
            show blk n ((skip p.mem st).ref == some i) rest = true
            rw [this]
            cases st <;> simp only [ignores, Bool.false_eq_true] at hi <;> simp only [blk, Bool.and_eq_true] at hb
            · exact hb.2
            · exact hb
        · exact hdie d hd
      | late =>
        dsimp only
        exact hdie _ (eff_dead (half_eff d p.mem st) hd hp.1 hb).1
      | go k =>
        dsimp only
        rcases ha : act k d p.mem st with _ | ⟨d', m'⟩
        · exact hdie d hd
        · have he := act_eff k d p.mem st d' m' ha true
          obtain ⟨h1, h2, h3⟩ := eff_dead he hd hp.1 hb
          have h4 := act_passes hd ha
          refine ⟨h1, h2, fun _ => ?_⟩
          show blk n (m'.ref == some i) rest = true
          rcases h3 h4.1 h4.2 with h5 | ⟨m, rfl⟩
          · exact h5
          · simp only [act] at ha
            split at ha
            · rename_i i' hi'
              simp only [Option.some.injEq, Prod.mk.injEq] at ha; obtain ⟨rfl, rfl⟩ := ha
              simp only [blk] at hb
              dsimp only
              have : (some i' == some i) = (m == n) := by
                by_cases hmn : m = n
                · subst hmn
                  have := hd.name
                  have h6 : d.names m = some (.boot i) := this
                  rw [hi'] at h6
                  cases h6
                  simp only [beq_self_eq_true]
                · have h6 : i' ≠ i := by
                    rintro rfl
                    exact hmn (hd.only m hi')
                  rw [beq_eq_false_iff_ne.2 hmn, beq_eq_false_iff_ne]
                  simpa only [ne_eq, Option.some.injEq] using h6
              rw [this]; exact hb
            · cases ha
  · rw [if_pos hr]; exact ⟨hd, hp⟩

/-- Once the boot record behind a name is gone, and no archive of it is left, no command can change the name: whatever is run afterwards,
in any number and in any order, fails or leaves it as it is. -/
theorem dead_run {n i : Nat} {s : Sys} (hd : Dead n i (core s.d)) (hp : ∀ p, ∃ c, s.p p = start c) (tr : List (Nat × Out)) :
    (run s tr).d.names n = some (.boot i) ∧ (run s tr).d.recs i = false := by
  have key : ∀ s, Dead n i (core s.d) → (∀ p, Stuck n i (s.p p)) → ∀ tr, Dead n i (core (run s tr).d) := by
    intro s hd hp tr
    induction tr generalizing s with
    | nil => exact hd
    | cons e tr ih =>
      obtain ⟨h1, h2⟩ := stepProc_dead n i s.d (s.p e.1) e.2 hd (hp e.1)
      refine ih (step s e) h1 (fun p => ?_)
      simp only [step, upd]
      split
      · exact h2
      · exact hp p
  have := key s hd (fun p => by
    obtain ⟨c, hc⟩ := hp p
    rw [hc]
    exact ⟨⟨nofun, nofun⟩, fun _ => blk_prog n c⟩) tr
  exact ⟨this.name, this.rec_⟩

/-! ### Where a command reports otherwise -/

/-- An empty repository. -/
def bare : Disk := ⟨fun _ => none, fun _ => false, fun _ => 0, fun _ => none, fun _ => .absent, fun _ => none, fun _ => false, fun _ => 0,
  fun _ => false, fun _ => false, 0⟩

def goes (n : Nat) : List Out := List.replicate n (.go 0)

/-- A repository with one file-system, made by its command. -/
def made : Disk := (solo bare (start (.mkfs 0)) (goes 15)).1

/-- Two processes at once, and nobody else. -/
def two (d : Disk) (a b : Cmd) : Sys := ⟨d, fun p => if p = 0 then start a else if p = 1 then start b else start (.fsck 9), []⟩

def by0 (n : Nat) : List (Nat × Out) := List.replicate n (0, .go 0)
def by1 (n : Nat) : List (Nat × Out) := List.replicate n (1, .go 0)

theorem made_sound : Sound made := by
  have hn : ∀ n r, made.names n = some r → n = 0 ∧ r = .boot 1 := by
    intro n r h
    have : made.names n = upd (fun _ => none) 0 (some (.boot 1)) n := rfl
    rw [this] at h
    simp only [upd] at h
    split at h
    · rename_i h0; cases h; exact ⟨h0, rfl⟩
    · cases h
  have hb : ∀ v, made.base v = none := fun _ => rfl
  refine ⟨?_, ?_, ?_, ?_⟩
  · intro n r h
    obtain ⟨rfl, rfl⟩ := hn n r h
    refine ⟨by decide +kernel, fun u hu => ?_⟩
    rw [needs_none (hb _) hu]
    decide +kernel
  · intro n i h
    obtain ⟨_, h2⟩ := hn n _ h
    cases h2
    decide +kernel
  · intro v u h; rw [hb] at h; cases h
  · intro j i v c h
    have : made.arch j = none := rfl
    rw [this] at h; cases h

theorem made_apart : Apart made := by
  intro n n' i i' hne h h'
  exfalso
  have hn : ∀ n r, made.names n = some r → n = 0 := by
    intro n r h
    have : made.names n = upd (fun _ => none) 0 (some (.boot 1)) n := rfl
    rw [this] at h
    simp only [upd] at h
    split at h
    · rename_i h0; exact h0
    · cases h
  exact hne ((hn n _ h).trans (hn n' _ h').symm)

theorem two_start (a b : Cmd) : Start (two made a b) where
  procs p := by
    unfold two
    dsimp only
    split
    · exact ⟨_, rfl⟩
    · split <;> exact ⟨_, rfl⟩
  hist := rfl
  sound := made_sound

/-- The hypotheses of the theorems above are met by real ones: a check and a snapshot at the same time, and an archive and a making. -/
example : (run (two made (.fsck 0) (.snap 0 3)) (by0 9 ++ by1 17 ++ by0 6)).d.names 3 = some (.boot 2) ∧
    ((run (two made (.fsck 0) (.snap 0 3)) (by0 9 ++ by1 17 ++ by0 6)).p 0).st = .ok ∧
    ((run (two made (.fsck 0) (.snap 0 3)) (by0 9 ++ by1 17 ++ by0 6)).p 1).st = .ok := by decide +kernel

example (tr : List (Nat × Out)) (n : Nat) (r : Ref) (h : (run (two made (.fsck 0) (.snap 0 3)) tr).d.names n = some r) :
    Opens (run (two made (.fsck 0) (.snap 0 3)) tr).d r := by
  refine C75_named_kept (two_start _ _) ?_ ?_ tr n r h
  · intro p n
    simp only [cmds, two]
    split
    · exact nofun
    · split <;> exact nofun
  · intro p a n
    simp only [cmds, two]
    split
    · exact nofun
    · split <;> exact nofun

/-- A removal of one name and a making of another. -/
example (tr : List (Nat × Out)) (r : Ref) (h : (run (two made (.rmfs 0) (.mkfs 4)) tr).d.names 4 = some r) :
    Opens (run (two made (.rmfs 0) (.mkfs 4)) tr).d r := by
  refine C75_others_kept (two_start _ _) made_apart ?_ ?_ tr 4 ?_ r h
  · intro p a n
    simp only [cmds, two]
    split
    · exact nofun
    · split <;> exact nofun
  · intro p q m n
    simp only [cmds, two]
    split
    · exact nofun
    · split <;> exact nofun
  · intro p
    simp only [cmds, two]
    split
    · exact nofun
    · split <;> exact nofun

example : (solo bare (start (.mkfs 0)) (goes 15)).2.st = .ok ∧ (solo made (start (.rmfs 0)) (goes 16)).2.st = .ok ∧
    (solo made (start (.archive 0 5)) (goes 17)).2.st = .ok ∧ (solo made (start (.snap 0 5)) (goes 17)).2.st = .ok ∧
    (solo (solo made (start (.archive 0 5)) (goes 17)).1 (start (.restore 5 6)) (goes 15)).2.st = .ok := by decide +kernel

set_option maxRecDepth 20000 in
/-- **C75**: a removal may report success and leave the name, because nobody looks at the error of its unlink; and then no command can do
anything about the name any more, for ever. -/
theorem C75_rmfs_name_violated : ∃ os, (solo made (start (.rmfs 0)) os).2.st = .ok ∧ (solo made (start (.rmfs 0)) os).1.names 0 ≠ none ∧
    ∀ s : Sys, s.d = (solo made (start (.rmfs 0)) os).1 → (∀ p, ∃ c, s.p p = start c) → ∀ tr,
      (run s tr).d.names 0 = some (.boot 1) ∧ ¬ Opens (run s tr).d (.boot 1) := by
  refine ⟨goes 12 ++ [.err] ++ goes 3, by decide +kernel, by decide +kernel, fun s hs hp tr => ?_⟩
  have hd : Dead 0 1 (core s.d) := by
    rw [hs]
    refine ⟨by decide +kernel, ?_, by decide +kernel, by decide +kernel, nofun⟩
    intro m hm
    have hmm : (core (solo made (start (.rmfs 0)) (goes 12 ++ [.err] ++ goes 3)).1).names = made.names := by rfl
    have : made.names m = upd (fun _ => none) 0 (some (.boot 1)) m := rfl
    rw [hmm, this] at hm
    simp only [upd] at hm
    split at hm
    · rename_i h0; exact h0
    · cases hm
  obtain ⟨h1, h2⟩ := dead_run hd hp tr
  refine ⟨h1, fun ⟨h3, _⟩ => ?_⟩
  rw [h2] at h3; cases h3

set_option maxRecDepth 20000 in
/-- **C75**: making a file-system may report failure although the file-system is there and has its name: closing it comes last. -/
theorem C75_mkfs_failed_violated : ∃ os, (solo bare (start (.mkfs 0)) os).2.st = .failed ∧
    (solo bare (start (.mkfs 0)) os).1.names 0 = some (.boot 1) ∧ Opens (solo bare (start (.mkfs 0)) os).1 (.boot 1) := by
  refine ⟨goes 11 ++ [.err], by decide +kernel, by decide +kernel, by decide +kernel, fun u hu => ?_⟩
  have hu := needs_none (by decide +kernel) hu
  rw [hu]
  decide +kernel

/-- **C75**: a making killed right after the name was saved leaves a lock which nobody will remove, and a name whose volume is not yet on
stable storage. -/
theorem C75_mkfs_killed_violated : ∃ os, (solo bare (start (.mkfs 0)) os).2.st = .killed ∧
    (solo bare (start (.mkfs 0)) os).1.names 0 = some (.boot 1) ∧
    (solo bare (start (.mkfs 0)) os).1.synced ((solo bare (start (.mkfs 0)) os).1.recVol 1) = false ∧
    (solo bare (start (.mkfs 0)) os).1.lockf 0 = true :=
  ⟨goes 11 ++ [.kill], by decide +kernel⟩

/-- An archive of a file-system, and two changes later. -/
def later : Disk := (solo (solo made (start (.archive 0 5)) (goes 17)).1 (start (.mount 0)) (goes 20 ++ [.go 9] ++ goes 5)).1

/-- **C75**: restoring an archive under a new name beside the file-system itself reports success, and takes back what was written since. -/
theorem C75_restore_content_violated : (solo later (start (.restore 5 6)) (goes 15)).2.st = .ok ∧
    later.names 0 = some (.boot 1) ∧ later.cont (later.recVol 1) = 9 ∧
    (solo later (start (.restore 5 6)) (goes 15)).1.names 0 = some (.boot 1) ∧
    (solo later (start (.restore 5 6)) (goes 15)).1.cont (later.recVol 1) = 0 := by decide +kernel

/-- **C75**: and then removing the copy removes the original. -/
theorem C75_restore_removed_violated :
    (solo (solo later (start (.restore 5 6)) (goes 15)).1 (start (.rmfs 6)) (goes 16)).2.st = .ok ∧
    (solo (solo later (start (.restore 5 6)) (goes 15)).1 (start (.rmfs 6)) (goes 16)).1.names 0 = some (.boot 1) ∧
    ¬ Opens (solo (solo later (start (.restore 5 6)) (goes 15)).1 (start (.rmfs 6)) (goes 16)).1 (.boot 1) := by
  refine ⟨by decide +kernel, by decide +kernel, fun ⟨h, _⟩ => ?_⟩
  revert h
  decide +kernel

/-- **C75**: a restore that fails half-way breaks the original. -/
theorem C75_restore_failed_violated : ∃ os, (solo later (start (.restore 5 6)) os).2.st = .failed ∧
    (solo later (start (.restore 5 6)) os).1.names 6 = none ∧
    (solo later (start (.restore 5 6)) os).1.names 0 = some (.boot 1) ∧
    ¬ Opens (solo later (start (.restore 5 6)) os).1 (.boot 1) := by
  refine ⟨goes 9 ++ [.late], by decide +kernel, by decide +kernel, by decide +kernel, fun ⟨_, h⟩ => ?_⟩
  have := h _ (.self _)
  revert this
  decide +kernel

/-- **C75**: a restore leaves the lock of the archive behind, for ever, and takes away the lock of the name even if another command holds it. -/
theorem C75_restore_lock_violated : (solo later (start (.restore 5 6)) (goes 15)).1.lockf 5 = true ∧
    ((run (two later (.restore 5 6) (.mkfs 6)) (by1 8 ++ by0 15)).p 1).st = .running ∧
    ((run (two later (.restore 5 6) (.mkfs 6)) (by1 8 ++ by0 15)).p 1).mem.hasLock = true ∧
    (run (two later (.restore 5 6) (.mkfs 6)) (by1 8 ++ by0 15)).d.lockf 6 = false := by decide +kernel

/-- **C75**: a snapshot of a name at the same time as its removal: both report success, and the snapshot does not open. -/
theorem C75_snap_race_violated : ∃ tr, ((run (two made (.rmfs 0) (.snap 0 3)) tr).p 0).st = .ok ∧
    ((run (two made (.rmfs 0) (.snap 0 3)) tr).p 1).st = .ok ∧
    (run (two made (.rmfs 0) (.snap 0 3)) tr).d.names 3 = some (.boot 2) ∧ ¬ Opens (run (two made (.rmfs 0) (.snap 0 3)) tr).d (.boot 2) := by
  refine ⟨by0 9 ++ by1 17 ++ by0 7, by decide +kernel, by decide +kernel, by decide +kernel, fun ⟨_, h⟩ => ?_⟩
  have h1 := h 0 (.up (u := 0) (by decide +kernel) (.self _))
  revert h1
  decide +kernel

set_option maxRecDepth 20000 in
/-- **C75**: two archives of different file-systems under one name at the same time: both report success, and one of them cannot be reached
by any name. -/
theorem C75_archive_race_violated : ∃ tr, ((run (two (solo made (start (.mkfs 1)) (goes 15)).1 (.archive 0 5) (.archive 1 5)) tr).p 0).st = .ok ∧
    ((run (two (solo made (start (.mkfs 1)) (goes 15)).1 (.archive 0 5) (.archive 1 5)) tr).p 1).st = .ok ∧
    (run (two (solo made (start (.mkfs 1)) (goes 15)).1 (.archive 0 5) (.archive 1 5)) tr).d.arch 5 = some (3, 2, 0) ∧
    ∀ n, (run (two (solo made (start (.mkfs 1)) (goes 15)).1 (.archive 0 5) (.archive 1 5)) tr).d.names n ≠ some (.pack 5) := by
  refine ⟨by0 11 ++ by1 17 ++ by0 6, by decide +kernel, by decide +kernel, by decide +kernel, fun n hn => ?_⟩
  have : (run (two (solo made (start (.mkfs 1)) (goes 15)).1 (.archive 0 5) (.archive 1 5)) (by0 11 ++ by1 17 ++ by0 6)).d.names n =
      upd (upd (upd (upd (fun _ => none) 0 (some (.boot 1))) 1 (some (.boot 3))) 5 (some (.pack 5))) 5 (some (.pack 4)) n := by
    rfl
  rw [this] at hn
  simp only [upd] at hn
  grind

/-- **C75**: a snapshot killed after it has changed the volume, before it has saved the names: the name can be opened for reading, but neither
be mounted, nor checked, nor archived, nor removed any more. -/
theorem C75_snap_killed_violated : ∃ os, (solo made (start (.snap 0 3)) os).2.st = .killed ∧
    (solo made (start (.snap 0 3)) os).1.names 0 = some (.boot 1) ∧
    ∀ c ∈ [Cmd.mount 0, .fsck 0, .archive 0 5, .rmfs 0, .snap 0 3], ∀ os', (solo (solo made (start (.snap 0 3)) os).1 (start c) os').2.st ≠ .ok := by
  refine ⟨goes 11 ++ [.kill], by decide +kernel, by decide +kernel, ?_⟩
  intro c hc os' hok
  have hn : (solo made (start (.snap 0 3)) (goes 11 ++ [.kill])).1.names 0 = some (.boot 1) := by decide +kernel
  have hf : (solo made (start (.snap 0 3)) (goes 11 ++ [.kill])).1.fossil
      ((solo made (start (.snap 0 3)) (goes 11 ++ [.kill])).1.recVol 1) = true := by decide +kernel
  generalize (solo made (start (.snap 0 3)) (goes 11 ++ [.kill])).1 = d at hn hf hok
  have key : ∀ c, (c = Cmd.mount 0 ∨ c = .fsck 0) → (solo d (start c) os').2.st ≠ .ok := by
    intro c hc hok
    have h := solo_exec d (start c) rfl (by rcases hc with rfl | rfl <;> exact nofun) os' hok
    generalize (solo d (start c) os').1 = d' at h
    generalize (solo d (start c) os').2.mem = m' at h
    have h' : ∃ l, Exec d {} ([.check, .pass, .check, .load 0, .env, .lock 0, .repo, .poke, .openFs] ++ l) d' m' := by
      rcases hc with rfl | rfl <;> exact ⟨_, h⟩
    obtain ⟨l, h⟩ := h'
    simp only [List.cons_append, List.nil_append] at h
    obtain ⟨i, hi, h⟩ := exec_load (exec_idle (exec_pass (exec_idle h (Or.inl rfl))) (Or.inl rfl))
    obtain ⟨hl, h⟩ := exec_lock (exec_env h)
    obtain ⟨⟨h1, h2, h3⟩, h⟩ := exec_openFs (exec_poke (exec_idle h (Or.inr (Or.inl rfl)))) rfl
    rw [hn] at hi
    cases hi
    rw [hf] at h3; cases h3
  simp only [List.mem_cons, List.not_mem_nil, or_false] at hc
  rcases hc with rfl | rfl | rfl | rfl | rfl
  · exact key _ (Or.inl rfl) hok
  · exact key _ (Or.inr rfl) hok
  · have h := solo_exec d _ rfl (by exact nofun) os' hok
    change Exec d {} (prog (.archive 0 5)) _ _ at h
    simp only [prog] at h
    obtain ⟨ha, h⟩ := exec_absent (exec_idle h (Or.inl rfl))
    obtain ⟨i, hi, h⟩ := exec_load (exec_idle (exec_pass h) (Or.inl rfl))
    obtain ⟨hl, h⟩ := exec_lock (exec_env h)
    obtain ⟨⟨h1, h2, h3⟩, h⟩ := exec_openFs (exec_poke (exec_idle h (Or.inr (Or.inl rfl)))) rfl
    rw [hn] at hi
    cases hi
    rw [hf] at h3; cases h3
  · obtain ⟨i, hi, _, h3, _⟩ := C75_rmfs_ok_partial d 0 os' hok
    rw [hn] at hi
    cases hi
    rw [hf] at h3; cases h3
  · have h := solo_exec d _ rfl (by exact nofun) os' hok
    change Exec d {} (prog (.snap 0 3)) _ _ at h
    simp only [prog] at h
    obtain ⟨ha, h⟩ := exec_absent (exec_idle h (Or.inl rfl))
    obtain ⟨i, hi, h⟩ := exec_load (exec_idle (exec_pass h) (Or.inl rfl))
    obtain ⟨⟨h1, h2, h3⟩, h⟩ := exec_openFs (exec_poke (exec_idle (exec_env (exec_idle h (Or.inl rfl))) (Or.inr (Or.inl rfl)))) rfl
    rw [hn] at hi
    cases hi
    rw [hf] at h3; cases h3

end Silofs.Cs
