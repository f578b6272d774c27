import Verif.Props.CmdseqEnds
/-
C75: who holds the lock of a name.
-/
set_option linter.unusedSimpArgs false
set_option linter.unusedVariables false
namespace Silofs.Cs

theorem lock_mem {c : Cmd} {n : Nat} (h : .lock n ∈ prog c) (hr : ∀ a n, c ≠ .restore a n) : unlockName c = n := by
  cases c <;> simp only [prog, List.mem_cons, List.not_mem_nil, reduceCtorEq, or_self, or_false, false_or, Step.lock.injEq] at h
  case restore a n' => exact absurd rfl (hr a n')
  all_goals subst h; rfl

theorem unlock_mem {c : Cmd} {n : Nat} (h : .unlock n ∈ prog c) : unlockName c = n := by
  cases c <;> simp only [prog, List.mem_cons, List.not_mem_nil, reduceCtorEq, or_self, or_false, false_or, Step.unlock.injEq] at h
  all_goals subst h; rfl

theorem act_locks {k : Nat} {d d' : Disk} {m m' : Mem} {st : Step} (h : act k d m st = some (d', m')) :
    (∀ n, st ≠ .lock n) → (∀ n, st ≠ .unlock n) → d'.lockf = d.lockf ∧ m'.hasLock = m.hasLock := by
  intro h1 h2
  cases st <;> simp only [act] at h
  case lock n => exact absurd rfl (h1 n)
  case unlock n => exact absurd rfl (h2 n)
  all_goals
    repeat' (split at h)
    all_goals first
      | (simp only [Option.some.injEq, Prod.mk.injEq] at h; obtain ⟨rfl, rfl⟩ := h; exact ⟨rfl, rfl⟩)
      | (cases h; done)

theorem half_locks (d : Disk) (m : Mem) (st : Step) (h1 : ∀ n, st ≠ .lock n) (h2 : ∀ n, st ≠ .unlock n) : (half d m st).lockf = d.lockf := by
  have key : ∀ d' m', act 0 d m st = some (d', m') → d'.lockf = d.lockf := fun d' m' h => (act_locks h h1 h2).1
  cases st <;> simp only [half]
  all_goals
    repeat' split
    all_goals first
      | rfl
      | (rename_i h; exact key _ _ h)

/-- Locks after a step of a process whose lock is that of `nm`, and whether it holds it: as before or given up for lost; taken; dropped; or
made, but not taken. -/
def LockOf (f : Nat → Bool) (nm : Nat) (b : Bool) (f' : Nat → Bool) (b' : Bool) : Prop :=
  (f' = f ∧ (b' = b ∨ b' = false)) ∨ (f nm = false ∧ f' = upd f nm true ∧ b' = true) ∨ (b = true ∧ f' = upd f nm false ∧ b' = false) ∨
    (b' = false ∧ b = false ∧ ∀ n, f n = true → f' n = true)

theorem upd_upd {α : Type} (f : Nat → α) (i : Nat) (x y : α) : upd (upd f i x) i y = upd f i y := by
  funext j; simp only [upd]; split <;> rfl

theorem stepProc_locks (d : Disk) (p : Proc) (o : Out) (hr : ∀ a n, p.cmd ≠ .restore a n)
    (hin : ∀ st rest, p.todo = st :: rest → st ∈ prog p.cmd) (hh : Held p) :
    LockOf d.lockf (unlockName p.cmd) p.mem.hasLock (stepProc d p o).1.lockf (stepProc d p o).2.mem.hasLock := by
  have hdie : ∀ d0, d0.lockf = d.lockf → LockOf d.lockf (unlockName p.cmd) p.mem.hasLock (die d0 p).1.lockf (die d0 p).2.mem.hasLock := by
    intro d0 h0
    unfold die LockOf
    dsimp only
    rcases Bool.eq_false_or_eq_true p.mem.hasLock with hl | hl
    · rw [hl, if_pos rfl]
      right; right; left
      exact ⟨rfl, by dsimp only; rw [h0], rfl⟩
    · rw [hl, if_neg (by exact nofun)]
      exact Or.inl ⟨h0, Or.inl rfl⟩
  by_cases hrun : p.st = .running
  · have hh' := hh hrun
    rcases ht : p.todo with _ | ⟨st, rest⟩
    · left
      unfold stepProc
      rw [if_neg (by simp only [hrun, ne_eq, not_true_eq_false, not_false_eq_true]), ht]
      exact ⟨rfl, Or.inl rfl⟩
    · have hst := hin st rest ht
      rw [ht] at hh'
      unfold stepProc
      rw [if_neg (by simp only [hrun, ne_eq, not_true_eq_false, not_false_eq_true]), ht]
      cases o with
      | kill => exact Or.inl ⟨rfl, Or.inl rfl⟩
      | err =>
        dsimp only
        split
        · rename_i hi
          left
          refine ⟨rfl, ?_⟩
          cases st <;> simp only [ignores, Bool.false_eq_true] at hi
          · exact Or.inl rfl
          · exact Or.inr rfl
        · exact hdie d rfl
      | late =>
        dsimp only
        by_cases h1 : ∃ n, st = .lock n
        · obtain ⟨n, rfl⟩ := h1
          have hn := lock_mem hst hr
          simp only [underLock] at hh'
          right; right; right
          refine ⟨rfl, hh', fun x hx => ?_⟩
          unfold die
          rw [hh', if_neg (by exact nofun)]
          simp only [half, act]
          split
          · rename_i d' m' ha
            split at ha
            · cases ha
            · simp only [Option.some.injEq, Prod.mk.injEq] at ha; obtain ⟨rfl, rfl⟩ := ha
              simp only [upd]; split
              · rfl
              · exact hx
          · exact hx
        · by_cases h2 : ∃ n, st = .unlock n
          · obtain ⟨n, rfl⟩ := h2
            have hn := unlock_mem hst
            simp only [underLock] at hh'
            right; right; left
            refine ⟨hh', ?_, rfl⟩
            unfold die
            simp only [hh', if_true, half, act, hn, upd_upd]
          · exact hdie _ (half_locks d p.mem st (fun n hn => h1 ⟨n, hn⟩) (fun n hn => h2 ⟨n, hn⟩))
      | go k =>
        dsimp only
        rcases ha : act k d p.mem st with _ | ⟨d', m'⟩
        · exact hdie d rfl
        · dsimp only
          by_cases h1 : ∃ n, st = .lock n
          · obtain ⟨n, rfl⟩ := h1
            have hn := lock_mem hst hr
            simp only [act] at ha
            split at ha
            · cases ha
            · rename_i hf
              simp only [Option.some.injEq, Prod.mk.injEq] at ha; obtain ⟨rfl, rfl⟩ := ha
              right; left
              exact ⟨by rw [hn]; simpa only [Bool.not_eq_true] using hf, by rw [hn], rfl⟩
          · by_cases h2 : ∃ n, st = .unlock n
            · obtain ⟨n, rfl⟩ := h2
              have hn := unlock_mem hst
              simp only [underLock] at hh'
              simp only [act, hh', if_true, Option.some.injEq, Prod.mk.injEq] at ha; obtain ⟨rfl, rfl⟩ := ha
              right; right; left
              exact ⟨hh', by rw [hn], rfl⟩
            · have := act_locks ha (fun n hn => h1 ⟨n, hn⟩) (fun n hn => h2 ⟨n, hn⟩)
              exact Or.inl ⟨this.1, Or.inl this.2⟩
  · left
    unfold stepProc
    rw [if_pos hrun]
    exact ⟨rfl, Or.inl rfl⟩

/-- Those who hold a lock hold it alone, and it is there. -/
structure Alone (c0 : Nat → Cmd) (s : Sys) : Prop where
  there : ∀ p, (s.p p).mem.hasLock = true → s.d.lockf (unlockName (c0 p)) = true
  alone : ∀ p q, p ≠ q → (s.p p).mem.hasLock = true → (s.p q).mem.hasLock = true → unlockName (c0 p) ≠ unlockName (c0 q)

theorem step_alone {c0 : Nat → Cmd} {s : Sys} (e : Nat × Out) (hw : Wf c0 s) (hh : ∀ p, Held (s.p p)) (hr : ∀ p a n, c0 p ≠ .restore a n)
    (h : Alone c0 s) : Alone c0 (step s e) := by
  have hl := stepProc_locks s.d (s.p e.1) e.2 (by rw [hw.cmd]; exact hr e.1)
    (by
      intro st rest ht
      obtain ⟨l, hl⟩ := hw.todo e.1
      rw [hw.cmd, hl, ht]
      simp only [List.mem_append, List.mem_cons, true_or, or_true]) (hh e.1)
  rw [hw.cmd] at hl
  have hother : ∀ p, p ≠ e.1 → (step s e).p p = s.p p := fun p hp => upd_ne _ _ hp
  have hself : (step s e).p e.1 = (stepProc s.d (s.p e.1) e.2).2 := upd_self _ _ _
  have hd : (step s e).d = (stepProc s.d (s.p e.1) e.2).1 := rfl
  rw [← hd, ← hself] at hl
  have h1 := h.there
  have h2 := h.alone
  generalize hf : (step s e).d.lockf = f' at hl
  have goal : (∀ p, ((step s e).p p).mem.hasLock = true → f' (unlockName (c0 p)) = true) ∧
      ∀ p q, p ≠ q → ((step s e).p p).mem.hasLock = true → ((step s e).p q).mem.hasLock = true → unlockName (c0 p) ≠ unlockName (c0 q) := by
    unfold LockOf at hl
    rcases hl with ⟨rfl, hl⟩ | ⟨k1, rfl, k3⟩ | ⟨k1, rfl, k3⟩ | ⟨k1, k2, k3⟩
    · refine ⟨?_, ?_⟩ <;> grind
    · have hup : ∀ x, upd s.d.lockf (unlockName (c0 e.1)) true x = true ↔ x = unlockName (c0 e.1) ∨ s.d.lockf x = true := by
        intro x; simp only [upd]; grind
      refine ⟨?_, ?_⟩ <;> grind
    · have hup : ∀ x, upd s.d.lockf (unlockName (c0 e.1)) false x = true ↔ x ≠ unlockName (c0 e.1) ∧ s.d.lockf x = true := by
        intro x; simp only [upd]; grind
      refine ⟨?_, ?_⟩ <;> grind
    · refine ⟨?_, ?_⟩ <;> grind
  exact ⟨by rw [hf]; exact goal.1, goal.2⟩

theorem run_alone {c0 : Nat → Cmd} {s : Sys} (hw : Wf c0 s) (hh : ∀ p, Held (s.p p)) (hr : ∀ p a n, c0 p ≠ .restore a n)
    (h : Alone c0 s) (tr : List (Nat × Out)) : Alone c0 (run s tr) ∧ ∀ p, Held ((run s tr).p p) := by
  induction tr generalizing s with
  | nil => exact ⟨h, hh⟩
  | cons e tr ih =>
    refine ih (step_wf e hw) (fun p => ?_) (step_alone e hw hh hr h)
    simp only [step, upd]
    split
    · refine stepProc_held _ _ _ ?_ (hh _)
      obtain ⟨l, hl⟩ := hw.todo e.1
      have := balanced_prog (c0 e.1)
      rw [hl] at this
      exact balanced_drop this
    · exact hh p

/-- **C75** (a restore removes the locks of others: `C75_restore_lock_violated`; a snapshot takes none).  As long as nobody restores, no two
commands other than snapshots are about to change things under one name, at any moment; not even when locks cannot be removed. -/
theorem C75_exclusive_partial {s : Sys} (h : Start s) (hr : ∀ p a n, cmds s p ≠ .restore a n) (tr : List (Nat × Out)) (p q : Nat) (hpq : p ≠ q)
    (hn : unlockName (cmds s p) = unlockName (cmds s q)) (hp : (cmds s p).isSnap = false) (hq : (cmds s q).isSnap = false)
    (st st' : Step) (rest rest' : List Step)
    (h1 : ((run s tr).p p).st = .running ∧ ((run s tr).p p).todo = st :: rest ∧ st.alters = true)
    (h2 : ((run s tr).p q).st = .running ∧ ((run s tr).p q).todo = st' :: rest' ∧ st'.alters = true) : False := by
  have hw := run_wf (start_wf h) tr
  have hh0 : ∀ p, Held (s.p p) := by
    intro p
    obtain ⟨c, hc⟩ := h.procs p
    rw [hc]
    intro _
    cases c <;> rfl
  have h0 : Alone (cmds s) s := by
    have : ∀ p, (s.p p).mem.hasLock = false := by
      intro p
      obtain ⟨c, hc⟩ := h.procs p
      rw [hc]; rfl
    refine ⟨fun p hp => ?_, fun p q _ hp => ?_⟩ <;> (rw [this] at hp; cases hp)
  obtain ⟨ha, hh⟩ := run_alone (start_wf h) hh0 hr h0 tr
  have key : ∀ p st rest, (cmds s p).isSnap = false →
      ((run s tr).p p).st = .running ∧ ((run s tr).p p).todo = st :: rest ∧ st.alters = true → ((run s tr).p p).mem.hasLock = true := by
    intro p st rest hs ⟨k1, k2, k3⟩
    rw [hh p k1, k2]
    obtain ⟨l, hl⟩ := hw.todo p
    have := guarded_prog _ hs
    rw [hl, k2] at this
    have := guarded_drop this
    simp only [guarded, k3, Bool.not_true, Bool.false_or, Bool.and_eq_true] at this
    exact this.1
  exact ha.alone p q hpq (key p st rest hp h1) (key q st' rest' hq h2) hn

/-- The one of two removals that has the lock is about to remove; the other one waits, and fails once the first is through. -/
example : ((run (two made (.rmfs 0) (.rmfs 0)) (by1 5 ++ by0 9)).p 0).todo.head? = some .delVol ∧
    ((run (two made (.rmfs 0) (.rmfs 0)) (by1 5 ++ by0 9)).p 1).todo.head? = some (.lock 0) ∧
    ((run (two made (.rmfs 0) (.rmfs 0)) (by1 5 ++ by0 16 ++ by1 3)).p 1).st = .failed := by decide +kernel

end Silofs.Cs
