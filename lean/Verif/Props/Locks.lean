import Verif.Model.Locks
/-!
C50: lock-files exclude commands from each other; where they do not.
-/
set_option linter.unusedSimpArgs false
set_option linter.unusedVariables false
namespace Silofs.Locks

/-- Process `p` works under the lock of its name. -/
def Holds (s : Sys) (p : Nat) : Prop :=
  (s.procs p).pc = .hold ∨ (s.procs p).pc = .unl1 ∨ (s.procs p).pc = .unl2

/-! ### Names -/

theorem lockName_inj (a b : Name) (h : lockName a = lockName b) : a = b := by
  unfold lockName at h
  have h1 := List.append_cancel_right h
  exact List.append_cancel_left h1

theorem temp_ne_lock (a b : Name) (t : Nat) : tempName a t ≠ lockName b := by
  intro h
  have e := congrArg (fun l => l.reverse.head?) h
  unfold tempName lockName dotLock at e
  simp only [List.reverse_append] at e
  have e2 : some 126 = some 107 := e
  cases e2

theorem hex8_length (t : Nat) : (hex8 t).length = 8 := rfl

theorem tempName_inj (a b : Name) (t u : Nat) (h : tempName a t = tempName b u) : a = b := by
  unfold tempName at h
  have h1 := List.append_cancel_right (List.append_cancel_right h)
  have h2 := List.append_inj' h1 rfl
  have h3 := List.append_cancel_right h2.1
  exact List.append_cancel_left h3

/-! ### What a step may do -/

@[simp] theorem setPc_files (s : Sys) (p : Nat) (c : Pc) : (setPc s p c).files = s.files := rfl
@[simp] theorem setPc_names (s : Sys) (p : Nat) (c : Pc) : (setPc s p c).names = s.names := rfl
@[simp] theorem setup_files (s : Sys) (p : Nat) (c : Pc) (t : Nat) : (setup s p c t).files = s.files := rfl
@[simp] theorem setup_names (s : Sys) (p : Nat) (c : Pc) (t : Nat) : (setup s p c t).names = s.names := rfl
@[simp] theorem setFile_names (s : Sys) (f : List Nat) (b : Bool) : (setFile s f b).names = s.names := rfl
@[simp] theorem setFile_procs (s : Sys) (f : List Nat) (b : Bool) : (setFile s f b).procs = s.procs := rfl
@[simp] theorem setName_files (s : Sys) (n : Name) (v : Option Nat) : (setName s n v).files = s.files := rfl
@[simp] theorem setName_procs (s : Sys) (n : Name) (v : Option Nat) : (setName s n v).procs = s.procs := rfl

theorem setFile_lock (s : Sys) (a n : Name) (t : Nat) (b : Bool) :
    (setFile s (tempName a t) b).files (lockName n) = s.files (lockName n) := by
  unfold setFile
  exact if_neg (fun e => temp_ne_lock a n t e.symm)

theorem setPc_self (s : Sys) (p : Nat) (c : Pc) : ((setPc s p c).procs p).pc = c := by
  unfold setPc; simp
theorem setPc_other (s : Sys) (p q : Nat) (c : Pc) (h : q ≠ p) : (setPc s p c).procs q = s.procs q := by
  unfold setPc; simp [h]
theorem setPc_lock (s : Sys) (p q : Nat) (c : Pc) : ((setPc s p c).procs q).lock = (s.procs q).lock ∧
    ((setPc s p c).procs q).unlock = (s.procs q).unlock := by
  unfold setPc; by_cases h : q = p <;> simp [h]
theorem setup_self (s : Sys) (p : Nat) (c : Pc) (t : Nat) : ((setup s p c t).procs p).pc = c := by
  unfold setup; simp
theorem setup_other (s : Sys) (p q : Nat) (c : Pc) (t : Nat) (h : q ≠ p) : (setup s p c t).procs q = s.procs q := by
  unfold setup; simp [h]
theorem setup_lock (s : Sys) (p q : Nat) (c : Pc) (t : Nat) : ((setup s p c t).procs q).lock = (s.procs q).lock ∧
    ((setup s p c t).procs q).unlock = (s.procs q).unlock := by
  unfold setup; by_cases h : q = p <;> simp [h]

/-- All a step does: other processes stay as they are; the names a process locks and unlocks never
change; and as for the lock-files, the step is idle, or takes a free lock, or gives one back. -/
structure StepOf (s s' : Sys) (p : Nat) : Prop where
  others : ∀ q, q ≠ p → s'.procs q = s.procs q
  fixed : ∀ q, (s'.procs q).lock = (s.procs q).lock ∧ (s'.procs q).unlock = (s.procs q).unlock
  names : ∀ n, s'.names n ≠ s.names n → (s.procs p).pc = .hold ∧ n = (s.procs p).lock
  lock : ((∀ n, s'.files (lockName n) = s.files (lockName n)) ∧ (Holds s' p → Holds s p)) ∨
    (s.files (lockName (s.procs p).lock) = false ∧ s'.files (lockName (s.procs p).lock) = true ∧
      ¬ Holds s p ∧ Holds s' p ∧
      ∀ n, n ≠ (s.procs p).lock → s'.files (lockName n) = s.files (lockName n)) ∨
    (Holds s p ∧ ¬ Holds s' p ∧ s'.files (lockName (s.procs p).unlock) = false ∧
      ∀ n, n ≠ (s.procs p).unlock → s'.files (lockName n) = s.files (lockName n))

theorem stepOf_pc (s s0 : Sys) (p : Nat) (c : Pc) (h1 : s0.procs = s.procs)
    (hf : ∀ n, s0.files (lockName n) = s.files (lockName n)) (hn : s0.names = s.names)
    (hc : c = .hold ∨ c = .unl1 ∨ c = .unl2 → Holds s p) : StepOf s (setPc s0 p c) p where
  others := fun q hq => by rw [setPc_other _ _ _ _ hq, h1]
  fixed := fun q => by rw [(setPc_lock s0 p q c).1, (setPc_lock s0 p q c).2, h1]; exact ⟨rfl, rfl⟩
  names := fun n h => absurd (by rw [setPc_names, hn]) h
  lock := .inl ⟨fun n => by rw [setPc_files]; exact hf n, fun h => by
    unfold Holds at h; rw [setPc_self] at h; exact hc h⟩

theorem stepOf_setup (s s0 : Sys) (p : Nat) (c : Pc) (t : Nat) (h1 : s0.procs = s.procs)
    (hf : ∀ n, s0.files (lockName n) = s.files (lockName n))
    (hn : ∀ n, s0.names n ≠ s.names n → (s.procs p).pc = .hold ∧ n = (s.procs p).lock)
    (hc : c = .hold ∨ c = .unl1 ∨ c = .unl2 → Holds s p) : StepOf s (setup s0 p c t) p where
  others := fun q hq => by rw [setup_other _ _ _ _ _ hq, h1]
  fixed := fun q => by rw [(setup_lock s0 p q c t).1, (setup_lock s0 p q c t).2, h1]; exact ⟨rfl, rfl⟩
  names := fun n h => hn n h
  lock := .inl ⟨fun n => by rw [setup_files]; exact hf n, fun h => by
    unfold Holds at h; rw [setup_self] at h; exact hc h⟩

theorem stepOf_idle (s : Sys) (p : Nat) : StepOf s s p where
  others := fun _ _ => rfl
  fixed := fun _ => ⟨rfl, rfl⟩
  names := fun n h => absurd rfl h
  lock := .inl ⟨fun _ => rfl, id⟩

theorem step_of (s : Sys) (p : Nat) (a : Act) : StepOf s (step s p a) p := by
  have nh : ∀ c : Pc, c ≠ .hold → c ≠ .unl1 → c ≠ .unl2 → (c = .hold ∨ c = .unl1 ∨ c = .unl2 → Holds s p) := by
    intro c h1 h2 h3 h
    rcases h with h | h | h
    · exact absurd h h1
    · exact absurd h h2
    · exact absurd h h3
  cases a with
  | kill => exact stepOf_pc s s p .dead rfl (fun _ => rfl) rfl (nh _ nofun nofun nofun)
  | giveUp t =>
    unfold step
    cases hp : (s.procs p).pc with
    | stat => exact stepOf_pc s s p .dead rfl (fun _ => rfl) rfl (nh _ nofun nofun nofun)
    | hold => exact stepOf_setup s s p .unl1 t rfl (fun _ => rfl) (fun n h => absurd rfl h) (fun _ => .inl hp)
    | _ => exact stepOf_idle s p
  | go t =>
    unfold step
    cases hp : (s.procs p).pc with
    | check =>
      show StepOf s (stepCheck s p t) p
      unfold stepCheck
      by_cases h : (s.procs p).kind = .mkfs ∧ (s.names (s.procs p).lock).isSome
      · rw [if_pos h]; exact stepOf_pc s s p .dead rfl (fun _ => rfl) rfl (nh _ nofun nofun nofun)
      · rw [if_neg h]
        exact stepOf_setup s s p .stat t rfl (fun _ => rfl) (fun n h => absurd rfl h) (nh _ nofun nofun nofun)
    | stat =>
      show StepOf s (stepStat s p) p
      unfold stepStat
      by_cases h : s.files (lockName (s.procs p).lock) = true
      · rw [if_pos h]; exact stepOf_idle s p
      · rw [if_neg h]; exact stepOf_pc s s p .temp rfl (fun _ => rfl) rfl (nh _ nofun nofun nofun)
    | temp => exact stepOf_pc s _ p .ren rfl (fun n => setFile_lock s _ n _ _) rfl (nh _ nofun nofun nofun)
    | ren =>
      show StepOf s (stepRen s p) p
      unfold stepRen
      by_cases h : (s.files (tempName (s.procs p).lock (s.procs p).now) && !s.files (lockName (s.procs p).lock)) = true
      · rw [if_pos h]
        rw [Bool.and_eq_true, Bool.not_eq_true'] at h
        refine ⟨fun q hq => ?_, fun q => ?_, fun n hn => absurd rfl hn, .inr (.inl ⟨h.2, ?_, ?_, ?_, ?_⟩)⟩
        · rw [setPc_other _ _ _ _ hq]; rfl
        · exact setPc_lock _ _ _ _
        · rw [setPc_files]; unfold setFile; exact if_pos rfl
        · unfold Holds; rw [hp]; rintro (h | h | h) <;> cases h
        · unfold Holds; rw [setPc_self]; exact .inl rfl
        · intro n hn
          rw [setPc_files]
          show (if lockName n = lockName (s.procs p).lock then _ else _) = _
          rw [if_neg (fun e => hn (lockName_inj _ _ e))]
          exact setFile_lock s _ n _ _
      · rw [if_neg h]; exact stepOf_pc s s p .fail rfl (fun _ => rfl) rfl (nh _ nofun nofun nofun)
    | fail => exact stepOf_pc s _ p .dead rfl (fun n => setFile_lock s _ n _ _) rfl (nh _ nofun nofun nofun)
    | hold =>
      show StepOf s (stepHold s p t) p
      have hn : ∀ v n, (setName s (s.procs p).lock v).names n ≠ s.names n →
          (s.procs p).pc = .hold ∧ n = (s.procs p).lock := by
        intro v n h
        refine ⟨hp, ?_⟩
        by_cases e : n = (s.procs p).lock
        · exact e
        · exact absurd (if_neg e) h
      unfold stepHold
      cases hk : (s.procs p).kind with
      | mkfs => exact stepOf_setup s _ p .unl1 t rfl (fun _ => rfl) (hn _) (fun _ => .inl hp)
      | rmfs => exact stepOf_setup s _ p .unl1 t rfl (fun _ => rfl) (hn _) (fun _ => .inl hp)
      | other => exact stepOf_setup s s p .unl1 t rfl (fun _ => rfl) (fun n h => absurd rfl h) (fun _ => .inl hp)
    | unl1 => exact stepOf_pc s _ p .unl2 rfl (fun n => setFile_lock s _ n _ _) rfl (fun _ => .inr (.inl hp))
    | unl2 =>
      show StepOf s (stepUnl2 s p) p
      unfold stepUnl2
      refine ⟨fun q hq => ?_, fun q => ?_, fun n hn => absurd rfl hn, .inr (.inr ⟨.inr (.inr hp), ?_, ?_, ?_⟩)⟩
      · rw [setPc_other _ _ _ _ hq]; rfl
      · exact setPc_lock _ _ _ _
      · unfold Holds; rw [setPc_self]; rintro (h | h | h) <;> cases h
      · rw [setPc_files]; unfold setFile; exact if_pos rfl
      · intro n hn
        rw [setPc_files]
        show (if lockName n = lockName (s.procs p).unlock then _ else _) = _
        rw [if_neg (fun e => hn (lockName_inj _ _ e))]
    | done => exact stepOf_idle s p
    | dead => exact stepOf_idle s p

/-! ### Mutual exclusion -/

/-- Start: no command has a lock yet; each unlocks the name it locks.  Files left over by killed
commands may be there. -/
structure Start (s : Sys) : Prop where
  fresh : ∀ p, (s.procs p).pc = .check
  same : ∀ p, (s.procs p).unlock = (s.procs p).lock

structure Inv (s : Sys) : Prop where
  same : ∀ p, (s.procs p).unlock = (s.procs p).lock
  held : ∀ p, Holds s p → s.files (lockName (s.procs p).lock) = true
  one : ∀ p q, Holds s p → Holds s q → (s.procs p).lock = (s.procs q).lock → p = q

theorem inv_step (s : Sys) (h : Inv s) (p : Nat) (a : Act) : Inv (step s p a) := by
  have S := step_of s p a
  have hold_other : ∀ q, q ≠ p → (Holds (step s p a) q ↔ Holds s q) := by
    intro q hq; unfold Holds; rw [S.others q hq]
  refine ⟨fun q => by rw [(S.fixed q).1, (S.fixed q).2]; exact h.same q, ?_, ?_⟩
  · intro q hq
    rw [(S.fixed q).1]
    rcases S.lock with ⟨hf, hp⟩ | ⟨h1, h2, h3, h4, h5⟩ | ⟨h1, h2, h3, h4⟩
    · rw [hf]
      by_cases e : q = p
      · subst e; exact h.held q (hp hq)
      · exact h.held q ((hold_other q e).mp hq)
    · by_cases e : (s.procs q).lock = (s.procs p).lock
      · rw [e]; exact h2
      · rw [h5 _ e]
        have e' : q ≠ p := fun e' => e (by rw [e'])
        exact h.held q ((hold_other q e').mp hq)
    · by_cases e : q = p
      · subst e; exact absurd hq h2
      · have hq' := (hold_other q e).mp hq
        by_cases e2 : (s.procs q).lock = (s.procs p).unlock
        · rw [h.same] at e2
          exact absurd (h.one q p hq' h1 e2) e
        · rw [h4 _ e2]; exact h.held q hq'
  · intro q r hq hr heq
    rw [(S.fixed q).1, (S.fixed r).1] at heq
    rcases S.lock with ⟨hf, hp⟩ | ⟨h1, h2, h3, h4, h5⟩ | ⟨h1, h2, h3, h4⟩
    · have hq' : Holds s q := by
        by_cases e : q = p
        · subst e; exact hp hq
        · exact (hold_other q e).mp hq
      have hr' : Holds s r := by
        by_cases e : r = p
        · subst e; exact hp hr
        · exact (hold_other r e).mp hr
      exact h.one q r hq' hr' heq
    · by_cases e : q = p
      · by_cases e2 : r = p
        · rw [e, e2]
        · have hr' := h.held r ((hold_other r e2).mp hr)
          rw [← heq, e, h1] at hr'
          exact absurd hr' (by decide)
      · have hq' := (hold_other q e).mp hq
        by_cases e2 : r = p
        · have := h.held q hq'
          rw [heq, e2, h1] at this
          exact absurd this (by decide)
        · exact h.one q r hq' ((hold_other r e2).mp hr) heq
    · have hq' : q ≠ p := fun e => h2 (e ▸ hq)
      have hr' : r ≠ p := fun e => h2 (e ▸ hr)
      exact h.one q r ((hold_other q hq').mp hq) ((hold_other r hr').mp hr) heq

theorem inv_start (s : Sys) (h : Start s) : Inv s where
  same := h.same
  held := fun p hp => by unfold Holds at hp; rw [h.fresh p] at hp; rcases hp with e | e | e <;> cases e
  one := fun p q hp _ _ => by unfold Holds at hp; rw [h.fresh p] at hp; rcases hp with e | e | e <;> cases e

theorem inv_run (s : Sys) (h : Inv s) (tr : List (Nat × Act)) : Inv (run s tr) := by
  induction tr generalizing s with
  | nil => exact h
  | cons e tr ih => exact ih (step s e.1 e.2) (inv_step s h e.1 e.2)

/-- **C50 (one at a time)**: with any number of commands, in any interleaving of their system calls,
killed or failing anywhere, with any files left over and any clock: at most one command at a time
works under the lock of a name, its lock-file exists, and as long as it works no
other command changes what that name leads to nor removes the lock. -/
theorem C50_mutex (s0 : Sys) (h : Start s0) (tr : List (Nat × Act)) (p : Nat) (hp : Holds (run s0 tr) p) :
    (∀ q, Holds (run s0 tr) q → ((run s0 tr).procs q).lock = ((run s0 tr).procs p).lock → q = p) ∧
    (run s0 tr).files (lockName ((run s0 tr).procs p).lock) = true ∧
    ∀ q a, q ≠ p →
      (step (run s0 tr) q a).names ((run s0 tr).procs p).lock = (run s0 tr).names ((run s0 tr).procs p).lock ∧
      (step (run s0 tr) q a).files (lockName ((run s0 tr).procs p).lock) = true := by
  have I := inv_run s0 (inv_start s0 h) tr
  refine ⟨fun q hq e => I.one q p hq hp e, I.held p hp, fun q a hqp => ?_⟩
  have S := step_of (run s0 tr) q a
  constructor
  · apply Classical.byContradiction
    intro hne
    obtain ⟨h1, h2⟩ := S.names _ hne
    exact hqp (I.one q p (.inl h1) hp h2.symm)
  · have I2 := inv_step (run s0 tr) I q a
    have := I2.held p (by unfold Holds; rw [S.others p (fun e => hqp e.symm)]; exact hp)
    rw [(S.fixed p).1] at this
    exact this

/-- **C50 (names change only under the lock)**, for any commands whatever. -/
theorem C50_names_only_held (s : Sys) (p : Nat) (a : Act) (n : Name) (h : (step s p a).names n ≠ s.names n) :
    (s.procs p).pc = .hold ∧ n = (s.procs p).lock := (step_of s p a).names n h

theorem hold_end (s : Sys) (p : Nat) (c : Pc) (t : Nat) : ((setup s p c t).procs p).unlock = (s.procs p).unlock :=
  (setup_lock s p p c t).2

/-- **C50 (given back)**: a command that works to its end, or dies by itself, removes its lock. -/
theorem C50_released (s : Sys) (p t t1 t2 : Nat) (hp : (s.procs p).pc = .hold) (a : Act)
    (ha : a = .go t ∨ a = .giveUp t) (hs : (s.procs p).unlock = (s.procs p).lock) :
    ((run s [(p, a), (p, .go t1), (p, .go t2)]).procs p).pc = .done ∧
    (run s [(p, a), (p, .go t1), (p, .go t2)]).files (lockName (s.procs p).lock) = false := by
  obtain ⟨s1, e1, h1⟩ : ∃ s1, step s p a = s1 ∧ ((s1.procs p).pc = .unl1 ∧ (s1.procs p).unlock = (s.procs p).lock) := by
    refine ⟨_, rfl, ?_⟩
    have hf := (step_of s p a).fixed p
    refine ⟨?_, by rw [hf.2]; exact hs⟩
    rcases ha with e | e
    · subst e
      unfold step; rw [hp]
      show ((stepHold s p t).procs p).pc = _
      unfold stepHold
      cases (s.procs p).kind <;> exact setup_self _ _ _ _
    · subst e
      unfold step; rw [hp]
      exact setup_self _ _ _ _
  obtain ⟨h1, h2⟩ := h1
  have e2 : step s1 p (.go t1) = stepUnl1 s1 p := by unfold step; rw [h1]
  have h3 : ((stepUnl1 s1 p).procs p).pc = .unl2 := setPc_self _ _ _
  have h4 : ((stepUnl1 s1 p).procs p).unlock = (s.procs p).lock := by
    unfold stepUnl1; rw [(setPc_lock _ p p _).2]; exact h2
  have e3 : step (stepUnl1 s1 p) p (.go t2) = stepUnl2 (stepUnl1 s1 p) p := by
    generalize hx : stepUnl1 s1 p = x at h3
    unfold step; rw [h3]
  have e : run s [(p, a), (p, .go t1), (p, .go t2)] = stepUnl2 (stepUnl1 s1 p) p := by
    show step (step (step s p a) p (.go t1)) p (.go t2) = _
    rw [e1, e2, e3]
  rw [e]
  refine ⟨setPc_self _ _ _, ?_⟩
  show (if lockName (s.procs p).lock = lockName ((stepUnl1 s1 p).procs p).unlock then false else _) = _
  rw [h4, if_pos rfl]

/-- **C50 (granted)**: when the lock-file is not there, a command that is not disturbed gets the lock,
whatever other files there are. -/
theorem C50_granted (s : Sys) (p t0 t1 t2 t3 : Nat) (hp : (s.procs p).pc = .check)
    (hf : s.files (lockName (s.procs p).lock) = false)
    (hn : (s.procs p).kind = .mkfs → s.names (s.procs p).lock = none) :
    Holds (run s [(p, .go t0), (p, .go t1), (p, .go t2), (p, .go t3)]) p := by
  have e0 : step s p (.go t0) = setup s p .stat t0 := by
    unfold step; rw [hp]
    show stepCheck s p t0 = _
    unfold stepCheck
    rw [if_neg]
    rintro ⟨h1, h2⟩
    rw [hn h1] at h2; cases h2
  obtain ⟨s1, e1⟩ : ∃ s1, setup s p .stat t0 = s1 := ⟨_, rfl⟩
  have p1 : (s1.procs p).pc = .stat := by rw [← e1]; exact setup_self _ _ _ _
  have l1 : (s1.procs p).lock = (s.procs p).lock := by rw [← e1]; exact (setup_lock _ _ _ _ _).1
  have f1 : s1.files (lockName (s1.procs p).lock) = false := by rw [l1, ← e1]; exact hf
  have e2 : step s1 p (.go t1) = setPc s1 p .temp := by
    unfold step; rw [p1]
    show stepStat s1 p = _
    unfold stepStat; rw [f1]; rfl
  obtain ⟨s2, e2'⟩ : ∃ s2, setPc s1 p .temp = s2 := ⟨_, rfl⟩
  have p2 : (s2.procs p).pc = .temp := by rw [← e2']; exact setPc_self _ _ _
  have l2 : (s2.procs p).lock = (s1.procs p).lock := by rw [← e2']; exact (setPc_lock _ _ _ _).1
  have f2 : s2.files (lockName (s2.procs p).lock) = false := by rw [l2, ← e2']; exact f1
  have e3 : step s2 p (.go t2) = stepTemp s2 p := by unfold step; rw [p2]
  obtain ⟨s3, e3'⟩ : ∃ s3, stepTemp s2 p = s3 := ⟨_, rfl⟩
  have p3 : (s3.procs p).pc = .ren := by rw [← e3']; exact setPc_self _ _ _
  have l3 : (s3.procs p).lock = (s2.procs p).lock := by rw [← e3']; exact (setPc_lock _ _ _ _).1
  have n3 : (s3.procs p).now = (s2.procs p).now := by
    rw [← e3']; unfold stepTemp setPc; simp
  have f3 : s3.files (lockName (s3.procs p).lock) = false := by
    rw [l3, ← e3']; unfold stepTemp; rw [setPc_files, setFile_lock]; exact f2
  have g3 : s3.files (tempName (s3.procs p).lock (s3.procs p).now) = true := by
    rw [l3, n3, ← e3']; unfold stepTemp; rw [setPc_files]; unfold setFile; exact if_pos rfl
  have e4 : step s3 p (.go t3) = stepRen s3 p := by unfold step; rw [p3]
  have e : run s [(p, .go t0), (p, .go t1), (p, .go t2), (p, .go t3)] = stepRen s3 p := by
    show step (step (step (step s p (.go t0)) p (.go t1)) p (.go t2)) p (.go t3) = _
    rw [e0, e1, e2, e2', e3, e3', e4]
  rw [e]
  unfold stepRen
  rw [f3, g3]
  exact .inl (setPc_self _ _ _)

/-- **C50 (names of files)**: lock-files of different file-systems are different files; no temporary file is
a lock-file; temporary files of different file-systems differ at all times; neither is the
name of a file-system, for those do not begin with a dot. -/
theorem C50_file_names (a b : Name) (t u : Nat) :
    (lockName a = lockName b → a = b) ∧ tempName a t ≠ lockName b ∧ (tempName a t = tempName b u → a = b) ∧
    (lockName a).head? = some 46 ∧ (tempName a t).head? = some 46 :=
  ⟨lockName_inj a b, temp_ne_lock a b t, tempName_inj a b t u, rfl, rfl⟩

/-! ### Where the claim fails -/

/-- A lock-file that nobody holds stays, and nobody ever gets the lock. -/
structure Stale (n : Name) (s : Sys) : Prop where
  same : ∀ p, (s.procs p).lock ≠ n → (s.procs p).unlock ≠ n
  file : s.files (lockName n) = true
  free : ∀ p, Holds s p → (s.procs p).lock ≠ n

theorem stale_step (n : Name) (s : Sys) (h : Stale n s) (p : Nat) (a : Act) : Stale n (step s p a) := by
  have S := step_of s p a
  refine ⟨fun q hq => ?_, ?_, fun q hq => ?_⟩
  · rw [(S.fixed q).1] at hq; rw [(S.fixed q).2]; exact h.same q hq
  · rcases S.lock with ⟨hf, hp⟩ | ⟨h1, h2, h3, h4, h5⟩ | ⟨h1, h2, h3, h4⟩
    · rw [hf]; exact h.file
    · by_cases e : n = (s.procs p).lock
      · rw [e]; exact h2
      · rw [h5 _ e]; exact h.file
    · rw [h4 n (fun e => h.same p (h.free p h1) e.symm)]; exact h.file
  · rw [(S.fixed q).1]
    by_cases e : q = p
    · subst e
      rcases S.lock with ⟨hf, hp⟩ | ⟨h1, h2, h3, h4, h5⟩ | ⟨h1, h2, h3, h4⟩
      · exact h.free q (hp hq)
      · intro e; rw [e, h.file] at h1; cases h1
      · exact absurd hq h2
    · have : Holds s q := by unfold Holds at hq ⊢; rw [← S.others q e]; exact hq
      exact h.free q this

/-- **C50 is not met (killed command)**: after a command was killed while it held the lock of a name,
no command ever gets that lock again, whatever else happens: the file-system can no longer be
mounted, checked or removed until somebody removes the file by hand. -/
theorem C50_killed_violated (s0 : Sys) (h : Start s0) (tr : List (Nat × Act)) (p : Nat)
    (hp : Holds (run s0 tr) p) (tr' : List (Nat × Act)) (q : Nat)
    (hq : ((run s0 tr).procs q).lock = ((run s0 tr).procs p).lock) :
    let s' := run (step (run s0 tr) p .kill) tr'
    ¬ Holds s' q ∧ s'.files (lockName ((run s0 tr).procs p).lock) = true := by
  have I := inv_run s0 (inv_start s0 h) tr
  generalize hs : run s0 tr = s at I hp hq
  have st : Stale (s.procs p).lock (step s p .kill) := by
    refine ⟨fun r hr => ?_, ?_, fun r hr => ?_⟩
    · have S := step_of s p .kill
      rw [(S.fixed r).2, I.same]; rw [(S.fixed r).1] at hr; exact hr
    · exact I.held p hp
    · by_cases e : r = p
      · subst e
        unfold Holds at hr
        rw [show (step s r .kill).procs r = (setPc s r .dead).procs r from rfl, setPc_self] at hr
        rcases hr with e | e | e <;> cases e
      · intro e2
        have S := step_of s p .kill
        have hr' : Holds s r := by unfold Holds at hr ⊢; rw [← S.others r e]; exact hr
        rw [(S.fixed r).1] at e2
        exact e (I.one r p hr' hp e2)
  have go : ∀ tr' (x : Sys), Stale (s.procs p).lock x → (x.procs q).lock = (s.procs p).lock →
      Stale (s.procs p).lock (run x tr') ∧ ((run x tr').procs q).lock = (s.procs p).lock := by
    intro tr'
    induction tr' with
    | nil => intro x hx hl; exact ⟨hx, hl⟩
    | cons e tr' ih =>
      intro x hx hl
      exact ih (step x e.1 e.2) (stale_step _ x hx e.1 e.2) (by rw [((step_of x e.1 e.2).fixed q).1]; exact hl)
  obtain ⟨g1, g2⟩ := go tr' (step s p .kill) st (by rw [((step_of s p .kill).fixed q).1]; exact hq)
  exact ⟨fun hh => g1.free q hh g2, g1.file⟩

namespace Case

/-- Three commands: a restore of archive `a` as `f`, two mounts of `f`. -/
def s0 : Sys where
  files := fun _ => false
  names := fun n => if n = [102] then some 7 else none
  procs := fun p => if p = 0 then cmdRestore [97] [102] else cmd .other [102]

def gos (p k : Nat) : List (Nat × Act) := List.replicate k (p, .go 5)

/-- **C50 is not met (restore)**: a restore takes the lock of the archive's name and gives back that of
the file-system's name: two mounts then work under the lock of one name at the same
time. -/
theorem C50_restore_violated :
    let s := run s0 (gos 1 4 ++ gos 0 7 ++ gos 2 4)
    Holds s 1 ∧ Holds s 2 ∧ (s.procs 1).lock = (s.procs 2).lock := by
  refine ⟨.inl ?_, .inl ?_, ?_⟩ <;> decide +kernel

/-- **C50 is not met (restore)**: after a restore that went well, the lock of the archive's name stays; no
command ever gets it again. -/
theorem C50_restore_stuck_violated :
    let s := run s0 (gos 0 7)
    (s.procs 0).pc = .done ∧ s.files (lockName [97]) = true := by
  constructor <;> decide +kernel

/-- Two mkfs of one name. -/
def s1 : Sys where
  files := fun _ => false
  names := fun _ => none
  procs := fun _ => cmd .mkfs [102]

theorem start : Start s1 := ⟨fun _ => rfl, fun _ => rfl⟩

/-- **C50 is not met (mkfs)**: that the name is free is looked at before the lock is taken.  Two mkfs of
one name may both report success; the second takes the name from the first. -/
theorem C50_mkfs_violated :
    let s := run s1 (gos 0 1 ++ gos 1 1 ++ gos 0 6)
    let s' := run s (gos 1 6)
    (s.procs 0).pc = .done ∧ s.names [102] = some 0 ∧ (s'.procs 1).pc = .done ∧ s'.names [102] = some 1 := by
  refine ⟨?_, ?_, ?_, ?_⟩ <;> decide +kernel

/-- A state in which a command holds the lock. -/
example : Holds (run s1 (gos 0 4)) 0 := C50_granted s1 0 5 5 5 5 rfl rfl (fun _ => rfl)

end Case
end Silofs.Locks
