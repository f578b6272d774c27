import Verif.Model.Submitq
import Verif.Props.FlushBase
set_option linter.unusedSimpArgs false
set_option linter.unusedVariables false
/-
C68, basis: what always holds while several threads write back.
-/
namespace Silofs.Smq
open Silofs.Flush

/-- The steps of `step`, one by one. -/
inductive Step (s : State) : State → Prop
  | begin (t : Nat) (h : (s.thr t).pc = .idle) : Step s (setThr s t ⟨.run, [], 0, false, []⟩)
  | lockFs (t : Nat) (h : (s.thr t).pc = .run) (h1 : s.fsl = none) : Step s { s with fsl := some t }
  | unlockFs (t : Nat) (h : (s.thr t).pc = .run) (h1 : s.fsl = some t) (h2 : (s.thr t).tx = []) :
      Step s { s with fsl := none }
  | ref (t : Nat) (n : Id) : Step s { s with
               refs := fun m => if m = n then s.refs m + 1 else s.refs m
               held := fun m => if m = n then s.held m + 1 else s.held m }
  | unref (t : Nat) (n : Id) (h : 0 < s.held n) : Step s { s with
               refs := fun m => if m = n then s.refs m - 1 else s.refs m
               held := fun m => if m = n then s.held m - 1 else s.held m }
  | make (t : Nat) (q : Sqe) (h : (s.thr t).pc = .run) (h1 : s.fsl = some t) (hq : q.id = s.next) :
      Step s { setThr s t { s.thr t with tx := (s.thr t).tx ++ [q] } with
               next := s.next + 1
               refs := addRefs s.refs q 1 }
  | discard (t : Nat) (q : Sqe) (r : List Sqe) (h : (s.thr t).pc = .run) (h1 : s.fsl = some t)
      (h2 : (s.thr t).tx = q :: r) :
      Step s { setThr s t { s.thr t with tx := r } with refs := addRefs s.refs q (-1) }
  | submitTx (t : Nat) (q : Sqe) (r : List Sqe) (h : (s.thr t).pc = .run) (h1 : s.fsl = some t)
      (h2 : (s.thr t).tx = q :: r) :
      Step s { setThr s t { s.thr t with tx := r, pc := .enq q, mine := (s.thr t).mine ++ [q] } with
                 sent := s.sent ++ [q] }
  | now (t : Nat) (h : (s.thr t).pc = .run) (h1 : s.fsl = some t) (h2 : (s.thr t).tx = []) :
      Step s (setThr s t { s.thr t with pc := .sub none true .want })
  | finAll (t : Nat) (h : (s.thr t).pc = .run) (h1 : s.fsl ≠ some t) :
      Step s (setThr s t { s.thr t with pc := .sub none false .want })
  | finNone (t : Nat) (h : (s.thr t).pc = .run) (h1 : s.fsl ≠ some t) (h2 : (s.thr t).apex = 0) :
      Step s (setThr s t { s.thr t with pc := .idle, bad := false })
  | finSome (t : Nat) (h : (s.thr t).pc = .run) (h1 : s.fsl ≠ some t) :
      Step s (setThr s t { s.thr t with pc := .sub (some (s.thr t).apex) false .want })
  | enq (t : Nat) (q : Sqe) (h : (s.thr t).pc = .enq q) (h1 : s.mutex = none) :
      Step s { setThr s t { s.thr t with pc := .enqLocked q } with mutex := some t }
  | push (t : Nat) (q : Sqe) (h : (s.thr t).pc = .enqLocked q) :
      Step s { setThr s t { s.thr t with pc := .enqDone q } with queue := s.queue ++ [q] }
  | enqEnd (t : Nat) (q : Sqe) (h : (s.thr t).pc = .enqDone q) :
      Step s { setThr s t { s.thr t with pc := .run, apex := if q.id > (s.thr t).apex then q.id else (s.thr t).apex } with
             mutex := none }
  | lock (t : Nat) (l : Option Nat) (i : Bool) (h : (s.thr t).pc = .sub l i .want) (h1 : s.mutex = none) :
      Step s { setThr s t { s.thr t with pc := .sub l i .locked } with mutex := some t }
  | none (t : Nat) (l : Option Nat) (i : Bool) (h : (s.thr t).pc = .sub l i .locked) (h1 : getSqe s.queue l = none) :
      Step s (setThr s t { s.thr t with pc := .sub l i .empty })
  | take (t : Nat) (l : Option Nat) (i : Bool) (q : Sqe) (r : List Sqe) (h : (s.thr t).pc = .sub l i .locked)
      (h1 : s.queue = q :: r) (h2 : ∀ k, l = some k → q.id ≤ k) :
      Step s { setThr s t { s.thr t with pc := .sub l i (.took q) } with queue := r }
  | write (t : Nat) (l : Option Nat) (i : Bool) (q : Sqe) (b : Bool) (h : (s.thr t).pc = .sub l i (.took q)) :
      Step s { setThr s t { s.thr t with pc := .sub l i (.wrote q b) } with
             disk := if b then s.disk else writev s.disk q.laddr.lsid q.laddr.pos q.iov
             log := s.log ++ [(q, b)] }
  | unlock (t : Nat) (l : Option Nat) (i : Bool) (q : Sqe) (b : Bool) (h : (s.thr t).pc = .sub l i (.wrote q b)) :
      Step s { setThr s t { s.thr t with pc := .sub l i (.left q b) } with mutex := none }
  | failed (t : Nat) (l : Option Nat) (i : Bool) (q : Sqe) (h : (s.thr t).pc = .sub l i (.left q true)) :
      Step s { setThr s t { s.thr t with pc := if i then .run else .idle, bad := true } with
             refs := addRefs s.refs q (-1) }
  | again (t : Nat) (l : Option Nat) (i : Bool) (q : Sqe) (h : (s.thr t).pc = .sub l i (.left q false)) :
      Step s { setThr s t { s.thr t with pc := .sub l i .want, bad := false } with
             refs := addRefs s.refs q (-1) }
  | stop (t : Nat) (l : Option Nat) (i : Bool) (h : (s.thr t).pc = .sub l i .empty) :
      Step s { setThr s t { s.thr t with pc := if i then .run else .idle, bad := false } with mutex := none }

theorem getSqe_some {queue : List Sqe} {l : Option Nat} {q : Sqe} (h : getSqe queue l = some q) :
    queue = q :: queue.drop 1 ∧ ∀ k, l = some k → q.id ≤ k := by
  cases queue with
  | nil => cases h
  | cons a r =>
    cases l with
    | none => cases h; exact ⟨rfl, fun k e => by cases e⟩
    | some j =>
      unfold getSqe at h
      simp only at h
      by_cases hk : a.id > j
      · rw [if_pos hk] at h; cases h
      · rw [if_neg hk] at h
        cases h
        refine ⟨rfl, fun k e => ?_⟩
        cases e
        omega

theorem step_of {s s' : State} {ev : Ev} (h : step s ev = some s') : Step s s' := by
  cases ev with
  | begin t =>
    unfold step at h; simp only at h
    split at h
    · rename_i h1; cases h; exact .begin t h1
    · cases h
  | lockFs t =>
    unfold step at h; simp only at h
    split at h
    · rename_i h1; cases h; exact .lockFs t h1.1 h1.2
    · cases h
  | unlockFs t =>
    unfold step at h; simp only at h
    split at h
    · rename_i h1; cases h; exact .unlockFs t h1.1 h1.2.1 h1.2.2
    · cases h
  | ref t n =>
    unfold step at h; simp only at h
    split at h
    · cases h; exact .ref t n
    · cases h
  | unref t n =>
    unfold step at h; simp only at h
    split at h
    · rename_i h1; cases h; exact .unref t n h1.2
    · cases h
  | make t a c r v =>
    unfold step at h; simp only at h
    split at h
    · rename_i h1; cases h; exact .make t _ h1.1 h1.2 rfl
    · cases h
  | discard t =>
    unfold step at h; simp only at h
    split at h
    · cases h
    · rename_i q r h2
      split at h
      · rename_i h1; cases h; exact .discard t q r h1.1 h1.2 h2
      · cases h
  | submitTx t =>
    unfold step at h; simp only at h
    split at h
    · cases h
    · rename_i q r h2
      split at h
      · rename_i h1; cases h; exact .submitTx t q r h1.1 h1.2 h2
      · cases h
  | now t =>
    unfold step at h; simp only at h
    split at h
    · rename_i h1; cases h; exact .now t h1.1 h1.2.1 h1.2.2
    · cases h
  | finish t all =>
    unfold step at h; simp only at h
    split at h
    · rename_i h1
      split at h
      · cases h; exact .finAll t h1.1 h1.2
      · split at h
        · rename_i h2; cases h; exact .finNone t h1.1 h1.2 h2
        · cases h; exact .finSome t h1.1 h1.2
    · cases h
  | go t bad =>
    have h : goStep s t bad = some s' := h
    unfold goStep at h
    split at h
    · cases h
    · cases h
    · rename_i q hq
      split at h
      · rename_i h1; cases h; exact .enq t q hq h1
      · cases h
    · rename_i q hq; cases h; exact .push t q hq
    · rename_i q hq; cases h; exact .enqEnd t q hq
    · rename_i l i hq
      split at h
      · rename_i h1; cases h; exact .lock t l i hq h1
      · cases h
    · rename_i l i hq
      split at h
      · rename_i h1; cases h; exact .none t l i hq h1
      · rename_i q h1
        cases h
        obtain ⟨e1, e2⟩ := getSqe_some h1
        exact .take t l i q _ hq e1 e2
    · rename_i l i q hq; cases h; exact .write t l i q bad hq
    · rename_i l i q b hq; cases h; exact .unlock t l i q b hq
    · rename_i l i q b hq
      cases b with
      | true => cases h; exact .failed t l i q hq
      | false => cases h; exact .again t l i q hq
    · rename_i l i hq; cases h; exact .stop t l i hq

/-- Holds at every state of every run. -/
theorem run_inv {P : State → Prop} (hs : ∀ s s', P s → Step s s' → P s') :
    ∀ (evs : List Ev) (s s' : State), P s → run s evs = some s' → P s' := by
  intro evs
  induction evs with
  | nil => intro s s' hp h; cases h; exact hp
  | cons e evs ih =>
    intro s s' hp h
    unfold run at h
    split at h
    · cases h
    · rename_i m hm
      exact ih m s' (hs s m hp (step_of hm)) h

/-! ### Who holds what -/

def hasMx : Pc → Bool
  | .enqLocked _ | .enqDone _ => true
  | .sub _ _ .locked | .sub _ _ (.took _) | .sub _ _ (.wrote _ _) | .sub _ _ .empty => true
  | _ => false

/-- Calls made under the lock of the file-system. -/
def inFs : Pc → Bool
  | .enq _ | .enqLocked _ | .enqDone _ => true
  | .sub _ true _ => true
  | _ => false

/-- Calls made without it. -/
def outFs : Pc → Bool
  | .idle => true
  | .sub _ false _ => true
  | _ => false

structure Locks (s : State) : Prop where
  mx : ∀ t, s.mutex = some t ↔ hasMx (s.thr t).pc = true
  tx : ∀ t, (s.thr t).tx ≠ [] → s.fsl = some t
  ins : ∀ t, inFs (s.thr t).pc = true → s.fsl = some t
  out : ∀ t, outFs (s.thr t).pc = true → s.fsl ≠ some t
  sub : ∀ t l i p, (s.thr t).pc = .sub l i p → (s.thr t).tx = []
  lim : ∀ t l i p, (s.thr t).pc = .sub (some l) i p → l = (s.thr t).apex ∧ i = false
  emp : ∀ t l i, (s.thr t).pc = .sub l i .empty → getSqe s.queue l = none

theorem locks_init (d : Disk) : Locks (init d) := by
  refine ⟨?_, ?_, ?_, ?_, ?_, ?_, ?_⟩
  · intro t; simp [init, hasMx]
  · intro t h; exact absurd rfl h
  · intro t h; cases h
  · intro t h e; cases e
  · intro t l i p h; cases h
  · intro t l i p h; cases h
  · intro t l i h; cases h

theorem setThr_eq (s : State) (t : Nat) (x : Thr) : (setThr s t x).thr t = x := by simp [setThr]
theorem setThr_ne (s : State) (t u : Nat) (x : Thr) (h : u ≠ t) : (setThr s t x).thr u = s.thr u := by simp [setThr, h]

/-- A step of thread `t` that changes its own record, the mutex as its place says, and not the lock of the file-system. -/
theorem locks_upd {s s' : State} (hL : Locks s) (t : Nat) (x : Thr)
    (e1 : s'.thr = (setThr s t x).thr) (e2 : s'.fsl = s.fsl)
    (hm : s'.mutex = if hasMx x.pc then some t else if hasMx (s.thr t).pc then none else s.mutex)
    (hw : hasMx x.pc = true → hasMx (s.thr t).pc = true ∨ s.mutex = none)
    (hq : ∀ u l i, u ≠ t → (s.thr u).pc = .sub l i .empty → getSqe s'.queue l = none)
    (htx : x.tx ≠ [] → s.fsl = some t) (hins : inFs x.pc = true → s.fsl = some t)
    (hout : outFs x.pc = true → s.fsl ≠ some t)
    (hsub : ∀ l i p, x.pc = .sub l i p → x.tx = [])
    (hlim : ∀ l i p, x.pc = .sub (some l) i p → l = x.apex ∧ i = false)
    (hemp : ∀ l i, x.pc = .sub l i .empty → getSqe s'.queue l = none) : Locks s' := by
  have ht : s'.thr t = x := by rw [e1, setThr_eq]
  have hu : ∀ u, u ≠ t → s'.thr u = s.thr u := fun u h => by rw [e1, setThr_ne _ _ _ _ h]
  refine ⟨?_, ?_, ?_, ?_, ?_, ?_, ?_⟩
  · intro u
    by_cases h : u = t
    · subst h
      rw [ht, hm]
      by_cases h1 : hasMx x.pc = true
      · simp [h1]
      · rw [if_neg h1]
        constructor
        · intro e
          split at e
          · cases e
          · rename_i h2
            exact absurd ((hL.mx u).mp e) h2
        · intro e; exact absurd e h1
    · rw [hu u h, hm]
      by_cases h1 : hasMx x.pc = true
      · rw [if_pos h1]
        constructor
        · intro e; cases e; exact absurd rfl h
        · intro e
          have := (hL.mx u).mpr e
          rcases hw h1 with h2 | h2
          · have h3 := (hL.mx t).mpr h2
            rw [h3] at this; exact this
          · rw [h2] at this; cases this
      · rw [if_neg h1]
        split
        · rename_i h2
          have h3 := (hL.mx t).mpr h2
          constructor
          · intro e; cases e
          · intro e
            have := (hL.mx u).mpr e
            rw [h3] at this
            cases this
            exact absurd rfl h
        · exact hL.mx u
  · intro u h
    rw [e2]
    by_cases h1 : u = t
    · subst h1; rw [ht] at h; exact htx h
    · rw [hu u h1] at h; exact hL.tx u h
  · intro u h
    rw [e2]
    by_cases h1 : u = t
    · subst h1; rw [ht] at h; exact hins h
    · rw [hu u h1] at h; exact hL.ins u h
  · intro u h
    rw [e2]
    by_cases h1 : u = t
    · subst h1; rw [ht] at h; exact hout h
    · rw [hu u h1] at h; exact hL.out u h
  · intro u l i p h
    by_cases h1 : u = t
    · subst h1; rw [ht] at h ⊢; exact hsub l i p h
    · rw [hu u h1] at h ⊢; exact hL.sub u l i p h
  · intro u l i p h
    by_cases h1 : u = t
    · subst h1; rw [ht] at h ⊢; exact hlim l i p h
    · rw [hu u h1] at h ⊢; exact hL.lim u l i p h
  · intro u l i h
    by_cases h1 : u = t
    · subst h1; rw [ht] at h; exact hemp l i h
    · rw [hu u h1] at h; exact hq u l i h1 h

theorem locks_other {s s' : State} (hL : Locks s) (e1 : s'.thr = s.thr) (e2 : s'.fsl = s.fsl) (e3 : s'.mutex = s.mutex)
    (e4 : s'.queue = s.queue) : Locks s' := by
  refine ⟨?_, ?_, ?_, ?_, ?_, ?_, ?_⟩
  · rw [e1, e3]; exact hL.mx
  · rw [e1, e2]; exact hL.tx
  · rw [e1, e2]; exact hL.ins
  · rw [e1, e2]; exact hL.out
  · rw [e1]; exact hL.sub
  · rw [e1]; exact hL.lim
  · rw [e1, e4]; exact hL.emp

/-- The mutex is another's: nobody else is at the end of its loop. -/
theorem not_emp {s : State} (hL : Locks s) {t : Nat} (h : hasMx (s.thr t).pc = true) {u : Nat} (hu : u ≠ t) (l : Option Nat)
    (i : Bool) : (s.thr u).pc ≠ .sub l i .empty := by
  intro e
  have h1 := (hL.mx t).mpr h
  have h2 := (hL.mx u).mpr (by rw [e]; rfl)
  rw [h1] at h2
  cases h2
  exact hu rfl

theorem locks_step {s s' : State} (hL : Locks s) (h : Step s s') : Locks s' := by
  cases h with
  | ref t n => exact locks_other hL rfl rfl rfl rfl
  | unref t n h => exact locks_other hL rfl rfl rfl rfl
  | lockFs t h h1 =>
    refine ⟨hL.mx, ?_, ?_, ?_, hL.sub, hL.lim, hL.emp⟩
    · intro u hu; have := hL.tx u hu; rw [h1] at this; cases this
    · intro u hu; have := hL.ins u hu; rw [h1] at this; cases this
    · intro u hu e
      have e : some t = some u := e
      cases e
      have hu : outFs (s.thr t).pc = true := hu
      rw [h] at hu; cases hu
  | unlockFs t h h1 h2 =>
    refine ⟨hL.mx, ?_, ?_, ?_, hL.sub, hL.lim, hL.emp⟩
    · intro u hu
      have := hL.tx u hu; rw [h1] at this; cases this
      exact absurd h2 hu
    · intro u hu
      have := hL.ins u hu; rw [h1] at this; cases this
      have hu : inFs (s.thr t).pc = true := hu
      rw [h] at hu; cases hu
    · intro u hu e; cases e
  | begin t h =>
    exact locks_upd hL t _ rfl rfl (by simp [hasMx, h, setThr]) (by simp [hasMx]) (fun u l i _ e => hL.emp u l i e)
      (by simp) (by simp [inFs]) (by simp [outFs]) (by simp) (by simp) (by simp)
  | make t q h h1 hq =>
    exact locks_upd hL t _ rfl rfl (by simp [hasMx, h, setThr]) (by simp [hasMx, h]) (fun u l i _ e => hL.emp u l i e)
      (fun _ => h1) (by simp [inFs, h]) (by simp [outFs, h]) (by simp [h]) (by simp [h]) (by simp [h])
  | discard t q r h h1 h2 =>
    exact locks_upd hL t _ rfl rfl (by simp [hasMx, h, setThr]) (by simp [hasMx, h]) (fun u l i _ e => hL.emp u l i e)
      (fun _ => h1) (by simp [inFs, h]) (by simp [outFs, h]) (by simp [h]) (by simp [h]) (by simp [h])
  | submitTx t q r h h1 h2 =>
    exact locks_upd hL t _ rfl rfl (by simp [hasMx, h, setThr]) (by simp [hasMx, h]) (fun u l i _ e => hL.emp u l i e)
      (fun _ => h1) (fun _ => h1) (by simp [outFs, h]) (by simp [h]) (by simp [h]) (by simp [h])
  | now t h h1 h2 =>
    exact locks_upd hL t _ rfl rfl (by simp [hasMx, h, setThr]) (by simp [hasMx, h]) (fun u l i _ e => hL.emp u l i e)
      (fun _ => h1) (fun _ => h1) (by simp [outFs, h]) (fun _ _ _ _ => h2) (by simp [h]) (by simp [h])
  | finAll t h h1 =>
    have hx : (s.thr t).tx = [] := by
      cases e : (s.thr t).tx with
      | nil => rfl
      | cons a r => exact absurd (hL.tx t (by rw [e]; simp)) h1
    exact locks_upd hL t _ rfl rfl (by simp [hasMx, h, setThr]) (by simp [hasMx, h]) (fun u l i _ e => hL.emp u l i e)
      (fun e => absurd hx e) (by simp [inFs]) (fun _ => h1) (fun _ _ _ _ => hx) (by simp [h]) (by simp [h])
  | finNone t h h1 h2 =>
    exact locks_upd hL t _ rfl rfl (by simp [hasMx, h, setThr]) (by simp [hasMx, h]) (fun u l i _ e => hL.emp u l i e)
      (fun e => hL.tx t e) (by simp [inFs]) (fun _ => h1) (by simp) (by simp) (by simp)
  | finSome t h h1 =>
    have hx : (s.thr t).tx = [] := by
      cases e : (s.thr t).tx with
      | nil => rfl
      | cons a r => exact absurd (hL.tx t (by rw [e]; simp)) h1
    exact locks_upd hL t _ rfl rfl (by simp [hasMx, h, setThr]) (by simp [hasMx, h]) (fun u l i _ e => hL.emp u l i e)
      (fun e => absurd hx e) (by simp [inFs]) (fun _ => h1) (fun _ _ _ _ => hx)
      (fun l i p e => by cases e; exact ⟨rfl, rfl⟩) (by simp [h])
  | enq t q h h1 =>
    exact locks_upd hL t _ rfl rfl (by simp [hasMx, h]) (fun _ => Or.inr h1) (fun u l i _ e => hL.emp u l i e)
      (fun e => hL.tx t e) (fun _ => hL.ins t (by rw [h]; rfl)) (by simp [outFs]) (by simp) (by simp) (by simp)
  | push t q h =>
    have hm : hasMx (s.thr t).pc = true := by rw [h]; rfl
    exact locks_upd hL t _ rfl rfl (by simp [hasMx, h, setThr, (hL.mx t).mpr hm]) (fun _ => Or.inl hm)
      (fun u l i hu e => absurd e (not_emp hL hm hu l i))
      (fun e => hL.tx t e) (fun _ => hL.ins t (by rw [h]; rfl)) (by simp [outFs]) (by simp) (by simp) (by simp)
  | enqEnd t q h =>
    have hm : hasMx (s.thr t).pc = true := by rw [h]; rfl
    exact locks_upd hL t _ rfl rfl (by simp [hasMx, h]) (fun _ => Or.inl hm)
      (fun u l i hu e => absurd e (not_emp hL hm hu l i))
      (fun e => hL.tx t e) (by simp [inFs]) (by simp [outFs]) (by simp) (by simp) (by simp)
  | lock t l i h h1 =>
    exact locks_upd hL t _ rfl rfl (by simp [hasMx, h]) (fun _ => Or.inr h1) (fun u l i _ e => hL.emp u l i e)
      (fun e => hL.tx t e) (fun e => hL.ins t (by rw [h]; cases i <;> exact e))
      (fun e => hL.out t (by rw [h]; cases i <;> exact e)) (fun _ _ _ _ => hL.sub t _ _ _ h)
      (fun l' i' p e => by cases e; exact hL.lim t _ _ _ h) (by simp)
  | none t l i h h1 =>
    have hm : hasMx (s.thr t).pc = true := by rw [h]; rfl
    exact locks_upd hL t _ rfl rfl (by simp [hasMx, h, setThr, (hL.mx t).mpr hm]) (fun _ => Or.inl hm)
      (fun u l i _ e => hL.emp u l i e)
      (fun e => hL.tx t e) (fun e => hL.ins t (by rw [h]; cases i <;> exact e))
      (fun e => hL.out t (by rw [h]; cases i <;> exact e)) (fun _ _ _ _ => hL.sub t _ _ _ h)
      (fun l' i' p e => by cases e; exact hL.lim t _ _ _ h) (fun l' i' e => by cases e; exact h1)
  | take t l i q r h h1 h2 =>
    have hm : hasMx (s.thr t).pc = true := by rw [h]; rfl
    exact locks_upd hL t _ rfl rfl (by simp [hasMx, h, setThr, (hL.mx t).mpr hm]) (fun _ => Or.inl hm)
      (fun u l i hu e => absurd e (not_emp hL hm hu l i))
      (fun e => hL.tx t e) (fun e => hL.ins t (by rw [h]; cases i <;> exact e))
      (fun e => hL.out t (by rw [h]; cases i <;> exact e)) (fun _ _ _ _ => hL.sub t _ _ _ h)
      (fun l' i' p e => by cases e; exact hL.lim t _ _ _ h) (by simp)
  | write t l i q b h =>
    have hm : hasMx (s.thr t).pc = true := by rw [h]; rfl
    exact locks_upd hL t _ rfl rfl (by simp [hasMx, h, setThr, (hL.mx t).mpr hm]) (fun _ => Or.inl hm)
      (fun u l i hu e => absurd e (not_emp hL hm hu l i))
      (fun e => hL.tx t e) (fun e => hL.ins t (by rw [h]; cases i <;> exact e))
      (fun e => hL.out t (by rw [h]; cases i <;> exact e)) (fun _ _ _ _ => hL.sub t _ _ _ h)
      (fun l' i' p e => by cases e; exact hL.lim t _ _ _ h) (by simp)
  | unlock t l i q b h =>
    have hm : hasMx (s.thr t).pc = true := by rw [h]; rfl
    exact locks_upd hL t _ rfl rfl (by simp [hasMx, h]) (fun _ => Or.inl hm)
      (fun u l i hu e => absurd e (not_emp hL hm hu l i))
      (fun e => hL.tx t e) (fun e => hL.ins t (by rw [h]; cases i <;> exact e))
      (fun e => hL.out t (by rw [h]; cases i <;> exact e)) (fun _ _ _ _ => hL.sub t _ _ _ h)
      (fun l' i' p e => by cases e; exact hL.lim t _ _ _ h) (by simp)
  | failed t l i q h =>
    refine locks_upd hL t _ rfl rfl (by cases i <;> simp [hasMx, h, setThr]) (by cases i <;> simp [hasMx])
      (fun u l i _ e => hL.emp u l i e)
      (fun e => hL.tx t e) (by cases i <;> simp [inFs])
      (fun e => hL.out t (by rw [h]; cases i with | true => cases e | false => rfl))
      (by cases i <;> simp) (by cases i <;> simp) (by cases i <;> simp)
  | again t l i q h =>
    exact locks_upd hL t _ rfl rfl (by simp [hasMx, h, setThr]) (by simp [hasMx]) (fun u l i _ e => hL.emp u l i e)
      (fun e => hL.tx t e) (fun e => hL.ins t (by rw [h]; cases i <;> exact e))
      (fun e => hL.out t (by rw [h]; cases i <;> exact e)) (fun _ _ _ _ => hL.sub t _ _ _ h)
      (fun l' i' p e => by cases e; exact hL.lim t _ _ _ h) (by simp)
  | stop t l i h =>
    have hm : hasMx (s.thr t).pc = true := by rw [h]; rfl
    exact locks_upd hL t _ rfl rfl (by cases i <;> simp [hasMx, h]) (fun _ => Or.inl hm)
      (fun u l i hu e => absurd e (not_emp hL hm hu l i))
      (fun e => hL.tx t e) (by cases i <;> simp [inFs])
      (fun e => hL.out t (by rw [h]; cases i with | true => cases e | false => rfl))
      (by cases i <;> simp) (by cases i <;> simp) (by cases i <;> simp)

theorem locks_run {d : Disk} {evs : List Ev} {s : State} (h : run (init d) evs = some s) : Locks s :=
  run_inv (fun _ _ => locks_step) evs _ _ (locks_init d) h

end Silofs.Smq
