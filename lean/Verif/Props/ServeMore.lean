import Verif.Props.Serve

/-! # C72, continued: the handshake took place; no worker is left -/

set_option linter.unusedSimpArgs false
set_option linter.unusedVariables false

namespace Silofs.Srv

theorem agreed_post (s : S) (i e : Nat) : (post s i e).replyOk = s.replyOk := by
  unfold post setD; (repeat' split) <;> rfl

theorem agreed_step (s : S) (ev : Ev) (h : (step s ev).replyOk = true) :
    s.replyOk = true ∨ ∃ i a, ev = .disp i a 0 ∧ s.disp i = .exec (.init true) := by
  cases ev with
  | disp i a e =>
    simp only [step, dispStep] at h
    split at h
    · left; unfold take setD at h; (repeat' split at h) <;> exact h
    · left
      unfold recv setD at h
      (repeat' split at h) <;> first | exact h | (rw [agreed_post] at h; exact h)
    · next r hr =>
      unfold finish setD at h
      split at h
      · simp only [Bool.or_eq_true, decide_eq_true_eq] at h
        rcases h with h | h
        · exact Or.inl h
        · exact Or.inr ⟨i, a, by rw [h], hr⟩
      · exact Or.inl h
      · exact Or.inl h
      · exact Or.inl h
    · left; rw [agreed_post] at h; exact h
    · exact Or.inl h
    · exact Or.inl h
  | prep i e =>
    left; simp only [step] at h
    split at h
    · rw [agreed_post] at h; exact h
    · exact h
  | work i e => left; simp only [step, setW] at h; (repeat' split at h) <;> exact h
  | main ok => left; simp only [step, mainStep, setW, setD] at h; (repeat' split at h) <;> exact h
  | sig => left; simp only [step, halt] at h; (repeat' split at h) <;> exact h

/-- **C72**: a request of anybody but the first dispatcher means that the handshake took place: earlier in the run an INIT
which the daemon supports was executed, and its answer was sent without error. -/
theorem C72_agreed (nd nw : Nat) (h1 : 1 ≤ nd) (es : List Ev) {i : Nat} (h0 : i ≠ 0)
    (hb : (run (init nd nw) es).disp i = .chan ∨ Busy ((run (init nd nw) es).disp i)) :
    ∃ pre j a rest, es = pre ++ .disp j a 0 :: rest ∧ (run (init nd nw) pre).disp j = .exec (.init true) := by
  have key : ∀ (es : List Ev) (s : S), (run s es).replyOk = true → s.replyOk = true ∨
      ∃ pre j a rest, es = pre ++ .disp j a 0 :: rest ∧ (run s pre).disp j = .exec (.init true) := by
    intro es
    induction es with
    | nil => intro s h; exact Or.inl h
    | cons ev es ih =>
      intro s h
      rcases ih (step s ev) h with h | ⟨pre, j, a, rest, hes, hd⟩
      · rcases agreed_step _ _ h with h | ⟨j, a, he, hd⟩
        · exact Or.inl h
        · exact Or.inr ⟨[], j, a, es, by rw [he]; rfl, hd⟩
      · exact Or.inr ⟨ev :: pre, j, a, rest, by rw [hes]; rfl, hd⟩
  rcases key es _ ((C72_leader ⟨nd, nw, es, h1, rfl⟩).1 i h0 hb).2 with h | h
  · exact nomatch h
  · exact h

/-- A run up to a request of the second dispatcher. -/
def evTwo : List Ev :=
  [.main true, .main true, .main true, .main true, .main true,
   .disp 0 .timeout 0, .disp 0 (.req (.init true)) 0, .disp 0 .timeout 0, .disp 0 .timeout 0,
   .disp 0 .timeout 0, .disp 0 (.req (.other 5)) 0, .disp 1 .timeout 0, .disp 1 (.req (.other 6)) 0]

example : (run (init 2 1) evTwo).disp 1 = .exec (.other 6) := by decide +kernel

/-- ... and to the close. -/
def evClose : List Ev :=
  evTwo ++ [.disp 0 .timeout 0, .disp 0 .timeout 0, .disp 1 .timeout 0, .disp 1 .timeout 0, .sig,
    .disp 0 .timeout 0, .disp 1 .timeout 0, .work 0 0, .main true, .main true, .main true]

example : (run (init 2 1) evClose).main.closing = true ∧ (run (init 2 1) evTwo).work 0 = .run := by decide +kernel

/-- Workers beyond the count do not run; the count is what was started. -/
structure WInv (s : S) : Prop where
  unmade : ∀ i, s.work i = .run → i < s.wrun
  start : ∀ k, s.main = .startW k → s.wrun = k

theorem winv_init (nd nw : Nat) : WInv (init nd nw) :=
  ⟨fun i h => by simp [init] at h, fun k h => by simp [init] at h; simp [init, h]⟩

theorem post_w (s : S) (i e : Nat) :
    (post s i e).work = s.work ∧ (post s i e).wrun = s.wrun ∧ (post s i e).main = s.main := by
  unfold post setD; (repeat' split) <;> exact ⟨rfl, rfl, rfl⟩

theorem disp_w (s : S) (i : Nat) (a : Recv) (e : Nat) :
    (dispStep s i a e).work = s.work ∧ (dispStep s i a e).wrun = s.wrun ∧ (dispStep s i a e).main = s.main := by
  unfold dispStep
  split
  · unfold take setD; (repeat' split) <;> exact ⟨rfl, rfl, rfl⟩
  · unfold recv setD
    (repeat' split) <;> first | exact ⟨rfl, rfl, rfl⟩ | exact post_w _ _ _
  · unfold finish setD; (repeat' split) <;> exact ⟨rfl, rfl, rfl⟩
  · exact post_w _ _ _
  · exact ⟨rfl, rfl, rfl⟩
  · exact ⟨rfl, rfl, rfl⟩

theorem winv_same {s t : S} (h : WInv s) (h1 : t.work = s.work ∧ t.wrun = s.wrun ∧ t.main = s.main) : WInv t :=
  ⟨by rw [h1.1, h1.2.1]; exact h.unmade, by rw [h1.2.2, h1.2.1]; exact h.start⟩

theorem winv_step {s : S} (h : WInv s) (ev : Ev) : WInv (step s ev) := by
  cases ev with
  | disp i a e => exact winv_same h (disp_w s i a e)
  | prep i e =>
    simp only [step]
    split
    · exact winv_same h (post_w s i e)
    · exact h
  | work i e =>
    simp only [step]
    split
    · split
      · exact h
      · refine ⟨fun j hj => ?_, h.start⟩
        simp only [setW] at hj ⊢
        split at hj
        · exact nomatch hj
        · exact h.unmade j hj
    · exact h
  | main ok =>
    simp only [step, mainStep]
    split
    · next k hk =>
      have hw := h.start k hk
      split
      · split
        · refine ⟨fun j hj => ?_, fun k' hk' => ?_⟩
          · simp only [setW] at hj ⊢
            split at hj
            · omega
            · have := h.unmade j hj; omega
          · simp only [Main.startW.injEq] at hk' ⊢
            exact hk'
        · exact ⟨h.unmade, fun _ hk' => nomatch hk'⟩
      · exact ⟨h.unmade, fun _ hk' => nomatch hk'⟩
    all_goals
      (repeat' split) <;> first
        | exact h
        | exact ⟨h.unmade, fun k hk' => h.start k hk'⟩
        | (refine ⟨h.unmade, fun k hk' => ?_⟩; simp at hk'; done)
  | sig =>
    simp only [step, halt]
    (repeat' split) <;> first
      | exact h
      | exact ⟨h.unmade, h.start⟩
      | (refine ⟨h.unmade, fun k hk' => ?_⟩; simp at hk'; done)

theorem winv_reach {s : S} (h : Reach s) : WInv s := by
  obtain ⟨nd, nw, es, _, rfl⟩ := h
  suffices ∀ s, WInv s → WInv (run s es) from this _ (winv_init nd nw)
  induction es with
  | nil => exact fun _ h => h
  | cons e es ih => exact fun s h => ih _ (winv_step h e)

/-- **C72**: while the file-system is being closed, and after, no background worker runs. -/
theorem C72_no_worker_left {s : S} (h : Reach s) (hc : s.main.closing = true) (i : Nat) : s.work i ≠ .run := by
  intro hr
  have h1 := (winv_reach h).unmade i hr
  have h2 := (inv_reach h).workers hc i h1
  rw [hr] at h2
  exact nomatch h2

end Silofs.Srv
