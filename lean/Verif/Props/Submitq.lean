import Verif.Props.SubmitqRefs
import Verif.Spec.Submitq
set_option linter.unusedSimpArgs false
set_option linter.unusedVariables false
/-
C68: write-back by several threads at once.
-/
namespace Silofs.Smq
open Silofs.Flush
open Silofs.SmqSpec

/-- Every write which was queued is attempted at most once, and in the order of queueing, whatever the threads do. -/
theorem C68_order (d : Disk) (evs : List Ev) (s : State) (h : run (init d) evs = some s) :
    s.log.map (·.1) <+: s.sent ∧ (s.sent.map Sqe.id).Pairwise (· < ·) := by
  have hO := ord_run h
  refine ⟨⟨inHand s ++ s.queue ++ inPush s, ?_⟩, hO.incr⟩
  rw [hO.split]
  unfold past
  simp [List.append_assoc]

/-! ### What is in storage -/

theorem last_map (n : Nat) (c : Nat → List UInt8) (refs : List Nat) (x : List UInt8) :
    last n refs (refs.map c) x = if n ∈ refs then c n else x := by
  induction refs generalizing x with
  | nil => rfl
  | cons m ms ih =>
    simp only [List.map_cons, last]
    rw [ih]
    by_cases h1 : n ∈ ms
    · rw [if_pos h1, if_pos (List.mem_cons_of_mem _ h1)]
    · rw [if_neg h1]
      by_cases h2 : m = n
      · subst h2; rw [if_pos rfl, if_pos (by simp)]
      · rw [if_neg h2, if_neg (by
          intro hc
          rcases List.mem_cons.mp hc with hc | hc
          · exact h2 hc.symm
          · exact h1 hc)]

theorem last_none (n : Nat) (refs : List Nat) (iov : List (List UInt8)) (x : List UInt8) (h : n ∉ refs) :
    last n refs iov x = x := by
  induction refs generalizing iov x with
  | nil => rfl
  | cons m ms ih =>
    cases iov with
    | nil => rfl
    | cons b bs =>
      simp only [last]
      rw [if_neg (fun e => h (by simp [e])), ih _ _ (fun e => h (by simp [e]))]

theorem lastOf_append (n : Nat) (a b : List (List Nat × List (List UInt8))) (x : List UInt8) :
    lastOf n (a ++ b) x = lastOf n b (lastOf n a x) := by
  induction a generalizing x with
  | nil => rfl
  | cons w a ih => exact ih _

theorem lastOf_none (n : Nat) (a : List (List Nat × List (List UInt8))) (x : List UInt8) (h : ∀ w ∈ a, n ∉ w.1) :
    lastOf n a x = x := by
  induction a generalizing x with
  | nil => rfl
  | cons w a ih =>
    show lastOf n a (last n w.1 w.2 x) = x
    rw [last_none n _ _ _ (h w (by simp)), ih _ (fun w hw => h w (by simp [hw]))]

/-- The objects of an entry and what is to be written for them. -/
def what (q : Sqe) : List Nat × List (List UInt8) := (q.refs, q.iov)

theorem written_read {e : Env} (he : e.Ok) (d : Disk) (log : List (Sqe × Bool)) (hw : ∀ y ∈ log, ∃ c, Writes e y.1 c) (n : Id) :
    readAt (written d log) (e.addr n) =
      lastOf n ((log.filter (fun y => !y.2)).map (fun y => what y.1)) (readAt d (e.addr n)) := by
  induction log generalizing d with
  | nil => rfl
  | cons y log ih =>
    show readAt (written (if y.2 then d else wr d y.1) log) _ = _
    rw [ih _ (fun y hy => hw y (by simp [hy]))]
    cases hy : y.2 with
    | true => rw [List.filter_cons_of_neg (by simp [hy])]; rfl
    | false =>
      rw [List.filter_cons_of_pos (by simp [hy])]
      simp only [Bool.false_eq_true, if_false, List.map_cons]
      obtain ⟨c, hc⟩ := hw y (by simp)
      rw [readAt_wr he hc d n]
      show _ = lastOf n _ (last n y.1.refs y.1.iov _)
      rw [hc.iov, last_map]

/-- At each moment storage has, of each object, what the last write of it left which did not fail. -/
theorem C68_storage {e : Env} (he : e.Ok) (d : Disk) (evs : List Ev) (s : State) (h : run (init d) evs = some s)
    (hw : ∀ q ∈ s.sent, ∃ c, Writes e q c) (n : Id) :
    readAt s.disk (e.addr n) =
      lastOf n ((s.log.filter (fun y => !y.2)).map (fun y => what y.1)) (readAt d (e.addr n)) := by
  rw [(ord_run h).disk]
  refine written_read he d s.log ?_ n
  intro y hy
  refine hw y.1 ?_
  obtain ⟨r, hr⟩ := (C68_order d evs s h).1
  rw [← hr]
  exact List.mem_append_left _ (List.mem_map.mpr ⟨y, hy, rfl⟩)

theorem log_all (s : State) (hf : ∀ y ∈ s.log, y.2 = false) :
    (s.log.filter (fun y => !y.2)).map (fun y => what y.1) = (s.log.map (·.1)).map what := by
  rw [List.filter_eq_self.mpr (fun y hy => by simp [hf y hy]), List.map_map]
  rfl

/-! ### Flushes which write at once -/

/-- A flush that writes at once (fsync, syncfs) comes back with success: everything anybody had queued was attempted,
nobody is in the middle of a flush, and when no write has ever failed storage has the last content of every object.
Missing for the full claim: after a write has failed (`C68_sync_violated`). -/
theorem C68_sync_partial {e : Env} (he : e.Ok) (d : Disk) (evs : List Ev) (s s' : State) (t : Nat) (b : Bool) (ph : Ph)
    (h : run (init d) evs = some s) (h1 : (s.thr t).pc = .sub none true ph) (hs : step s (.go t b) = some s')
    (h2 : (s'.thr t).pc = .run) (h3 : (s'.thr t).bad = false) :
    s'.log.map (·.1) = s'.sent ∧ s'.queue = [] ∧ (∀ u, (s'.thr u).tx = []) ∧
    ((∀ q ∈ s'.sent, ∃ c, Writes e q c) → (∀ y ∈ s'.log, y.2 = false) →
      ∀ n, readAt s'.disk (e.addr n) = lastOf n (s'.sent.map what) (readAt d (e.addr n))) := by
  have hL := locks_run h
  have hO := ord_run h
  have hs0 := hs
  have he0 : ph = .empty := by
    unfold step goStep at hs
    simp only at hs
    rw [h1] at hs
    cases ph with
    | want =>
      simp only at hs
      split at hs
      · cases hs; simp [setThr] at h2
      · cases hs
    | locked =>
      simp only at hs
      split at hs
      · cases hs; simp [setThr] at h2
      · cases hs; simp [setThr] at h2
    | took q => simp only at hs; cases hs; simp [setThr] at h2
    | wrote q b => simp only at hs; cases hs; simp [setThr] at h2
    | left q b =>
      simp only at hs
      cases hs
      cases b with
      | true => simp [setThr] at h3
      | false => simp [setThr] at h2
    | empty => rfl
  subst he0
  have es : s' = { setThr s t { s.thr t with pc := .run, bad := false } with mutex := none } := by
    unfold step goStep at hs
    simp only at hs
    rw [h1] at hs
    simp only at hs
    cases hs
    rfl
  have hq : s.queue = [] := by
    have := hL.emp t none true h1
    cases hqu : s.queue with
    | nil => rfl
    | cons a r => rw [hqu] at this; cases this
  have hf : s.fsl = some t := hL.ins t (by rw [h1]; rfl)
  have hm : s.mutex = some t := (hL.mx t).mpr (by rw [h1]; rfl)
  have hh : inHand s = [] := by unfold inHand; rw [hm]; simp only; rw [h1]; rfl
  have hp : inPush s = [] := by unfold inPush; rw [hf]; simp only; rw [h1]; rfl
  have hsent : s.log.map (·.1) = s.sent := by
    rw [hO.split]; unfold past; rw [hh, hp, hq]; simp
  have hall : s'.log.map (·.1) = s'.sent := by rw [es]; exact hsent
  refine ⟨hall, by rw [es]; exact hq, ?_, ?_⟩
  · intro u
    have hu : (s'.thr u).tx = (s.thr u).tx := by
      rw [es]
      show ((setThr s t _).thr u).tx = _
      by_cases e : u = t
      · subst e; rw [setThr_eq]
      · rw [setThr_ne _ _ _ _ e]
    rw [hu]
    by_cases e : u = t
    · subst e; exact hL.sub u none true _ h1
    · cases hx : (s.thr u).tx with
      | nil => rfl
      | cons a r =>
        have := hL.tx u (by rw [hx]; simp)
        rw [hf] at this
        cases this
        exact absurd rfl e
  · intro hw hfail n
    have hr : run (init d) (evs ++ [.go t b]) = some s' := by
      have key : ∀ (es : List Ev) (a : State), run a es = some s → run a (es ++ [.go t b]) = some s' := by
        intro es
        induction es with
        | nil => intro a ha; cases ha; show run s [.go t b] = _; unfold run; rw [hs0]; rfl
        | cons x es ih =>
          intro a ha
          unfold run at ha
          show run a (x :: (es ++ [.go t b])) = _
          unfold run
          split at ha
          · cases ha
          · rename_i a' hx
            exact ih a' ha
      exact key evs _ h
    rw [C68_storage he d _ s' hr hw n, log_all s' hfail, hall]

/-! ### The end of a request -/

/-- A request's last submission comes back with success: all that it had queued was attempted, by whichever thread. -/
theorem C68_done (d : Disk) (evs : List Ev) (s : State) (h : run (init d) evs = some s) (t : Nat)
    (h1 : (s.thr t).pc = .idle) (h2 : (s.thr t).bad = false) : ∀ q ∈ (s.thr t).mine, q ∈ s.log.map (·.1) :=
  (ord_run h).idle t h1 h2

/-- When moreover no write failed, it is in storage, unless written anew. -/
theorem C68_done_stored_partial {e : Env} (he : e.Ok) (d : Disk) (evs : List Ev) (s : State)
    (h : run (init d) evs = some s) (hw : ∀ q ∈ s.sent, ∃ c, Writes e q c) (hf : ∀ y ∈ s.log, y.2 = false) (t : Nat)
    (h1 : (s.thr t).pc = .idle) (h2 : (s.thr t).bad = false) (q : Sqe) (hq : q ∈ (s.thr t).mine) (n : Id) (hn : n ∈ q.refs) :
    ∃ a b, s.log.map (·.1) = a ++ q :: b ∧
      readAt s.disk (e.addr n) = lastOf n (b.map what) (last n q.refs q.iov []) := by
  obtain ⟨a, b, hab⟩ := List.append_of_mem (C68_done d evs s h t h1 h2 q hq)
  refine ⟨a, b, hab, ?_⟩
  rw [C68_storage he d evs s h hw n, log_all s hf, hab, List.map_append, List.map_cons, lastOf_append]
  show lastOf n _ (last n q.refs q.iov _) = _
  obtain ⟨c, hc⟩ := hw q (by
    obtain ⟨r, hr⟩ := (C68_order d evs s h).1
    rw [← hr, hab]
    simp)
  rw [hc.iov, last_map, if_pos hn, last_map, if_pos hn]

/-! ### Objects stay in memory as long as a write of them is not done -/

theorem sum_pos_of_mem {l : List Sqe} {q : Sqe} (h : q ∈ l) {n : Id} (hn : n ∈ q.refs) :
    0 < (l.map fun q => q.refs.count n).sum := by
  induction l with
  | nil => cases h
  | cons a l ih =>
    rw [List.map_cons, List.sum_cons]
    rcases List.mem_cons.mp h with rfl | h
    · have := List.count_pos_iff.mpr hn; omega
    · have := ih h; omega

/-- An object of an entry which was made, and neither discarded nor attempted, has references: it is not evicted. -/
theorem C68_pinned (d : Disk) (evs : List Ev) (s : State) (h : run (init d) evs = some s) (q : Sqe)
    (hq : (∃ t, q ∈ (s.thr t).tx) ∨ (q ∈ s.sent ∧ q ∉ s.log.map (·.1))) (n : Id) (hn : n ∈ q.refs) : 0 < s.refs n := by
  have hL := locks_run h
  have hO := ord_run h
  obtain ⟨l, l1, l2, l3⟩ := (refs_run h).live
  have hl : q ∈ l := by
    rw [l2]
    rcases hq with ⟨t, ht⟩ | ⟨hs, hl⟩
    · exact Or.inr ⟨t, Or.inl ht⟩
    · rw [hO.split] at hs
      unfold past at hs
      rcases List.mem_append.mp hs with hs | hs
      · rcases List.mem_append.mp hs with hs | hs
        · rcases List.mem_append.mp hs with hs | hs
          · exact absurd hs hl
          · unfold inHand at hs
            cases hm : s.mutex with
            | none => rw [hm] at hs; cases hs
            | some u =>
              rw [hm] at hs
              simp only at hs
              refine Or.inr ⟨u, Or.inr ?_⟩
              generalize (s.thr u).pc = pc at hs ⊢
              unfold hand at hs
              split at hs
              · exact hs
              · cases hs
        · exact Or.inl hs
      · unfold inPush at hs
        cases hm : s.fsl with
        | none => rw [hm] at hs; cases hs
        | some u =>
          rw [hm] at hs
          simp only at hs
          refine Or.inr ⟨u, Or.inr ?_⟩
          generalize (s.thr u).pc = pc at hs ⊢
          unfold pend at hs
          split at hs
          · exact hs
          · exact hs
          · cases hs
  rw [l3]
  have := sum_pos_of_mem hl hn
  omega

/-- No reference is lost: when nobody is at work and nothing is queued, what is left are the references which operations
hold for themselves. -/
theorem C68_released (d : Disk) (evs : List Ev) (s : State) (h : run (init d) evs = some s)
    (hi : ∀ t, (s.thr t).pc = .idle) (hq : s.queue = []) (n : Id) : s.refs n = s.held n := by
  have hL := locks_run h
  obtain ⟨l, l1, l2, l3⟩ := (refs_run h).live
  have : l = [] := by
    cases l with
    | nil => rfl
    | cons q r =>
      exfalso
      rcases (l2 q).mp (by simp) with hc | ⟨t, hc | hc⟩
      · rw [hq] at hc; cases hc
      · have := hL.tx t (fun e => by rw [e] at hc; cases hc)
        exact hL.out t (by rw [hi t]; rfl) this
      · rw [hi t] at hc; cases hc
  rw [l3, this]
  simp

/-- References never go below what operations hold. -/
theorem C68_refs (d : Disk) (evs : List Ev) (s : State) (h : run (init d) evs = some s) (n : Id) :
    (s.held n : Int) ≤ s.refs n := by
  obtain ⟨l, l1, l2, l3⟩ := (refs_run h).live
  rw [l3]
  omega

/-- An object without references can be dropped from memory and read again: when no write has failed, storage has what
was last queued for it. -/
theorem C68_reload_partial {e : Env} (he : e.Ok) (d : Disk) (evs : List Ev) (s : State)
    (h : run (init d) evs = some s) (hw : ∀ q ∈ s.sent, ∃ c, Writes e q c) (hf : ∀ y ∈ s.log, y.2 = false)
    (n : Id) (hn : s.refs n = 0) : readAt s.disk (e.addr n) = lastOf n (s.sent.map what) (readAt d (e.addr n)) := by
  have hO := ord_run h
  rw [C68_storage he d evs s h hw n, log_all s hf, hO.split]
  unfold past
  have hnod := sent_nodup hO
  rw [List.append_assoc, List.append_assoc] at hnod ⊢
  rw [List.map_append (l₁ := List.map (·.1) s.log), lastOf_append]
  symm
  refine lastOf_none n _ _ ?_
  intro w hwm hc
  obtain ⟨q, hq, rfl⟩ := List.mem_map.mp hwm
  have hs : q ∈ s.sent := by
    rw [hO.split]; unfold past
    rw [List.append_assoc, List.append_assoc]
    exact List.mem_append_right _ hq
  have hl : q ∉ s.log.map (·.1) := fun hm => (List.nodup_append.mp hnod).2.2 q hm q hq rfl
  have := C68_pinned d evs s h q (Or.inr ⟨hs, hl⟩) n hc
  omega

/-! ### Nobody waits for ever -/

/-- One step of the holder brings it to the end of its turn. -/
theorem last_step (s : State) (u : Nat)
    (h : (∃ q, (s.thr u).pc = .enqDone q) ∨ (∃ l i q b, (s.thr u).pc = .sub l i (.wrote q b)) ∨
      ∃ l i, (s.thr u).pc = .sub l i .empty) : ∃ s', step s (.go u false) = some s' ∧ s'.mutex = none := by
  unfold step goStep
  simp only
  rcases h with ⟨q, h⟩ | ⟨l, i, q, b, h⟩ | ⟨l, i, h⟩ <;> rw [h] <;> exact ⟨_, rfl, rfl⟩

theorem run_go {s s1 s2 : State} {u k : Nat} (h : step s (.go u false) = some s1)
    (h2 : run s1 (List.replicate k (.go u false)) = some s2) : run s (List.replicate (k + 1) (.go u false)) = some s2 := by
  rw [List.replicate_succ]
  unfold run
  rw [h]
  exact h2

theorem mutex_free {d : Disk} {evs : List Ev} {s : State} (h : run (init d) evs = some s) (u : Nat)
    (hu : s.mutex = some u) : ∃ k s', k ≤ 3 ∧ run s (List.replicate k (.go u false)) = some s' ∧ s'.mutex = none := by
  have hm := ((locks_run h).mx u).mp hu
  have fin : ∀ a : State, ((∃ q, (a.thr u).pc = .enqDone q) ∨ (∃ l i q b, (a.thr u).pc = .sub l i (.wrote q b)) ∨
      ∃ l i, (a.thr u).pc = .sub l i .empty) →
      ∃ s', run a (List.replicate 1 (.go u false)) = some s' ∧ s'.mutex = none := by
    intro a ha
    obtain ⟨s', h1, h2⟩ := last_step a u ha
    exact ⟨s', run_go h1 rfl, h2⟩
  have tk : ∀ (a : State) l i q, (a.thr u).pc = .sub l i (.took q) →
      ∃ s', run a (List.replicate 2 (.go u false)) = some s' ∧ s'.mutex = none := by
    intro a l i q ha
    have : ∃ a', step a (.go u false) = some a' ∧ (a'.thr u).pc = .sub l i (.wrote q false) := by
      unfold step goStep
      simp only
      rw [ha]
      exact ⟨_, rfl, by simp [setThr]⟩
    obtain ⟨a', h1, h2⟩ := this
    obtain ⟨s', h3, h4⟩ := fin a' (Or.inr (Or.inl ⟨l, i, q, false, h2⟩))
    exact ⟨s', run_go h1 h3, h4⟩
  generalize hp : (s.thr u).pc = pc at hm
  unfold hasMx at hm
  split at hm
  · rename_i q
    have : ∃ a', step s (.go u false) = some a' ∧ (a'.thr u).pc = .enqDone q := by
      unfold step goStep
      simp only
      rw [hp]
      exact ⟨_, rfl, by simp [setThr]⟩
    obtain ⟨a', h1, h2⟩ := this
    obtain ⟨s', h3, h4⟩ := fin a' (Or.inl ⟨q, h2⟩)
    exact ⟨2, s', by decide, run_go h1 h3, h4⟩
  · obtain ⟨s', h3, h4⟩ := fin s (Or.inl ⟨_, hp⟩)
    exact ⟨1, s', by decide, h3, h4⟩
  · rename_i l i
    cases hg : getSqe s.queue l with
    | none =>
      have : ∃ a', step s (.go u false) = some a' ∧ (a'.thr u).pc = .sub l i .empty := by
        unfold step goStep
        simp only
        rw [hp]
        simp only
        rw [hg]
        exact ⟨_, rfl, by simp [setThr]⟩
      obtain ⟨a', h1, h2⟩ := this
      obtain ⟨s', h3, h4⟩ := fin a' (Or.inr (Or.inr ⟨l, i, h2⟩))
      exact ⟨2, s', by decide, run_go h1 h3, h4⟩
    | some q =>
      have : ∃ a', step s (.go u false) = some a' ∧ (a'.thr u).pc = .sub l i (.took q) := by
        unfold step goStep
        simp only
        rw [hp]
        simp only
        rw [hg]
        exact ⟨_, rfl, by simp [setThr]⟩
      obtain ⟨a', h1, h2⟩ := this
      obtain ⟨s', h3, h4⟩ := tk a' l i q h2
      exact ⟨3, s', by decide, run_go h1 h3, h4⟩
  · obtain ⟨s', h3, h4⟩ := tk s _ _ _ hp
    exact ⟨2, s', by decide, h3, h4⟩
  · obtain ⟨s', h3, h4⟩ := fin s (Or.inr (Or.inl ⟨_, _, _, _, hp⟩))
    exact ⟨1, s', by decide, h3, h4⟩
  · obtain ⟨s', h3, h4⟩ := fin s (Or.inr (Or.inr ⟨_, _, hp⟩))
    exact ⟨1, s', by decide, h3, h4⟩
  · cases hm

/-- A thread in the middle of a call can go on, or waits for the lock of the queue, which another thread holds and gives
back after at most three steps of its own: nobody waits in a circle, and the holder of the queue waits for nobody. -/
theorem C68_no_deadlock (d : Disk) (evs : List Ev) (s : State) (h : run (init d) evs = some s) (t : Nat)
    (h1 : (s.thr t).pc ≠ .idle) (h2 : (s.thr t).pc ≠ .run) :
    (∃ s', step s (.go t false) = some s') ∨
    ∃ u, u ≠ t ∧ s.mutex = some u ∧
      ∃ k s', k ≤ 3 ∧ run s (List.replicate k (.go u false)) = some s' ∧ s'.mutex = none := by
  by_cases hc : ∃ s', step s (.go t false) = some s'
  · exact Or.inl hc
  · right
    have hL := locks_run h
    have hn : step s (.go t false) = none := by
      cases hs : step s (.go t false) with
      | none => rfl
      | some s' => exact absurd ⟨s', hs⟩ hc
    have key : s.mutex ≠ none ∧ hasMx (s.thr t).pc = false := by
      unfold step goStep at hn
      simp only at hn
      split at hn
      · rename_i e; exact absurd e h1
      · rename_i e; exact absurd e h2
      · rename_i q e
        split at hn
        · cases hn
        · rename_i hm; exact ⟨hm, by rw [e]; rfl⟩
      · cases hn
      · cases hn
      · rename_i e
        split at hn
        · cases hn
        · rename_i hm; exact ⟨hm, by rw [e]; rfl⟩
      · split at hn <;> cases hn
      · cases hn
      · cases hn
      · cases hn
      · cases hn
    cases hm : s.mutex with
    | none => exact absurd hm key.1
    | some u =>
      refine ⟨u, ?_, rfl, mutex_free h u hm⟩
      intro e
      subst e
      have := (hL.mx u).mp hm
      rw [key.2] at this
      cases this

/-- What a request's last submission has to do does not grow, whatever others queue meanwhile. -/
theorem C68_bounded (d : Disk) (evs : List Ev) (s s' : State) (h : run (init d) evs = some s) (t k : Nat) (i : Bool)
    (ph : Ph) (h1 : (s.thr t).pc = .sub (some k) i ph) (ev : Ev) (hs : step s ev = some s') :
    s'.queue.filter (fun q => q.id ≤ k) <:+ s.queue.filter (fun q => q.id ≤ k) := by
  have hL := locks_run h
  have hO := ord_run h
  cases step_of hs with
  | push u q hq =>
    show (s.queue ++ [q]).filter _ <:+ _
    rw [List.filter_append]
    have hf : s.fsl = some u := hL.ins u (by rw [hq]; rfl)
    have hp : inPush s = [q] := by unfold inPush; rw [hf]; simp only; rw [hq]; rfl
    have hk : ¬ (q.id ≤ k) := by
      obtain ⟨ha, _⟩ := hL.lim t k i ph h1
      have hi := hO.incr
      rw [hO.split, hp, List.map_append, List.pairwise_append] at hi
      rcases hO.apx t with h0 | ⟨p, hp1, hp2⟩
      · have := (hO.bnd q (by rw [hO.split, hp]; simp)).1
        omega
      · have := hi.2.2 p.id (List.mem_map.mpr ⟨p, hp1, rfl⟩) q.id (by simp)
        omega
    have e : [q].filter (fun q => decide (q.id ≤ k)) = [] := by simp [hk]
    rw [e, List.append_nil]
    exact List.suffix_refl _
  | take u l j q r hq h2 h3 =>
    show r.filter _ <:+ _
    rw [h2]
    rw [List.filter_cons]
    split
    · exact List.suffix_cons _ _
    · exact List.suffix_refl _
  | _ => exact List.suffix_refl _

/-! ### Failed writes -/

def z : Disk := fun _ _ => 0
def seg : Lsid := ⟨1, 100⟩
def one : Env := ⟨fun n => ⟨seg, n, 1⟩, fun _ => .data, fun _ b => b, fun _ b => b, fun a b => (a : Int) - b⟩

theorem one_ok : one.Ok where
  disj := by
    intro m n h _
    exact Nat.lt_or_gt_of_ne h
  enc_len := fun _ _ => rfl
  dec_len := fun _ _ => rfl
  dec_enc := fun _ _ => rfl

def goes (t : Nat) (n : Nat) : List Ev := List.replicate n (.go t false)

/-- Thread 0 queues a write of object 5 and leaves it to its end. -/
def queue0 : List Ev :=
  [.begin 0, .lockFs 0, .make 0 ⟨seg, 5, 1⟩ .data [5] [[7]], .submitTx 0] ++ goes 0 3 ++ [.unlockFs 0]

/-- Thread 1 does the write, which fails, for a flush of its own. -/
def fail1 : List Ev :=
  [.begin 1, .lockFs 1, .now 1] ++ goes 1 2 ++ [.go 1 true] ++ goes 1 2 ++ [.unlockFs 1, .finish 1 false]

/-- Thread 0 comes to its end. -/
def end0 : List Ev := [.finish 0 false] ++ goes 0 3

def entry5 : Sqe := ⟨1, ⟨seg, 5, 1⟩, .data, [5], [[7]]⟩

/-- A request ends with success although its write failed: another request did the write, and got the error. -/
theorem C68_reported_violated : ∃ s m, run (init z) (queue0 ++ [.begin 1, .lockFs 1, .now 1] ++ goes 1 2 ++ [.go 1 true] ++
      goes 1 2) = some m ∧ (m.thr 1).pc = .run ∧ (m.thr 1).bad = true ∧ (m.thr 1).mine = [] ∧
    run m ([.unlockFs 1, .finish 1 false] ++ end0) = some s ∧
    (s.thr 0).pc = .idle ∧ (s.thr 0).bad = false ∧ entry5 ∈ (s.thr 0).mine ∧ s.log = [(entry5, true)] ∧
    readAt s.disk (one.addr 5) = [0] := by
  refine ⟨_, _, rfl, ?_, ?_, ?_, rfl, ?_, ?_, ?_, ?_, ?_⟩ <;> decide +kernel

/-- A flush that writes at once comes back with success although an earlier write of the object failed: what was to be
written is nowhere. -/
theorem C68_sync_violated : ∃ m s ev, run (init z) (queue0 ++ fail1 ++ end0 ++ [.begin 2, .lockFs 2, .now 2] ++ goes 2 2) = some m ∧
    (m.thr 2).pc = .sub none true .empty ∧ step m ev = some s ∧ ev = .go 2 false ∧
    (s.thr 2).pc = .run ∧ (s.thr 2).bad = false ∧ s.sent = [entry5] ∧ Writes one entry5 (fun _ => [7]) ∧
    readAt s.disk (one.addr 5) = [0] ∧ (∀ n, s.refs n = 0) := by
  refine ⟨_, _, _, rfl, ?_, rfl, rfl, ?_, ?_, ?_, ⟨rfl, ⟨rfl, rfl, trivial⟩, by decide, ?_⟩, ?_, ?_⟩
  · decide +kernel
  · decide +kernel
  · decide +kernel
  · decide +kernel
  · intro m hm; rfl
  · decide +kernel
  · intro n
    show (0 : Int) + 1 * _ + -1 * _ = 0
    omega

/-! ### Examples -/

/-- Two threads, three writes of the same object, one of them done by the other thread. -/
example : ∃ s, run (init z) (queue0 ++
      [.begin 1, .lockFs 1, .make 1 ⟨seg, 5, 2⟩ .data [5, 6] [[8], [9]], .submitTx 1] ++ goes 1 3 ++ [.now 1] ++
      goes 1 13 ++ [.unlockFs 1, .finish 1 false] ++ goes 1 3 ++ end0) = some s ∧
    s.log.map (·.2) = [false, false] ∧ (s.thr 0).pc = .idle ∧ (s.thr 0).bad = false ∧ (s.thr 1).pc = .idle ∧
    (s.thr 0).mine.map Sqe.id = [1] ∧ (s.thr 1).mine.map Sqe.id = [2] ∧
    readAt s.disk (one.addr 5) = [8] ∧ readAt s.disk (one.addr 6) = [9] := by
  refine ⟨_, rfl, ?_, ?_, ?_, ?_, ?_, ?_, ?_, ?_⟩ <;> decide +kernel

example : Writes one ⟨2, ⟨seg, 5, 2⟩, .data, [5, 6], [[8], [9]]⟩ (fun n => if n = 5 then [8] else [9]) :=
  ⟨rfl, ⟨rfl, rfl, rfl, rfl, trivial⟩, by decide, by decide⟩

end Silofs.Smq
