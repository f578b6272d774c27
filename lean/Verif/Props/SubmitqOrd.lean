import Verif.Props.SubmitqInv
set_option linter.unusedSimpArgs false
set_option linter.unusedVariables false
/-
C68, basis: the order of writes.
-/
namespace Silofs.Smq
open Silofs.Flush

def hand : Pc → List Sqe
  | .sub _ _ (.took q) => [q]
  | _ => []

def pend : Pc → List Sqe
  | .enq q | .enqLocked q => [q]
  | _ => []

def mid : Pc → List Sqe
  | .enq q | .enqLocked q | .enqDone q => [q]
  | _ => []

/-- The entry being written. -/
def inHand (s : State) : List Sqe :=
  match s.mutex with
  | some t => hand (s.thr t).pc
  | none => []

/-- The entry on its way to the queue. -/
def inPush (s : State) : List Sqe :=
  match s.fsl with
  | some t => pend (s.thr t).pc
  | none => []

/-- All that was ever in the queue. -/
def past (s : State) : List Sqe := s.log.map (·.1) ++ inHand s ++ s.queue

/-- Storage after the attempts: those which failed wrote nothing. -/
def written (d : Disk) (log : List (Sqe × Bool)) : Disk := log.foldl (fun d x => if x.2 then d else wr d x.1) d

structure Ord (d : Disk) (s : State) : Prop where
  split : s.sent = past s ++ inPush s
  incr : (s.sent.map Sqe.id).Pairwise (· < ·)
  bnd : ∀ q ∈ s.sent, 0 < q.id ∧ q.id < s.next
  nxt : 0 < s.next
  txi : ∀ t, ((s.thr t).tx.map Sqe.id).Pairwise (· < ·)
  txb : ∀ t, ∀ q ∈ (s.thr t).tx, 0 < q.id ∧ q.id < s.next ∧ ∀ p ∈ s.sent, p.id < q.id
  wrote : ∀ t l i q b, ((s.thr t).pc = .sub l i (.wrote q b) ∨ (s.thr t).pc = .sub l i (.left q b)) → (q, b) ∈ s.log
  disk : s.disk = written d s.log
  done : ∀ t q, (s.thr t).pc = .enqDone q → q ∈ past s
  apx : ∀ t, (s.thr t).apex = 0 ∨ ∃ p ∈ past s, p.id = (s.thr t).apex
  mine : ∀ t, ∀ q ∈ (s.thr t).mine, q ∈ s.sent ∧ (q.id ≤ (s.thr t).apex ∨ q ∈ mid (s.thr t).pc)
  idle : ∀ t, (s.thr t).pc = .idle → (s.thr t).bad = false → ∀ q ∈ (s.thr t).mine, q ∈ s.log.map (·.1)

theorem ord_init (d : Disk) : Ord d (init d) := by
  refine ⟨rfl, List.Pairwise.nil, fun q h => (nomatch h), Nat.one_pos, fun t => List.Pairwise.nil, fun t q h => (nomatch h), ?_,
    rfl, ?_, fun t => Or.inl rfl, fun t q h => (nomatch h), fun t _ _ q h => (nomatch h)⟩
  · intro t l i q b h; rcases h with h | h <;> cases h
  · intro t q h; cases h

theorem inHand_same {s s' : State} {t : Nat} {x : Thr} (e : s'.thr = (setThr s t x).thr)
    (hh : hand x.pc = hand (s.thr t).pc)
    (hm : s'.mutex = s.mutex ∨ (s.mutex = none ∧ s'.mutex = some t ∧ hand x.pc = []) ∨
      (s.mutex = some t ∧ s'.mutex = none ∧ hand x.pc = [])) : inHand s' = inHand s := by
  unfold inHand
  rcases hm with h | ⟨h1, h2, h3⟩ | ⟨h1, h2, h3⟩
  · rw [h]
    cases s.mutex with
    | none => rfl
    | some u =>
      simp only
      rw [e]
      by_cases hu : u = t
      · subst hu; rw [setThr_eq]; exact hh
      · rw [setThr_ne _ _ _ _ hu]
  · rw [h1, h2]; simp only; rw [e, setThr_eq]; exact h3
  · rw [h1, h2]; simp only; rw [← hh]; exact h3.symm

theorem inPush_same {s s' : State} {t : Nat} {x : Thr} (e : s'.thr = (setThr s t x).thr) (ef : s'.fsl = s.fsl)
    (hh : pend x.pc = pend (s.thr t).pc) : inPush s' = inPush s := by
  unfold inPush
  rw [ef]
  cases s.fsl with
  | none => rfl
  | some u =>
    simp only
    rw [e]
    by_cases hu : u = t
    · subst hu; rw [setThr_eq]; exact hh
    · rw [setThr_ne _ _ _ _ hu]

/-- A step of one thread after which the same was ever queued (or more), and sent, or more. -/
theorem ord_upd {d : Disk} {s s' : State} (hO : Ord d s) (t : Nat) (x : Thr) (e1 : s'.thr = (setThr s t x).thr)
    (hsent : ∀ q ∈ s.sent, q ∈ s'.sent) (hlog : ∀ y ∈ s.log, y ∈ s'.log) (hpast : ∀ q ∈ past s, q ∈ past s')
    (hsplit : s'.sent = past s' ++ inPush s') (hincr : (s'.sent.map Sqe.id).Pairwise (· < ·))
    (hbnd : ∀ q ∈ s'.sent, 0 < q.id ∧ q.id < s'.next) (hnxt : s.next ≤ s'.next)
    (hdisk : s'.disk = written d s'.log)
    (hu : s'.sent = s.sent ∨ ∀ u, u ≠ t → (s.thr u).tx = [])
    (htxi : (x.tx.map Sqe.id).Pairwise (· < ·))
    (htxb : ∀ q ∈ x.tx, 0 < q.id ∧ q.id < s'.next ∧ ∀ p ∈ s'.sent, p.id < q.id)
    (hwrote : ∀ l i q b, (x.pc = .sub l i (.wrote q b) ∨ x.pc = .sub l i (.left q b)) → (q, b) ∈ s'.log)
    (hdone : ∀ q, x.pc = .enqDone q → q ∈ past s')
    (hapx : x.apex = 0 ∨ ∃ p ∈ past s', p.id = x.apex)
    (hmine : ∀ q ∈ x.mine, q ∈ s'.sent ∧ (q.id ≤ x.apex ∨ q ∈ mid x.pc))
    (hidle : x.pc = .idle → x.bad = false → ∀ q ∈ x.mine, q ∈ s'.log.map (·.1)) : Ord d s' := by
  have ht : s'.thr t = x := by rw [e1, setThr_eq]
  have hne : ∀ u, u ≠ t → s'.thr u = s.thr u := fun u h => by rw [e1, setThr_ne _ _ _ _ h]
  refine ⟨hsplit, hincr, hbnd, Nat.lt_of_lt_of_le hO.nxt hnxt, ?_, ?_, ?_, hdisk, ?_, ?_, ?_, ?_⟩
  · intro u
    by_cases h : u = t
    · subst h; rw [ht]; exact htxi
    · rw [hne u h]; exact hO.txi u
  · intro u q hq
    by_cases h : u = t
    · subst h; rw [ht] at hq; exact htxb q hq
    · rw [hne u h] at hq
      obtain ⟨h1, h2, h3⟩ := hO.txb u q hq
      refine ⟨h1, by omega, ?_⟩
      rcases hu with hu | hu
      · rw [hu]; exact h3
      · rw [hu u h] at hq; cases hq
  · intro u l i q b hp
    by_cases h : u = t
    · subst h; rw [ht] at hp; exact hwrote l i q b hp
    · rw [hne u h] at hp; exact hlog _ (hO.wrote u l i q b hp)
  · intro u q hp
    by_cases h : u = t
    · subst h; rw [ht] at hp; exact hdone q hp
    · rw [hne u h] at hp; exact hpast _ (hO.done u q hp)
  · intro u
    by_cases h : u = t
    · subst h; rw [ht]; exact hapx
    · rw [hne u h]
      rcases hO.apx u with h1 | ⟨p, h1, h2⟩
      · exact Or.inl h1
      · exact Or.inr ⟨p, hpast p h1, h2⟩
  · intro u q hq
    by_cases h : u = t
    · subst h; rw [ht] at hq ⊢; exact hmine q hq
    · rw [hne u h] at hq ⊢
      exact ⟨hsent q (hO.mine u q hq).1, (hO.mine u q hq).2⟩
  · intro u h1 h2 q hq
    by_cases h : u = t
    · subst h; rw [ht] at h1 h2 hq; exact hidle h1 h2 q hq
    · rw [hne u h] at h1 h2 hq
      obtain ⟨y, hy, e⟩ := List.mem_map.mp (hO.idle u h1 h2 q hq)
      exact List.mem_map.mpr ⟨y, hlog y hy, e⟩

/-- The same when nothing but the thread's own record (and locks, references) changes. -/
theorem ord_own {d : Disk} {s s' : State} (hO : Ord d s) (t : Nat) (x : Thr) (e1 : s'.thr = (setThr s t x).thr)
    (e2 : s'.sent = s.sent) (e3 : s'.log = s.log) (e4 : s'.queue = s.queue) (e5 : s'.disk = s.disk) (e6 : s.next ≤ s'.next)
    (e7 : s'.fsl = s.fsl) (hh : hand x.pc = hand (s.thr t).pc)
    (hm : s'.mutex = s.mutex ∨ (s.mutex = none ∧ s'.mutex = some t ∧ hand x.pc = []) ∨
      (s.mutex = some t ∧ s'.mutex = none ∧ hand x.pc = [])) (hp : pend x.pc = pend (s.thr t).pc)
    (htxi : (x.tx.map Sqe.id).Pairwise (· < ·))
    (htxb : ∀ q ∈ x.tx, 0 < q.id ∧ q.id < s'.next ∧ ∀ p ∈ s.sent, p.id < q.id)
    (hwrote : ∀ l i q b, (x.pc = .sub l i (.wrote q b) ∨ x.pc = .sub l i (.left q b)) → (q, b) ∈ s.log)
    (hdone : ∀ q, x.pc = .enqDone q → q ∈ past s)
    (hapx : x.apex = 0 ∨ ∃ p ∈ past s, p.id = x.apex)
    (hmine : ∀ q ∈ x.mine, q ∈ s.sent ∧ (q.id ≤ x.apex ∨ q ∈ mid x.pc))
    (hidle : x.pc = .idle → x.bad = false → ∀ q ∈ x.mine, q ∈ s.log.map (·.1)) : Ord d s' := by
  have hpast : past s' = past s := by unfold past; rw [e3, e4, inHand_same e1 hh hm]
  have hpush : inPush s' = inPush s := inPush_same e1 e7 hp
  refine ord_upd hO t x e1 (by rw [e2]; exact fun q h => h) (by rw [e3]; exact fun q h => h)
    (by rw [hpast]; exact fun q h => h) (by rw [e2, hpast, hpush]; exact hO.split) (by rw [e2]; exact hO.incr) ?_ e6
    (by rw [e5, e3]; exact hO.disk) (Or.inl e2) htxi (by rw [e2]; exact htxb) (by rw [e3]; exact hwrote)
    (by rw [hpast]; exact hdone) (by rw [hpast]; exact hapx) (by rw [e2]; exact hmine) (by rw [e3]; exact hidle)
  intro q hq
  rw [e2] at hq
  have := hO.bnd q hq
  omega

/-- A thread which reached the end of its loop without an error: everything of its own was attempted. -/
theorem mine_done {d : Disk} {s : State} (hL : Locks s) (hO : Ord d s) (t : Nat) (l : Option Nat)
    (h : (s.thr t).pc = .sub l false .empty) (q : Sqe) (hq : q ∈ (s.thr t).mine) : q ∈ s.log.map (·.1) := by
  obtain ⟨hs, ha⟩ := hO.mine t q hq
  rw [h] at ha
  have ha : q.id ≤ (s.thr t).apex := by rcases ha with ha | ha; exact ha; cases ha
  have hemp := hL.emp t l false h
  have hhand : inHand s = [] := by
    unfold inHand
    rw [(hL.mx t).mpr (by rw [h]; rfl)]
    simp only
    rw [h]; rfl
  have hincr := hO.incr
  have hsp := hO.split
  rw [hsp] at hs
  rcases List.mem_append.mp hs with hs | hs
  · unfold past at hs
    rw [hhand, List.append_nil] at hs
    rcases List.mem_append.mp hs with hs | hs
    · exact hs
    · exfalso
      cases hqu : s.queue with
      | nil => rw [hqu] at hs; cases hs
      | cons a r =>
        rw [hqu] at hs hemp
        unfold getSqe at hemp
        cases l with
        | none => simp at hemp
        | some k =>
          obtain ⟨hk, _⟩ := hL.lim t k false _ h
          simp only at hemp
          split at hemp
          · rename_i hgt
            rcases List.mem_cons.mp hs with rfl | hs
            · omega
            · rw [hsp] at hincr
              unfold past at hincr
              rw [hqu, List.map_append, List.pairwise_append] at hincr
              have h1 := hincr.1
              rw [List.map_append, List.pairwise_append] at h1
              have h2 := h1.2.1
              rw [List.map_cons, List.pairwise_cons] at h2
              have := h2.1 q.id (List.mem_map.mpr ⟨q, hs, rfl⟩)
              omega
          · cases hemp
  · exfalso
    rw [hsp, List.map_append, List.pairwise_append] at hincr
    rcases hO.apx t with h0 | ⟨p, hp, he⟩
    · have := (hO.bnd q (by rw [hsp]; exact List.mem_append_right _ hs)).1
      omega
    · have := hincr.2.2 p.id (List.mem_map.mpr ⟨p, hp, rfl⟩) q.id (List.mem_map.mpr ⟨q, hs, rfl⟩)
      omega

theorem ord_step {d : Disk} {s s' : State} (hL : Locks s) (hO : Ord d s) (h : Step s s') : Ord d s' := by
  have mx : ∀ t, hasMx (s.thr t).pc = true → s.mutex = some t := fun t => (hL.mx t).mpr
  cases h with
  | ref t n => exact ⟨hO.1, hO.2, hO.3, hO.4, hO.5, hO.6, hO.7, hO.8, hO.9, hO.10, hO.11, hO.12⟩
  | unref t n h => exact ⟨hO.1, hO.2, hO.3, hO.4, hO.5, hO.6, hO.7, hO.8, hO.9, hO.10, hO.11, hO.12⟩
  | lockFs t h h1 =>
    have hp : inPush { s with fsl := some t } = inPush s := by
      unfold inPush; rw [h1]; simp only; rw [h]; rfl
    exact ⟨by rw [hp]; exact hO.1, hO.2, hO.3, hO.4, hO.5, hO.6, hO.7, hO.8, hO.9, hO.10, hO.11, hO.12⟩
  | unlockFs t h h1 h2 =>
    have hp : inPush { s with fsl := none } = inPush s := by
      unfold inPush; rw [h1]; simp only; rw [h]; rfl
    exact ⟨by rw [hp]; exact hO.1, hO.2, hO.3, hO.4, hO.5, hO.6, hO.7, hO.8, hO.9, hO.10, hO.11, hO.12⟩
  | begin t h =>
    exact ord_own hO t _ rfl rfl rfl rfl rfl (Nat.le_refl _) rfl (by rw [h]; rfl) (Or.inl rfl) (by rw [h]; rfl)
      List.Pairwise.nil (fun q hq => (nomatch hq)) (fun l i q b hp => by rcases hp with hp | hp <;> cases hp)
      (fun q hp => (nomatch hp)) (Or.inl rfl) (fun q hq => (nomatch hq)) (fun hp => (nomatch hp))
  | make t q h h1 hq =>
    refine ord_own hO t _ rfl rfl rfl rfl rfl (Nat.le_succ _) rfl rfl (Or.inl rfl) rfl ?_ ?_
      (hO.wrote t) (hO.done t) (hO.apx t) (hO.mine t) (hO.idle t)
    · simp only
      rw [List.map_append, List.pairwise_append]
      refine ⟨hO.txi t, by simp, ?_⟩
      intro a ha b hb
      obtain ⟨p, hp, rfl⟩ := List.mem_map.mp ha
      have := (hO.txb t p hp).2.1
      simp only [List.map_cons, List.map_nil, List.mem_singleton] at hb
      omega
    · intro p hp
      rcases List.mem_append.mp hp with hp | hp
      · have := hO.txb t p hp
        exact ⟨this.1, Nat.lt_succ_of_lt this.2.1, this.2.2⟩
      · rw [List.mem_singleton] at hp
        subst hp
        have := hO.nxt
        exact ⟨by omega, by show p.id < s.next + 1; omega, fun r hr => by have := (hO.bnd r hr).2; omega⟩
  | discard t q r h h1 h2 =>
    have e := hO.txi t
    have e' := hO.txb t
    rw [h2] at e e'
    exact ord_own hO t _ rfl rfl rfl rfl rfl (Nat.le_refl _) rfl rfl (Or.inl rfl) rfl (List.pairwise_cons.mp e).2
      (fun p hp => e' p (by simp [hp])) (hO.wrote t) (hO.done t) (hO.apx t) (hO.mine t) (hO.idle t)
  | submitTx t q r h h1 h2 =>
    have e := hO.txi t
    have e' := hO.txb t
    rw [h2] at e e'
    have hpast : past { setThr s t { s.thr t with tx := r, pc := .enq q, mine := (s.thr t).mine ++ [q] } with
        sent := s.sent ++ [q] } = past s := by
      have e : inHand { setThr s t { s.thr t with tx := r, pc := .enq q, mine := (s.thr t).mine ++ [q] } with
        sent := s.sent ++ [q] } = inHand s :=
        inHand_same (t := t) (x := { s.thr t with tx := r, pc := .enq q, mine := (s.thr t).mine ++ [q] }) rfl
          (by simp only; rw [h]; rfl) (Or.inl rfl)
      unfold past
      rw [e]
      rfl
    have hp0 : inPush s = [] := by unfold inPush; rw [h1]; simp only; rw [h]; rfl
    have hp1 : inPush { setThr s t { s.thr t with tx := r, pc := .enq q, mine := (s.thr t).mine ++ [q] } with
        sent := s.sent ++ [q] } = [q] := by
      unfold inPush
      have hf : ({ setThr s t { s.thr t with tx := r, pc := .enq q, mine := (s.thr t).mine ++ [q] } with
        sent := s.sent ++ [q] } : State).fsl = some t := h1
      rw [hf]
      simp [setThr, pend]
    refine ord_upd hO t _ rfl (fun p hp => by simp [hp]) (fun p hp => hp) (by rw [hpast]; exact fun p hp => hp) ?_ ?_ ?_
      (Nat.le_refl _) hO.disk (Or.inr ?_) (List.pairwise_cons.mp e).2 ?_ ?_ ?_ ?_ ?_ ?_
    · rw [hpast, hp1]
      show s.sent ++ [q] = _
      have := hO.split
      rw [hp0, List.append_nil] at this
      rw [this]
    · show ((s.sent ++ [q]).map Sqe.id).Pairwise _
      rw [List.map_append, List.pairwise_append]
      refine ⟨hO.incr, by simp, ?_⟩
      intro a ha b hb
      obtain ⟨p, hp, rfl⟩ := List.mem_map.mp ha
      simp only [List.map_cons, List.map_nil, List.mem_singleton] at hb
      rw [hb]
      exact (e' q (by simp)).2.2 p hp
    · intro p hp
      rcases List.mem_append.mp hp with hp | hp
      · exact hO.bnd p hp
      · rw [List.mem_singleton] at hp
        subst hp
        exact ⟨(e' p (by simp)).1, (e' p (by simp)).2.1⟩
    · intro u hu
      cases hx : (s.thr u).tx with
      | nil => rfl
      | cons a b =>
        have := hL.tx u (by rw [hx]; simp)
        rw [h1] at this
        cases this
        exact absurd rfl hu
    · intro p hp
      refine ⟨(e' p (by simp [hp])).1, (e' p (by simp [hp])).2.1, ?_⟩
      intro a ha
      rcases List.mem_append.mp ha with ha | ha
      · exact (e' p (by simp [hp])).2.2 a ha
      · rw [List.mem_singleton] at ha
        subst ha
        exact (List.pairwise_cons.mp e).1 p.id (List.mem_map.mpr ⟨p, hp, rfl⟩)
    · intro l i q b hp; rcases hp with hp | hp <;> cases hp
    · intro q hp; cases hp
    · rw [hpast]; exact hO.apx t
    · intro p hp
      rcases List.mem_append.mp hp with hp | hp
      · obtain ⟨m1, m2⟩ := hO.mine t p hp
        rw [h] at m2
        refine ⟨List.mem_append_left _ m1, ?_⟩
        rcases m2 with m2 | m2
        · exact Or.inl m2
        · cases m2
      · rw [List.mem_singleton] at hp
        subst hp
        exact ⟨by simp, Or.inr (by simp [mid])⟩
    · intro hp; cases hp
  | now t h h1 h2 =>
    have m := hO.mine t
    rw [h] at m
    exact ord_own hO t _ rfl rfl rfl rfl rfl (Nat.le_refl _) rfl (by simp only; rw [h]; rfl) (Or.inl rfl)
      (by simp only; rw [h]; rfl) (hO.txi t) (hO.txb t) (fun l i q b hp => by rcases hp with hp | hp <;> cases hp)
      (fun q hp => (nomatch hp)) (hO.apx t) m (fun hp => (nomatch hp))
  | finAll t h h1 =>
    have m := hO.mine t
    rw [h] at m
    exact ord_own hO t _ rfl rfl rfl rfl rfl (Nat.le_refl _) rfl (by simp only; rw [h]; rfl) (Or.inl rfl)
      (by simp only; rw [h]; rfl) (hO.txi t) (hO.txb t) (fun l i q b hp => by rcases hp with hp | hp <;> cases hp)
      (fun q hp => (nomatch hp)) (hO.apx t) m (fun hp => (nomatch hp))
  | finSome t h h1 =>
    have m := hO.mine t
    rw [h] at m
    exact ord_own hO t _ rfl rfl rfl rfl rfl (Nat.le_refl _) rfl (by simp only; rw [h]; rfl) (Or.inl rfl)
      (by simp only; rw [h]; rfl) (hO.txi t) (hO.txb t) (fun l i q b hp => by rcases hp with hp | hp <;> cases hp)
      (fun q hp => (nomatch hp)) (hO.apx t) m (fun hp => (nomatch hp))
  | finNone t h h1 h2 =>
    have m := hO.mine t
    rw [h] at m
    refine ord_own hO t _ rfl rfl rfl rfl rfl (Nat.le_refl _) rfl (by simp only; rw [h]; rfl) (Or.inl rfl)
      (by simp only; rw [h]; rfl) (hO.txi t) (hO.txb t) (fun l i q b hp => by rcases hp with hp | hp <;> cases hp)
      (fun q hp => (nomatch hp)) (hO.apx t) m ?_
    intro _ _ q hq
    obtain ⟨m1, m2⟩ := m q hq
    have := (hO.bnd q m1).1
    rw [h2] at m2
    rcases m2 with m2 | m2
    · omega
    · cases m2
  | enq t q h h1 =>
    have m := hO.mine t
    rw [h] at m
    exact ord_own hO t _ rfl rfl rfl rfl rfl (Nat.le_refl _) rfl (by simp only; rw [h]; rfl) (Or.inr (Or.inl ⟨h1, rfl, rfl⟩))
      (by simp only; rw [h]; rfl) (hO.txi t) (hO.txb t) (fun l i q b hp => by rcases hp with hp | hp <;> cases hp)
      (fun q hp => (nomatch hp)) (hO.apx t) m (fun hp => (nomatch hp))
  | push t q h =>
    have m := hO.mine t
    rw [h] at m
    have hf : s.fsl = some t := hL.ins t (by rw [h]; rfl)
    have hpast : past { setThr s t { s.thr t with pc := .enqDone q } with queue := s.queue ++ [q] } = past s ++ [q] := by
      have e : inHand { setThr s t { s.thr t with pc := .enqDone q } with queue := s.queue ++ [q] } = inHand s :=
        inHand_same (t := t) (x := { s.thr t with pc := .enqDone q }) rfl (by simp only; rw [h]; rfl) (Or.inl rfl)
      unfold past
      rw [e]
      show s.log.map (·.1) ++ inHand s ++ (s.queue ++ [q]) = _
      rw [← List.append_assoc]
    have hp0 : inPush s = [q] := by unfold inPush; rw [hf]; simp only; rw [h]; rfl
    have hp1 : inPush { setThr s t { s.thr t with pc := .enqDone q } with queue := s.queue ++ [q] } = [] := by
      unfold inPush
      have hf : ({ setThr s t { s.thr t with pc := .enqDone q } with queue := s.queue ++ [q] } : State).fsl = some t := hf
      rw [hf]
      simp [setThr, pend]
    have hmono : ∀ p ∈ past s, p ∈ past s ++ [q] := fun p hp => List.mem_append_left _ hp
    refine ord_upd hO t _ rfl (fun p hp => hp) (fun p hp => hp) (by rw [hpast]; exact hmono) ?_ hO.incr hO.bnd (Nat.le_refl _)
      hO.disk (Or.inl rfl) (hO.txi t) (hO.txb t) (fun l i q b hp => by rcases hp with hp | hp <;> cases hp) ?_ ?_ m
      (fun hp => (nomatch hp))
    · rw [hpast, hp1, List.append_nil]
      have := hO.split
      rw [hp0] at this
      exact this
    · intro p hp
      cases hp
      rw [hpast]
      simp
    · rw [hpast]
      rcases hO.apx t with h0 | ⟨p, hp, e⟩
      · exact Or.inl h0
      · exact Or.inr ⟨p, hmono p hp, e⟩
  | enqEnd t q h =>
    have m := hO.mine t
    rw [h] at m
    refine ord_own hO t _ rfl rfl rfl rfl rfl (Nat.le_refl _) rfl (by simp only; rw [h]; rfl)
      (Or.inr (Or.inr ⟨mx t (by rw [h]; rfl), rfl, rfl⟩))
      (by simp only; rw [h]; rfl) (hO.txi t) (hO.txb t) (fun l i q b hp => by rcases hp with hp | hp <;> cases hp)
      (fun q hp => (nomatch hp)) ?_ ?_ (fun hp => (nomatch hp))
    · simp only
      split
      · exact Or.inr ⟨q, hO.done t q h, rfl⟩
      · exact hO.apx t
    · intro p hp
      obtain ⟨m1, m2⟩ := m p hp
      refine ⟨m1, Or.inl ?_⟩
      simp only
      rcases m2 with m2 | m2
      · split <;> omega
      · simp only [mid, List.mem_singleton] at m2
        subst m2
        split <;> omega
  | lock t l i h h1 =>
    have m := hO.mine t
    rw [h] at m
    exact ord_own hO t _ rfl rfl rfl rfl rfl (Nat.le_refl _) rfl (by simp only; rw [h]; rfl) (Or.inr (Or.inl ⟨h1, rfl, rfl⟩))
      (by simp only; rw [h]; rfl) (hO.txi t) (hO.txb t) (fun l i q b hp => by rcases hp with hp | hp <;> cases hp)
      (fun q hp => (nomatch hp)) (hO.apx t) m (fun hp => (nomatch hp))
  | none t l i h h1 =>
    have m := hO.mine t
    rw [h] at m
    exact ord_own hO t _ rfl rfl rfl rfl rfl (Nat.le_refl _) rfl (by simp only; rw [h]; rfl) (Or.inl rfl)
      (by simp only; rw [h]; rfl) (hO.txi t) (hO.txb t) (fun l i q b hp => by rcases hp with hp | hp <;> cases hp)
      (fun q hp => (nomatch hp)) (hO.apx t) m (fun hp => (nomatch hp))
  | take t l i q r h h1 h2 =>
    have m := hO.mine t
    rw [h] at m
    have hmx := mx t (by rw [h]; rfl)
    have hh0 : inHand s = [] := by unfold inHand; rw [hmx]; simp only; rw [h]; rfl
    have hh1 : inHand { setThr s t { s.thr t with pc := .sub l i (.took q) } with queue := r } = [q] := by
      unfold inHand
      have : ({ setThr s t { s.thr t with pc := .sub l i (.took q) } with queue := r } : State).mutex = some t := hmx
      rw [this]; simp [setThr, hand]
    have hpast : past { setThr s t { s.thr t with pc := .sub l i (.took q) } with queue := r } = past s := by
      unfold past
      rw [hh0, hh1, h1]
      show s.log.map (·.1) ++ [q] ++ r = _
      simp
    have hpush : inPush { setThr s t { s.thr t with pc := .sub l i (.took q) } with queue := r } = inPush s :=
      inPush_same (t := t) (x := { s.thr t with pc := .sub l i (.took q) }) rfl rfl (by simp only; rw [h]; rfl)
    exact ord_upd hO t _ rfl (fun p hp => hp) (fun p hp => hp) (by rw [hpast]; exact fun p hp => hp)
      (by rw [hpast, hpush]; exact hO.split) hO.incr hO.bnd (Nat.le_refl _)
      hO.disk (Or.inl rfl) (hO.txi t) (hO.txb t) (fun l i q b hp => by rcases hp with hp | hp <;> cases hp)
      (fun p hp => (nomatch hp)) (by rw [hpast]; exact hO.apx t) m (fun hp => (nomatch hp))
  | write t l i q b h =>
    have m := hO.mine t
    rw [h] at m
    have hmx := mx t (by rw [h]; rfl)
    have hh0 : inHand s = [q] := by unfold inHand; rw [hmx]; simp only; rw [h]; rfl
    generalize hs' : ({ setThr s t { s.thr t with pc := .sub l i (.wrote q b) } with
             disk := if b then s.disk else writev s.disk q.laddr.lsid q.laddr.pos q.iov
             log := s.log ++ [(q, b)] } : State) = s'
    have f1 : s'.mutex = some t := by rw [← hs']; exact hmx
    have f2 : s'.thr = (setThr s t { s.thr t with pc := .sub l i (.wrote q b) }).thr := by rw [← hs']
    have f3 : s'.log = s.log ++ [(q, b)] := by rw [← hs']
    have f4 : s'.queue = s.queue := by rw [← hs']; rfl
    have f5 : s'.sent = s.sent := by rw [← hs']; rfl
    have f6 : s'.disk = if b then s.disk else writev s.disk q.laddr.lsid q.laddr.pos q.iov := by rw [← hs']
    have f7 : s'.next = s.next := by rw [← hs']; rfl
    have f8 : s'.fsl = s.fsl := by rw [← hs']; rfl
    have hh1 : inHand s' = [] := by
      unfold inHand; rw [f1]; simp only; rw [f2, setThr_eq]; rfl
    have hpast : past s' = past s := by
      unfold past
      rw [hh0, hh1, f3, f4, List.map_append, List.append_nil]
      rfl
    have hpush : inPush s' = inPush s := inPush_same f2 f8 (by simp only; rw [h]; rfl)
    have hlog : ∀ y ∈ s.log, y ∈ s'.log := fun y hy => by rw [f3]; exact List.mem_append_left _ hy
    refine ord_upd hO t _ f2 (by rw [f5]; exact fun p hp => hp) hlog (by rw [hpast]; exact fun p hp => hp)
      (by rw [f5, hpast, hpush]; exact hO.split) (by rw [f5]; exact hO.incr) (by rw [f5, f7]; exact hO.bnd)
      (by rw [f7]; exact Nat.le_refl _) ?_ (Or.inl f5) (hO.txi t) (by rw [f5, f7]; exact hO.txb t) ?_
      (fun p hp => (nomatch hp)) (by rw [hpast]; exact hO.apx t) (by rw [f5]; exact m) (fun hp => (nomatch hp))
    · rw [f6, f3]
      unfold written
      rw [List.foldl_append]
      show _ = if b then written d s.log else wr (written d s.log) q
      rw [← hO.disk]
      rfl
    · intro l' i' q' b' hp
      rcases hp with hp | hp
      · cases hp; rw [f3]; simp
      · cases hp
  | unlock t l i q b h =>
    have m := hO.mine t
    rw [h] at m
    refine ord_own hO t _ rfl rfl rfl rfl rfl (Nat.le_refl _) rfl (by simp only; rw [h]; rfl)
      (Or.inr (Or.inr ⟨mx t (by rw [h]; rfl), rfl, rfl⟩))
      (by simp only; rw [h]; rfl) (hO.txi t) (hO.txb t) ?_
      (fun q hp => (nomatch hp)) (hO.apx t) m (fun hp => (nomatch hp))
    intro l' i' q' b' hp
    rcases hp with hp | hp
    · cases hp
    · cases hp; exact hO.wrote t l i q b (Or.inl h)
  | failed t l i q h =>
    have m := hO.mine t
    rw [h] at m
    refine ord_own hO t _ rfl rfl rfl rfl rfl (Nat.le_refl _) rfl (by simp only; rw [h]; cases i <;> rfl) (Or.inl rfl)
      (by simp only; rw [h]; cases i <;> rfl) (hO.txi t) (hO.txb t)
      (fun l i' q b hp => by simp only at hp; cases i <;> simp at hp)
      (fun q hp => by simp only at hp; cases i <;> simp at hp) (hO.apx t) ?_ (fun _ hb => (nomatch hb))
    intro p hp
    obtain ⟨m1, m2⟩ := m p hp
    exact ⟨m1, by rcases m2 with m2 | m2; exact Or.inl m2; cases m2⟩
  | again t l i q h =>
    have m := hO.mine t
    rw [h] at m
    exact ord_own hO t _ rfl rfl rfl rfl rfl (Nat.le_refl _) rfl (by simp only; rw [h]; rfl) (Or.inl rfl)
      (by simp only; rw [h]; rfl) (hO.txi t) (hO.txb t) (fun l i q b hp => by rcases hp with hp | hp <;> cases hp)
      (fun q hp => (nomatch hp)) (hO.apx t) m (fun hp => (nomatch hp))
  | stop t l i h =>
    have m := hO.mine t
    rw [h] at m
    refine ord_own hO t _ rfl rfl rfl rfl rfl (Nat.le_refl _) rfl (by simp only; rw [h]; cases i <;> rfl)
      (Or.inr (Or.inr ⟨mx t (by rw [h]; rfl), rfl, by cases i <;> rfl⟩))
      (by simp only; rw [h]; cases i <;> rfl) (hO.txi t) (hO.txb t)
      (fun l i' q b hp => by simp only at hp; cases i <;> simp at hp)
      (fun q hp => by simp only at hp; cases i <;> simp at hp) (hO.apx t) ?_ ?_
    · intro p hp
      obtain ⟨m1, m2⟩ := m p hp
      exact ⟨m1, by rcases m2 with m2 | m2; exact Or.inl m2; cases m2⟩
    · intro hp _ q hq
      cases i with
      | true => simp at hp
      | false => exact mine_done hL hO t l h q hq

theorem ord_run {d : Disk} {evs : List Ev} {s : State} (h : run (init d) evs = some s) : Ord d s :=
  (run_inv (P := fun s => Locks s ∧ Ord d s) (fun _ _ hp hs => ⟨locks_step hp.1 hs, ord_step hp.1 hp.2 hs⟩) evs _ _
    ⟨locks_init d, ord_init d⟩ h).2

end Silofs.Smq
