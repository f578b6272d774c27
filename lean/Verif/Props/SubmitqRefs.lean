import Verif.Props.SubmitqOrd
set_option linter.unusedSimpArgs false
set_option linter.unusedVariables false
/-
C68, basis: who keeps the objects of writes which are not done yet.
-/
namespace Silofs.Smq
open Silofs.Flush

/-- The entry which a thread has in its hands. -/
def own : Pc → List Sqe
  | .enq q | .enqLocked q => [q]
  | .sub _ _ (.took q) | .sub _ _ (.wrote q _) | .sub _ _ (.left q _) => [q]
  | _ => []

def has (x : Thr) (q : Sqe) : Prop := q ∈ x.tx ∨ q ∈ own x.pc

/-- The entry exists. -/
def Where (s : State) (q : Sqe) : Prop := q ∈ s.queue ∨ ∃ t, has (s.thr t) q

structure Refs (s : State) : Prop where
  uniq : ∀ t u q, q ∈ own (s.thr t).pc → q ∈ own (s.thr u).pc → t = u
  live : ∃ l : List Sqe, l.Nodup ∧ (∀ q, q ∈ l ↔ Where s q) ∧
    ∀ n, s.refs n = (s.held n : Int) + ((l.map fun q => q.refs.count n).sum : Nat)

theorem refs_init (d : Disk) : Refs (init d) := by
  refine ⟨fun t u q h => (nomatch h), [], List.nodup_nil, ?_, fun n => rfl⟩
  intro q
  constructor
  · intro h; cases h
  · rintro (h | ⟨t, h | h⟩) <;> cases h

theorem where_upd {s s' : State} {t : Nat} {x : Thr} (e : s'.thr = (setThr s t x).thr) (q : Sqe) :
    Where s' q ↔ q ∈ s'.queue ∨ has x q ∨ ∃ u, u ≠ t ∧ has (s.thr u) q := by
  unfold Where
  constructor
  · rintro (h | ⟨u, h⟩)
    · exact Or.inl h
    · by_cases hu : u = t
      · subst hu; rw [e, setThr_eq] at h; exact Or.inr (Or.inl h)
      · rw [e, setThr_ne _ _ _ _ hu] at h; exact Or.inr (Or.inr ⟨u, hu, h⟩)
  · rintro (h | h | ⟨u, hu, h⟩)
    · exact Or.inl h
    · exact Or.inr ⟨t, by rw [e, setThr_eq]; exact h⟩
    · exact Or.inr ⟨u, by rw [e, setThr_ne _ _ _ _ hu]; exact h⟩

theorem where_own (s : State) (t : Nat) (q : Sqe) :
    Where s q ↔ q ∈ s.queue ∨ has (s.thr t) q ∨ ∃ u, u ≠ t ∧ has (s.thr u) q := by
  unfold Where
  constructor
  · rintro (h | ⟨u, h⟩)
    · exact Or.inl h
    · by_cases hu : u = t
      · subst hu; exact Or.inr (Or.inl h)
      · exact Or.inr (Or.inr ⟨u, hu, h⟩)
  · rintro (h | h | ⟨u, hu, h⟩)
    · exact Or.inl h
    · exact Or.inr ⟨t, h⟩
    · exact Or.inr ⟨u, h⟩

/-- Where a held entry is in the order of all entries. -/
theorem own_cases {d : Disk} {s : State} (hL : Locks s) (hO : Ord d s) (t : Nat) (q : Sqe) (h : q ∈ own (s.thr t).pc) :
    (q ∈ inPush s ∧ s.fsl = some t) ∨ (q ∈ inHand s ∧ s.mutex = some t) ∨ q ∈ s.log.map (·.1) := by
  generalize hp : (s.thr t).pc = pc at h
  unfold own at h
  split at h
  · rw [List.mem_singleton] at h; subst h
    have hf := hL.ins t (by rw [hp]; rfl)
    exact Or.inl ⟨by unfold inPush; rw [hf]; simp only; rw [hp]; simp [pend], hf⟩
  · rw [List.mem_singleton] at h; subst h
    have hf := hL.ins t (by rw [hp]; rfl)
    exact Or.inl ⟨by unfold inPush; rw [hf]; simp only; rw [hp]; simp [pend], hf⟩
  · rw [List.mem_singleton] at h; subst h
    have hm := (hL.mx t).mpr (by rw [hp]; rfl)
    exact Or.inr (Or.inl ⟨by unfold inHand; rw [hm]; simp only; rw [hp]; simp [hand], hm⟩)
  · rename_i l i q' b
    rw [List.mem_singleton] at h; subst h
    exact Or.inr (Or.inr (List.mem_map.mpr ⟨_, hO.wrote t l i q b (Or.inl hp), rfl⟩))
  · rename_i l i q' b
    rw [List.mem_singleton] at h; subst h
    exact Or.inr (Or.inr (List.mem_map.mpr ⟨_, hO.wrote t l i q b (Or.inr hp), rfl⟩))
  · cases h

theorem sent_nodup {d : Disk} {s : State} (hO : Ord d s) :
    (s.log.map (·.1) ++ inHand s ++ s.queue ++ inPush s).Nodup := by
  have h := hO.incr
  rw [hO.split] at h
  have h2 := List.pairwise_map.mp h
  exact h2.imp (fun hab e => by subst e; exact Nat.lt_irrefl _ hab)

theorem own_sent {d : Disk} {s : State} (hL : Locks s) (hO : Ord d s) (t : Nat) (q : Sqe) (h : q ∈ own (s.thr t).pc) :
    q ∈ s.sent := by
  rw [hO.split]
  unfold past
  rcases own_cases hL hO t q h with h | h | h
  · simp [h.1]
  · simp [h.1]
  · exact List.mem_append_left _ (List.mem_append_left _ (List.mem_append_left _ h))

theorem tx_not_sent {d : Disk} {s : State} (hO : Ord d s) (t : Nat) (q : Sqe) (h : q ∈ (s.thr t).tx) : q ∉ s.sent :=
  fun hs => Nat.lt_irrefl _ ((hO.txb t q h).2.2 q hs)

theorem queue_sent {d : Disk} {s : State} (hO : Ord d s) (q : Sqe) (h : q ∈ s.queue) : q ∈ s.sent := by
  rw [hO.split]; unfold past; simp [h]

theorem queue_not_own {d : Disk} {s : State} (hL : Locks s) (hO : Ord d s) (t : Nat) (q : Sqe) (h : q ∈ s.queue) :
    q ∉ own (s.thr t).pc := by
  intro ho
  have hn := sent_nodup hO
  rw [List.nodup_append, List.nodup_append] at hn
  rcases own_cases hL hO t q ho with h1 | h1 | h1
  · exact hn.2.2 q (by simp [h]) q h1.1 rfl
  · exact hn.1.2.2 q (by simp [h1.1]) q h rfl
  · exact hn.1.2.2 q (List.mem_append_left _ h1) q h rfl

theorem uniq_upd {s s' : State} (hu : ∀ t u q, q ∈ own (s.thr t).pc → q ∈ own (s.thr u).pc → t = u) {t : Nat} {x : Thr}
    (e : s'.thr = (setThr s t x).thr)
    (hx : ∀ q ∈ own x.pc, q ∈ own (s.thr t).pc ∨ ∀ u, u ≠ t → q ∉ own (s.thr u).pc) :
    ∀ t u q, q ∈ own (s'.thr t).pc → q ∈ own (s'.thr u).pc → t = u := by
  intro a b q ha hb
  rw [e] at ha hb
  by_cases h1 : a = t
  · by_cases h2 : b = t
    · rw [h1, h2]
    · subst h1
      rw [setThr_eq] at ha
      rw [setThr_ne _ _ _ _ h2] at hb
      rcases hx q ha with h | h
      · exact hu _ _ q h hb
      · exact absurd hb (h b h2)
  · rw [setThr_ne _ _ _ _ h1] at ha
    by_cases h2 : b = t
    · subst h2
      rw [setThr_eq] at hb
      rcases hx q hb with h | h
      · exact hu _ _ q ha h
      · exact absurd ha (h a h1)
    · rw [setThr_ne _ _ _ _ h2] at hb
      exact hu _ _ q ha hb

/-- A step of one thread which neither makes an entry nor frees one. -/
theorem refs_same {s s' : State} (hR : Refs s) (t : Nat) (x : Thr) (e1 : s'.thr = (setThr s t x).thr)
    (e2 : s'.refs = s.refs) (e3 : s'.held = s.held)
    (hx : ∀ q ∈ own x.pc, q ∈ own (s.thr t).pc ∨ ∀ u, u ≠ t → q ∉ own (s.thr u).pc)
    (hq : ∀ q, (q ∈ s'.queue ∨ has x q) ↔ (q ∈ s.queue ∨ has (s.thr t) q)) : Refs s' := by
  refine ⟨uniq_upd hR.uniq e1 hx, ?_⟩
  obtain ⟨l, h1, h2, h3⟩ := hR.live
  refine ⟨l, h1, fun q => ?_, by rw [e2, e3]; exact h3⟩
  rw [h2, where_own s t, where_upd e1, ← or_assoc, ← or_assoc, hq]

/-- ... which frees entry `q`. -/
theorem refs_del {s s' : State} (hR : Refs s) (t : Nat) (x : Thr) (q : Sqe) (e1 : s'.thr = (setThr s t x).thr)
    (e2 : s'.refs = addRefs s.refs q (-1)) (e3 : s'.held = s.held) (e4 : s'.queue = s.queue)
    (hx : ∀ p ∈ own x.pc, p ∈ own (s.thr t).pc)
    (h0 : has (s.thr t) q) (hq : ∀ p, has x p ↔ (p ≠ q ∧ has (s.thr t) p))
    (hn : q ∉ s.queue) (ho : ∀ u, u ≠ t → ¬ has (s.thr u) q) : Refs s' := by
  refine ⟨uniq_upd hR.uniq e1 (fun p hp => Or.inl (hx p hp)), ?_⟩
  obtain ⟨l, h1, h2, h3⟩ := hR.live
  have hql : q ∈ l := (h2 q).mpr (Or.inr ⟨t, h0⟩)
  refine ⟨l.erase q, h1.erase q, fun p => ?_, fun n => ?_⟩
  · rw [h1.mem_erase_iff, h2, where_own s t, where_upd e1, e4, hq]
    constructor
    · rintro ⟨hne, h | h | h⟩
      · exact Or.inl h
      · exact Or.inr (Or.inl ⟨hne, h⟩)
      · exact Or.inr (Or.inr h)
    · rintro (h | h | ⟨u, hu, h⟩)
      · exact ⟨fun e => hn (e ▸ h), Or.inl h⟩
      · exact ⟨h.1, Or.inr (Or.inl h.2)⟩
      · exact ⟨fun e => ho u hu (e ▸ h), Or.inr (Or.inr ⟨u, hu, h⟩)⟩
  · rw [e2, e3]
    unfold addRefs
    rw [h3]
    have hp := List.perm_cons_erase hql
    have := (hp.map fun q => q.refs.count n).sum_nat
    rw [this]
    simp only [List.map_cons, List.sum_cons]
    omega

theorem refs_step {d : Disk} {s s' : State} (hL : Locks s) (hO : Ord d s) (hR : Refs s) (h : Step s s') : Refs s' := by
  have nil : ∀ (t : Nat) (x : Thr), own x.pc = [] →
      ∀ q ∈ own x.pc, q ∈ own (s.thr t).pc ∨ ∀ u, u ≠ t → q ∉ own (s.thr u).pc :=
    fun t x hx q hq => by rw [hx] at hq; cases hq
  have eqo : ∀ (t : Nat) (x : Thr), own x.pc = own (s.thr t).pc →
      ∀ q ∈ own x.pc, q ∈ own (s.thr t).pc ∨ ∀ u, u ≠ t → q ∉ own (s.thr u).pc :=
    fun t x hx q hq => Or.inl (hx ▸ hq)
  have eqh : ∀ (t : Nat) (x : Thr), own x.pc = own (s.thr t).pc → x.tx = (s.thr t).tx →
      ∀ q, (q ∈ s.queue ∨ has x q) ↔ (q ∈ s.queue ∨ has (s.thr t) q) :=
    fun t x h1 h2 q => by unfold has; rw [h1, h2]
  cases h with
  | begin t h =>
    refine refs_same hR t _ rfl rfl rfl (nil t _ rfl) (eqh t _ (by rw [h]; rfl) ?_)
    show [] = _
    cases hx : (s.thr t).tx with
    | nil => rfl
    | cons a b =>
      exfalso
      have hf := hL.tx t (by rw [hx]; simp)
      exact (hL.out t (by rw [h]; rfl)) hf
  | lockFs t h h1 => exact ⟨hR.1, hR.2⟩
  | unlockFs t h h1 h2 => exact ⟨hR.1, hR.2⟩
  | ref t n =>
    refine ⟨hR.1, ?_⟩
    obtain ⟨l, h1, h2, h3⟩ := hR.live
    refine ⟨l, h1, h2, fun m => ?_⟩
    have := h3 m
    simp only
    split <;> omega
  | unref t n h =>
    refine ⟨hR.1, ?_⟩
    obtain ⟨l, h1, h2, h3⟩ := hR.live
    refine ⟨l, h1, h2, fun m => ?_⟩
    have := h3 m
    simp only
    split
    · rename_i e; subst e; omega
    · omega
  | make t q h h1 hq =>
    refine ⟨uniq_upd hR.uniq (t := t) (x := { s.thr t with tx := (s.thr t).tx ++ [q] }) rfl (eqo t _ rfl), ?_⟩
    obtain ⟨l, l1, l2, l3⟩ := hR.live
    have hno : q ∉ l := by
      intro hc
      have hs : ∀ p ∈ s.sent, p ≠ q := fun p hp e => by have := (hO.bnd p hp).2; rw [e] at this; omega
      rcases (l2 q).mp hc with hc | ⟨u, hc | hc⟩
      · exact hs q (queue_sent hO q hc) rfl
      · have := (hO.txb u q hc).2.1; omega
      · exact hs q (own_sent hL hO u q hc) rfl
    refine ⟨q :: l, List.nodup_cons.mpr ⟨hno, l1⟩, fun p => ?_, fun n => ?_⟩
    · refine Iff.trans ?_ (where_upd (s := s) (t := t) (x := { s.thr t with tx := (s.thr t).tx ++ [q] }) rfl p).symm
      rw [List.mem_cons, l2, where_own s t]
      unfold has
      show _ ↔ p ∈ s.queue ∨ (p ∈ (s.thr t).tx ++ [q] ∨ p ∈ own (s.thr t).pc) ∨ _
      rw [List.mem_append, List.mem_singleton]
      constructor
      · rintro (h | h | (h | h) | h)
        · exact Or.inr (Or.inl (Or.inl (Or.inr h)))
        · exact Or.inl h
        · exact Or.inr (Or.inl (Or.inl (Or.inl h)))
        · exact Or.inr (Or.inl (Or.inr h))
        · exact Or.inr (Or.inr h)
      · rintro (h | ((h | h) | h) | h)
        · exact Or.inr (Or.inl h)
        · exact Or.inr (Or.inr (Or.inl (Or.inl h)))
        · exact Or.inl h
        · exact Or.inr (Or.inr (Or.inl (Or.inr h)))
        · exact Or.inr (Or.inr (Or.inr h))
    · show addRefs s.refs q 1 n = (s.held n : Int) + _
      unfold addRefs
      rw [l3]
      simp only [List.map_cons, List.sum_cons]
      omega
  | discard t q r h h1 h2 =>
    have hqt : q ∈ (s.thr t).tx := by rw [h2]; simp
    have hns := tx_not_sent hO t q hqt
    have e := hO.txi t
    rw [h2, List.map_cons, List.pairwise_cons] at e
    refine refs_del hR t _ q rfl rfl rfl rfl (fun p hp => hp) (Or.inl hqt) ?_ (fun hc => hns (queue_sent hO q hc)) ?_
    · intro p
      unfold has
      simp only
      rw [h2, h, List.mem_cons]
      constructor
      · rintro (hp | hp)
        · refine ⟨fun e' => ?_, Or.inl (Or.inr hp)⟩
          subst e'
          exact Nat.lt_irrefl _ (e.1 p.id (List.mem_map.mpr ⟨p, hp, rfl⟩))
        · cases hp
      · rintro ⟨hne, (hp | hp) | hp⟩
        · exact absurd hp hne
        · exact Or.inl hp
        · cases hp
    · rintro u hu (hc | hc)
      · have := hL.tx u (fun e => by rw [e] at hc; cases hc)
        rw [h1] at this
        cases this
        exact hu rfl
      · exact hns (own_sent hL hO u q hc)
  | submitTx t q r h h1 h2 =>
    refine refs_same hR t _ rfl rfl rfl ?_ ?_
    · intro p hp
      right
      simp only [own, List.mem_singleton] at hp
      subst hp
      intro u hu hc
      exact tx_not_sent hO t p (by rw [h2]; simp) (own_sent hL hO u p hc)
    · intro p
      unfold has
      show (p ∈ s.queue ∨ (p ∈ r ∨ p ∈ [q])) ↔ _
      rw [h2, h]
      show _ ↔ (p ∈ s.queue ∨ (p ∈ q :: r ∨ p ∈ []))
      simp only [List.mem_cons, List.not_mem_nil, or_false]
      constructor
      · rintro (hp | hp | hp)
        · exact Or.inl hp
        · exact Or.inr (Or.inr hp)
        · exact Or.inr (Or.inl hp)
      · rintro (hp | hp | hp)
        · exact Or.inl hp
        · exact Or.inr (Or.inr hp)
        · exact Or.inr (Or.inl hp)
  | now t h h1 h2 => exact refs_same hR t _ rfl rfl rfl (nil t _ rfl) (eqh t _ (by simp only; rw [h]; rfl) rfl)
  | finAll t h h1 => exact refs_same hR t _ rfl rfl rfl (nil t _ rfl) (eqh t _ (by simp only; rw [h]; rfl) rfl)
  | finNone t h h1 h2 => exact refs_same hR t _ rfl rfl rfl (nil t _ rfl) (eqh t _ (by simp only; rw [h]; rfl) rfl)
  | finSome t h h1 => exact refs_same hR t _ rfl rfl rfl (nil t _ rfl) (eqh t _ (by simp only; rw [h]; rfl) rfl)
  | enq t q h h1 =>
    exact refs_same hR t _ rfl rfl rfl (eqo t _ (by simp only; rw [h]; rfl)) (eqh t _ (by simp only; rw [h]; rfl) rfl)
  | push t q h =>
    refine refs_same hR t _ rfl rfl rfl (nil t _ rfl) ?_
    intro p
    unfold has
    show (p ∈ s.queue ++ [q] ∨ (p ∈ (s.thr t).tx ∨ p ∈ [])) ↔ _
    rw [h]
    simp only [own, List.mem_append, List.mem_singleton, List.not_mem_nil, or_false]
    constructor
    · rintro ((hp | hp) | hp)
      · exact Or.inl hp
      · exact Or.inr (Or.inr hp)
      · exact Or.inr (Or.inl hp)
    · rintro (hp | hp | hp)
      · exact Or.inl (Or.inl hp)
      · exact Or.inr hp
      · exact Or.inl (Or.inr hp)
  | enqEnd t q h => exact refs_same hR t _ rfl rfl rfl (nil t _ rfl) (eqh t _ (by simp only; rw [h]; rfl) rfl)
  | lock t l i h h1 => exact refs_same hR t _ rfl rfl rfl (nil t _ rfl) (eqh t _ (by simp only; rw [h]; rfl) rfl)
  | none t l i h h1 => exact refs_same hR t _ rfl rfl rfl (nil t _ rfl) (eqh t _ (by simp only; rw [h]; rfl) rfl)
  | take t l i q r h h1 h2 =>
    refine refs_same hR t _ rfl rfl rfl ?_ ?_
    · intro p hp
      right
      simp only [own, List.mem_singleton] at hp
      subst hp
      exact fun u hu => queue_not_own hL hO u p (by rw [h1]; simp)
    · intro p
      unfold has
      show (p ∈ r ∨ (p ∈ (s.thr t).tx ∨ p ∈ [q])) ↔ _
      rw [h, h1]
      simp only [own, List.mem_cons, List.not_mem_nil, or_false]
      constructor
      · rintro (hp | hp | hp)
        · exact Or.inl (Or.inr hp)
        · exact Or.inr hp
        · exact Or.inl (Or.inl hp)
      · rintro ((hp | hp) | hp)
        · exact Or.inr (Or.inr hp)
        · exact Or.inl hp
        · exact Or.inr (Or.inl hp)
  | write t l i q b h =>
    exact refs_same hR t _ rfl rfl rfl (eqo t _ (by simp only; rw [h]; rfl)) (eqh t _ (by simp only; rw [h]; rfl) rfl)
  | unlock t l i q b h =>
    exact refs_same hR t _ rfl rfl rfl (eqo t _ (by simp only; rw [h]; rfl)) (eqh t _ (by simp only; rw [h]; rfl) rfl)
  | failed t l i q h =>
    have ho : q ∈ own (s.thr t).pc := by rw [h]; simp [own]
    have hs := own_sent hL hO t q ho
    have he : own (if i then Pc.run else Pc.idle) = [] := by cases i <;> rfl
    refine refs_del hR t _ q rfl rfl rfl rfl (by simp only; rw [he]; exact fun p hp => (nomatch hp)) (Or.inr ho) ?_
      (fun hc => queue_not_own hL hO t q hc ho) ?_
    · intro p
      unfold has
      simp only
      rw [he, h]
      simp only [own, List.not_mem_nil, or_false, List.mem_singleton]
      constructor
      · intro hp
        exact ⟨fun e => tx_not_sent hO t p hp (e ▸ hs), Or.inl hp⟩
      · rintro ⟨hne, hp | hp⟩
        · exact hp
        · exact absurd hp hne
    · rintro u hu (hc | hc)
      · exact tx_not_sent hO u q hc hs
      · exact hu (hR.uniq u t q hc ho)
  | again t l i q h =>
    have ho : q ∈ own (s.thr t).pc := by rw [h]; simp [own]
    have hs := own_sent hL hO t q ho
    refine refs_del hR t _ q rfl rfl rfl rfl (fun p hp => (nomatch hp)) (Or.inr ho) ?_
      (fun hc => queue_not_own hL hO t q hc ho) ?_
    · intro p
      unfold has
      simp only
      rw [h]
      simp only [own, List.not_mem_nil, or_false, List.mem_singleton]
      constructor
      · intro hp
        exact ⟨fun e => tx_not_sent hO t p hp (e ▸ hs), Or.inl hp⟩
      · rintro ⟨hne, hp | hp⟩
        · exact hp
        · exact absurd hp hne
    · rintro u hu (hc | hc)
      · exact tx_not_sent hO u q hc hs
      · exact hu (hR.uniq u t q hc ho)
  | stop t l i h =>
    have he : own (if i then Pc.run else Pc.idle) = [] := by cases i <;> rfl
    exact refs_same hR t _ rfl rfl rfl (nil t _ he) (eqh t _ (by simp only; rw [he, h]; rfl) rfl)

theorem refs_run {d : Disk} {evs : List Ev} {s : State} (h : run (init d) evs = some s) : Refs s :=
  (run_inv (P := fun s => (Locks s ∧ Ord d s) ∧ Refs s)
    (fun _ _ hp hs => ⟨⟨locks_step hp.1.1 hs, ord_step hp.1.1 hp.1.2 hs⟩, refs_step hp.1.1 hp.1.2 hp.2 hs⟩) evs _ _
    ⟨⟨locks_init d, ord_init d⟩, refs_init d⟩ h).2

end Silofs.Smq
