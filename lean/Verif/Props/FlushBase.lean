import Verif.Model.Flush
import Verif.Props.Avl
/-
C39, basis: storage, packing of dirty objects into writes, the set of objects of one flush.
-/
set_option linter.unusedSimpArgs false
set_option linter.unusedVariables false
namespace Silofs.Flush
open Silofs.Avl

/-- What is assumed of addresses and encryption: objects do not overlap (C19, C30), encryption keeps the length and is
undone by decryption (C29). -/
structure Env.Ok (e : Env) : Prop where
  disj : ∀ m n, m ≠ n → (e.addr m).lsid = (e.addr n).lsid →
    (e.addr m).pos + (e.addr m).len ≤ (e.addr n).pos ∨ (e.addr n).pos + (e.addr n).len ≤ (e.addr m).pos
  enc_len : ∀ n b, (e.enc n b).length = b.length
  dec_len : ∀ n b, (e.dec n b).length = b.length
  dec_enc : ∀ n b, e.dec n (e.enc n b) = b

/-! ### Storage -/

theorem readAt_write1_same (d : Disk) (a : Laddr) (b : Bytes) (h : b.length = a.len) :
    readAt (write1 d a.lsid a.pos b) a = b := by
  unfold readAt
  apply List.ext_getElem
  · simp [h]
  · intro k h1 h2
    have hk : k < b.length := h2
    simp only [List.getElem_map, List.getElem_range, write1]
    rw [if_pos ⟨trivial, by omega, by omega⟩]
    rw [show a.pos + k - a.pos = k by omega, List.getD_eq_getElem?_getD, List.getElem?_eq_getElem hk]
    rfl

theorem readAt_write1_other (d : Disk) (a : Laddr) (l : Lsid) (pos : Nat) (b : Bytes)
    (h : a.lsid = l → pos + b.length ≤ a.pos ∨ a.pos + a.len ≤ pos) :
    readAt (write1 d l pos b) a = readAt d a := by
  unfold readAt
  apply List.map_congr_left
  intro k hk
  rw [List.mem_range] at hk
  unfold write1
  rw [if_neg]
  rintro ⟨e, h1, h2⟩
  have := h e
  omega

/-- Objects stored one after the other from `pos` on -/
def Chain (e : Env) (l : Lsid) : Nat → List Id → Prop
  | _, [] => True
  | pos, n :: r => (e.addr n).lsid = l ∧ (e.addr n).pos = pos ∧ Chain e l (pos + (e.addr n).len) r

theorem chain_append (e : Env) (l : Lsid) (pos : Nat) (r : List Id) (n : Id) (h : Chain e l pos r)
    (h1 : (e.addr n).lsid = l) (h2 : (e.addr n).pos = pos + accum e r) : Chain e l pos (r ++ [n]) := by
  induction r generalizing pos with
  | nil => exact ⟨h1, by simpa [accum] using h2, trivial⟩
  | cons m r ih =>
    obtain ⟨a, b, c⟩ := h
    refine ⟨a, b, ih _ c ?_⟩
    rw [h2]
    simp only [accum, List.map_cons, List.sum_cons]
    omega

theorem accum_append (e : Env) (a b : List Id) : accum e (a ++ b) = accum e a + accum e b := by
  simp [accum]

/-- A vector of writes puts each object in its own place and leaves others alone. -/
theorem readAt_writev {e : Env} (he : e.Ok) (c : Id → Bytes) (n : Id) (l : Lsid) (r : List Id) (d : Disk) (pos : Nat)
    (hc : Chain e l pos r) (hl : ∀ m ∈ r, (c m).length = (e.addr m).len) (hn : r.Nodup) :
    readAt (writev d l pos (r.map c)) (e.addr n) = if n ∈ r then c n else readAt d (e.addr n) := by
  induction r generalizing d pos with
  | nil => simp [writev]
  | cons m r ih =>
    obtain ⟨h1, h2, h3⟩ := hc
    have hm := hl m (by simp)
    simp only [List.map_cons, writev]
    rw [hm, ih _ _ h3 (fun x hx => hl x (by simp [hx])) (List.nodup_cons.1 hn).2]
    by_cases hr : n ∈ r
    · simp [hr]
    · rw [if_neg hr]
      by_cases hnm : n = m
      · subst hnm
        rw [if_pos (by simp)]
        rw [← h1, ← h2]
        exact readAt_write1_same d (e.addr n) (c n) hm
      · rw [if_neg (by simp [hr, hnm])]
        apply readAt_write1_other
        intro hs
        have := he.disj n m hnm (by rw [hs, h1])
        omega

/-! ### Entries of the submission queue -/

/-- An entry that writes, for each of its objects, the bytes `c` of that object to its place -/
structure Writes (e : Env) (q : Sqe) (c : Id → Bytes) : Prop where
  iov : q.iov = q.refs.map c
  chain : Chain e q.laddr.lsid q.laddr.pos q.refs
  nodup : q.refs.Nodup
  len : ∀ m ∈ q.refs, (c m).length = (e.addr m).len

def wr (d : Disk) (q : Sqe) : Disk := writev d q.laddr.lsid q.laddr.pos q.iov

/-- The storage once everything queued has been written -/
def overlay (d : Disk) (sq : List Sqe) : Disk := sq.foldl wr d

theorem overlay_append (d : Disk) (a b : List Sqe) : overlay d (a ++ b) = overlay (overlay d a) b :=
  List.foldl_append ..

theorem readAt_wr {e : Env} (he : e.Ok) {q : Sqe} {c : Id → Bytes} (h : Writes e q c) (d : Disk) (n : Id) :
    readAt (wr d q) (e.addr n) = if n ∈ q.refs then c n else readAt d (e.addr n) := by
  unfold wr
  rw [h.iov]
  exact readAt_writev he c n _ _ _ _ h.chain h.len h.nodup

theorem readAt_overlay_other {e : Env} (he : e.Ok) (sq : List Sqe) (h : ∀ q ∈ sq, ∃ c, Writes e q c) (d : Disk) (n : Id)
    (hn : ∀ q ∈ sq, n ∉ q.refs) : readAt (overlay d sq) (e.addr n) = readAt d (e.addr n) := by
  induction sq generalizing d with
  | nil => rfl
  | cons q sq ih =>
    obtain ⟨c, hc⟩ := h q (by simp)
    show readAt (overlay (wr d q) sq) _ = _
    rw [ih (fun x hx => h x (by simp [hx])) _ (fun x hx => hn x (by simp [hx])), readAt_wr he hc,
      if_neg (hn q (by simp))]

theorem readAt_overlay_same {e : Env} (he : e.Ok) (c : Id → Bytes) (sq : List Sqe) (h : ∀ q ∈ sq, Writes e q c) (d : Disk)
    (n : Id) (hn : ∃ q ∈ sq, n ∈ q.refs) : readAt (overlay d sq) (e.addr n) = c n := by
  induction sq generalizing d with
  | nil => simp at hn
  | cons q sq ih =>
    show readAt (overlay (wr d q) sq) _ = _
    by_cases hs : ∃ q ∈ sq, n ∈ q.refs
    · exact ih (fun x hx => h x (by simp [hx])) _ hs
    · rw [readAt_overlay_other he sq (fun x hx => ⟨c, h x (by simp [hx])⟩) _ _
        (fun x hx hm => hs ⟨x, hx, hm⟩), readAt_wr he (h q (by simp)), if_pos]
      obtain ⟨x, hx, hm⟩ := hn
      rcases List.mem_cons.1 hx with rfl | hx
      · exact hm
      · exact absurd ⟨x, hx, hm⟩ hs

/-! ### Packing -/

structure Packing (e : Env) (q : Sqe) : Prop where
  chain : Chain e q.laddr.lsid q.laddr.pos q.refs
  len : q.refs ≠ [] → q.laddr.len = accum e q.refs

theorem fresh_packing (e : Env) (next : Nat) : Packing e ⟨next, ⟨⟨0, 0⟩, 0, 0⟩, .data, [], []⟩ :=
  ⟨trivial, fun hh => absurd rfl hh⟩

theorem append_packing {e : Env} {q : Sqe} (h : Packing e q) {n : Id} (ha : appendable q (e.addr n) = true) :
    Packing e (append e q n) ∧ (append e q n).refs = q.refs ++ [n] ∧ (append e q n).id = q.id := by
  unfold append
  by_cases h0 : q.refs.length = 0
  · rw [if_pos h0]
    have := List.length_eq_zero_iff.1 h0
    refine ⟨⟨⟨rfl, rfl, trivial⟩, fun _ => by simp [accum]⟩, by simp [this], rfl⟩
  · rw [if_neg h0]
    have hne : q.refs ≠ [] := fun hh => h0 (by simp [hh])
    unfold appendable at ha
    rw [if_neg h0] at ha
    by_cases h1 : q.refs.length = SQENT_NREFS_MAX
    · simp [h1] at ha
    rw [if_neg h1] at ha
    by_cases h2 : isNext q.laddr (e.addr n) = true
    · unfold isNext at h2
      simp only [Bool.and_eq_true, decide_eq_true_eq] at h2
      obtain ⟨⟨a, b⟩, c⟩ := h2
      refine ⟨⟨chain_append e _ _ _ _ h.chain c.symm ?_, fun _ => ?_⟩, rfl, rfl⟩
      · rw [a, h.len hne]
      · show q.laddr.len + _ = _
        rw [accum_append, h.len hne]
        simp [accum]
    · simp [h2] at ha

theorem populate_spec (e : Env) (l : List Id) (q : Sqe) (ans : List Bool) (h : Packing e q) (q' : Sqe) (rest : List Id)
    (ans' : List Bool) (hp : populate e l q ans = some (q', rest, ans')) :
    Packing e q' ∧ q'.refs ++ rest = q.refs ++ l ∧ q'.id = q.id ∧ (q.refs = [] → l ≠ [] → q'.refs ≠ []) ∧
      ∃ t, q'.refs = q.refs ++ t := by
  induction l generalizing q ans with
  | nil =>
    simp only [populate, Option.some.injEq, Prod.mk.injEq] at hp
    obtain ⟨rfl, rfl, rfl⟩ := hp
    exact ⟨h, rfl, rfl, fun _ hh => absurd rfl hh, [], by simp⟩
  | cons n l ih =>
    simp only [populate] at hp
    by_cases h1 : (ask ans).1 = true
    · rw [if_pos h1] at hp; cases hp
    rw [if_neg h1] at hp
    by_cases h2 : appendable q (e.addr n) = true
    · rw [if_pos h2] at hp
      obtain ⟨a, b, c⟩ := append_packing h h2
      obtain ⟨p1, p2, p3, p4, t, p5⟩ := ih _ _ a hp
      refine ⟨p1, ?_, p3.trans c, fun _ _ hh => ?_, n :: t, ?_⟩
      · rw [p2, b]; simp
      · rw [p5, b] at hh; simp at hh
      · rw [p5, b]; simp
    · rw [if_neg h2] at hp
      simp only [Option.some.injEq, Prod.mk.injEq] at hp
      obtain ⟨rfl, rfl, rfl⟩ := hp
      refine ⟨h, rfl, rfl, fun hh => ?_, [], by simp⟩
      exfalso
      apply h2
      unfold appendable
      rw [if_pos (by simp [hh])]

/-- What one slot puts into the queue: every object of it once, with its present content. -/
structure Queued (e : Env) (s : State) (l : List Id) (next : Nat) (tx : List Sqe) (next' : Nat) : Prop where
  refs : tx.flatMap Sqe.refs = l
  writes : ∀ q ∈ tx, Writes e q fun n => e.enc n (s.cur n)
  ids : tx.map Sqe.id = List.range' next tx.length
  next : next' = next + tx.length

theorem enqueue_spec {e : Env} (he : e.Ok) (s : State) (fuel : Nat) (l : List Id) (next : Nat) (ans : List Bool)
    (hf : l.length ≤ fuel) (hn : l.Nodup) (hl : ∀ n ∈ l, (s.cur n).length = (e.addr n).len) (tx : List Sqe) (next' : Nat)
    (ans' : List Bool) (hq : enqueue e s fuel l next ans = some (tx, next', ans')) : Queued e s l next tx next' := by
  induction fuel generalizing l next ans tx with
  | zero =>
    have : l = [] := List.length_eq_zero_iff.1 (by omega)
    subst this
    simp only [enqueue, Option.some.injEq, Prod.mk.injEq] at hq
    obtain ⟨rfl, rfl, rfl⟩ := hq
    exact ⟨rfl, by simp, rfl, rfl⟩
  | succ fuel ih =>
    cases l with
    | nil =>
      simp only [enqueue, Option.some.injEq, Prod.mk.injEq] at hq
      obtain ⟨rfl, rfl, rfl⟩ := hq
      exact ⟨rfl, by simp, rfl, rfl⟩
    | cons n l =>
      simp only [enqueue] at hq
      by_cases h1 : (ask ans).1 = true
      · rw [if_pos h1] at hq; cases hq
      rw [if_neg h1] at hq
      cases hp : populate e (n :: l) ⟨next, ⟨⟨0, 0⟩, 0, 0⟩, .data, [], []⟩ (ask ans).2 with
      | none => rw [hp] at hq; cases hq
      | some r =>
        obtain ⟨q, rest, ans2⟩ := r
        rw [hp] at hq
        simp only at hq
        by_cases h2 : (ask ans2).1 = true
        · rw [if_pos h2] at hq; cases hq
        rw [if_neg h2] at hq
        by_cases h3 : (ask (ask ans2).2).1 = true
        · rw [if_pos h3] at hq; cases hq
        rw [if_neg h3] at hq
        cases hr : enqueue e s fuel rest (next + 1) (ask (ask ans2).2).2 with
        | none => rw [hr] at hq; cases hq
        | some r2 =>
          obtain ⟨tx2, next2, ans3⟩ := r2
          rw [hr] at hq
          simp only [Option.some.injEq, Prod.mk.injEq] at hq
          obtain ⟨rfl, rfl, rfl⟩ := hq
          obtain ⟨p1, p2, p3, p4, t, p5⟩ := populate_spec e _ _ _ (fresh_packing e next) _ _ _ hp
          have p2' : q.refs ++ rest = n :: l := p2
          have hq0 : q.refs ≠ [] := p4 rfl (by simp)
          have hlen : rest.length ≤ fuel := by
            have := congrArg List.length p2'
            have h4 : 0 < q.refs.length := List.length_pos_iff.2 hq0
            simp only [List.length_append, List.length_cons] at this hf
            omega
          have hnd : (q.refs ++ rest).Nodup := by rw [p2']; exact hn
          have hll : ∀ m ∈ q.refs ++ rest, (s.cur m).length = (e.addr m).len := by rw [p2']; exact hl
          have Q := ih rest (next + 1) _ hlen (List.nodup_append.1 hnd).2.1
            (fun m hm => hll m (by simp [hm])) _ hr
          refine ⟨?_, ?_, ?_, ?_⟩
          · show (assign e s q).refs ++ tx2.flatMap Sqe.refs = _
            rw [Q.refs]; exact p2'
          · intro x hx
            rcases List.mem_cons.1 hx with rfl | hx
            · exact ⟨rfl, p1.chain, (List.nodup_append.1 hnd).1,
                fun m hm => by rw [he.enc_len]; exact hll m (List.mem_append.2 (.inl hm))⟩
            · exact Q.writes x hx
          · show (assign e s q).id :: _ = _
            rw [Q.ids]
            simp only [List.length_cons, List.range'_succ]
            rw [show (assign e s q).id = next from p3]
          · rw [Q.next]; simp only [List.length_cons]; omega

/-! ### The set of a slot -/

theorem insertAll_spec (e : Env) (l : List Id) (v : Avl Id) (l0 : List Id) (hv : Contains v l0) (hn : (l0 ++ l).Nodup) :
    ∃ v' l', insertAll e l v = some v' ∧ Contains v' l' ∧ l'.Perm (l0 ++ l) := by
  induction l generalizing v l0 with
  | nil => exact ⟨v, l0, rfl, hv, by simp⟩
  | cons n l ih =>
    have hz : n ∉ l0 := fun h => (List.nodup_append.1 hn).2.2 n h n (by simp) rfl
    obtain ⟨v', u, w, h1, h2, h3⟩ := C37_insert_any e.cmp id hv hz
    subst h2
    have hp : (u ++ n :: w).Perm (u ++ w ++ [n]) := by
      rw [List.append_assoc]
      apply List.Perm.append_left
      exact (List.perm_append_singleton n w).symm
    have hp2 : ((u ++ n :: w) ++ l).Perm (u ++ w ++ n :: l) := by
      refine (hp.append_right l).trans ?_
      simp
    obtain ⟨v2, l2, a, b, c⟩ := ih v' _ h3 (hp2.nodup_iff.2 hn)
    refine ⟨v2, l2, ?_, b, c.trans hp2⟩
    simp only [insertAll, h1, a]

theorem contains_empty : Contains (Avl.empty : Avl Id) [] :=
  ⟨rfl, ⟨0, rfl⟩, by simp, rfl, rfl, rfl⟩

theorem preq_spec {v : Avl Id} {l : List Id} (h : Contains v l) : preq v = l.reverse := by
  unfold preq
  rw [C37_walk h _ (by rw [h.size]; omega)]

/-- One slot: the set of its objects in some order; on success they are queued and clean. -/
theorem processSlot_spec {e : Env} (he : e.Ok) (s : State) (l : List Id) (ans : List Bool) (hn : l.Nodup)
    (hl : ∀ n ∈ l, (s.cur n).length = (e.addr n).len) (s' : State) (tx : List Sqe) (ans' : List Bool)
    (h : processSlot e s l ans = some (s', tx, ans')) :
    ∃ p next', p.Perm l ∧ Queued e s p s.next tx next' ∧
      s' = { s with dq := s.dq.filter fun n => n ∉ l, next := next' } := by
  obtain ⟨v, l', h1, h2, h3⟩ := insertAll_spec e l .empty [] contains_empty (by simpa using hn)
  rw [List.nil_append] at h3
  unfold processSlot at h
  rw [h1] at h
  simp only at h
  have hpq := preq_spec h2
  have hperm : (preq v).Perm l := by rw [hpq]; exact (List.reverse_perm _).trans h3
  have hmem : ∀ n, n ∈ preq v ↔ n ∈ l := fun n => hperm.mem_iff
  by_cases h0 : v.size = 0
  · rw [if_pos h0] at h
    have : l' = [] := List.length_eq_zero_iff.1 (by rw [← h2.size]; exact h0)
    subst this
    have hl0 : l = [] := List.Perm.nil_eq h3 |>.symm
    subst hl0
    simp only [Option.some.injEq, Prod.mk.injEq] at h
    obtain ⟨rfl, rfl, rfl⟩ := h
    refine ⟨[], s.next, .nil, ⟨rfl, by simp, rfl, rfl⟩, ?_⟩
    rw [List.filter_eq_self.2 (by simp)]
  · rw [if_neg h0] at h
    cases hq : enqueue e s (preq v).length (preq v) s.next ans with
    | none => rw [hq] at h; cases h
    | some r =>
      obtain ⟨tx2, next2, ans2⟩ := r
      rw [hq] at h
      simp only [Option.some.injEq, Prod.mk.injEq] at h
      obtain ⟨rfl, rfl, rfl⟩ := h
      refine ⟨preq v, next2, hperm, ?_, ?_⟩
      · exact enqueue_spec he s _ _ _ _ (Nat.le_refl _) (hperm.nodup_iff.2 hn)
          (fun n hm => hl n ((hmem n).1 hm)) _ _ _ hq
      · simp only [hmem]

/-- If no call fails, a slot is processed. -/
theorem populate_total (e : Env) (l : List Id) (q : Sqe) : ∃ q' r, populate e l q [] = some (q', r, []) := by
  induction l generalizing q with
  | nil => exact ⟨q, [], rfl⟩
  | cons n l ih =>
    simp only [populate, ask]
    by_cases h : appendable q (e.addr n) = true
    · simp only [h, if_true]
      exact ih _
    · simp only [h]
      exact ⟨q, n :: l, rfl⟩

theorem enqueue_total (e : Env) (s : State) (fuel : Nat) (l : List Id) (next : Nat) (hf : l.length ≤ fuel) :
    ∃ tx next', enqueue e s fuel l next [] = some (tx, next', []) := by
  induction fuel generalizing l next with
  | zero =>
    have : l = [] := List.length_eq_zero_iff.1 (by omega)
    subst this
    exact ⟨[], next, rfl⟩
  | succ fuel ih =>
    cases l with
    | nil => exact ⟨[], next, rfl⟩
    | cons n l =>
      obtain ⟨q, r, hp⟩ := populate_total e (n :: l) ⟨next, ⟨⟨0, 0⟩, 0, 0⟩, .data, [], []⟩
      obtain ⟨p1, p2, p3, p4, t, p5⟩ := populate_spec e _ _ _ (fresh_packing e next) _ _ _ hp
      have hq0 : q.refs ≠ [] := p4 rfl (by simp)
      have hlen : r.length ≤ fuel := by
        have := congrArg List.length p2
        have h4 : 0 < q.refs.length := List.length_pos_iff.2 hq0
        simp only [List.length_append, List.length_cons, List.length_nil] at this hf
        omega
      obtain ⟨tx, next', h⟩ := ih r (next + 1) hlen
      refine ⟨assign e s q :: tx, next', ?_⟩
      simp only [enqueue, ask, hp, h]
      simp

theorem processSlot_total (e : Env) (s : State) (l : List Id) (hn : l.Nodup) :
    ∃ s' tx, processSlot e s l [] = some (s', tx, []) := by
  obtain ⟨v, l', h1, h2, h3⟩ := insertAll_spec e l .empty [] contains_empty (by simpa using hn)
  unfold processSlot
  rw [h1]
  simp only
  by_cases h0 : v.size = 0
  · rw [if_pos h0]; exact ⟨_, _, rfl⟩
  · rw [if_neg h0]
    obtain ⟨tx, next', h⟩ := enqueue_total e s (preq v).length (preq v) s.next (Nat.le_refl _)
    rw [h]
    exact ⟨_, _, rfl⟩

end Silofs.Flush
