import Verif.Props.PipeFull
import Verif.Props.FuseServe
set_option linter.unusedSimpArgs false
namespace Silofs.Pp
open Silofs.Fuse (Buf)

theorem copyToBuf_exact {s : St} (hp : s.pend = s.bytes.length) (n : Nat) :
    copyToBuf s n =
      if s.fault.1 ≠ 0 then (.err s.fault.1, s.tick, [])
      else (.ok, { s.tick with segs := dropB (min s.pend n) s.segs, pend := s.pend - min s.pend n },
        s.bytes.take (min s.pend n)) := by
  unfold copyToBuf
  by_cases h : s.fault.1 ≠ 0
  · rw [if_pos h, if_pos h]
  · rw [if_neg h, if_neg h, if_neg (by omega)]

/-- A pipe has no empty slots. -/
def NoEmpty (l : List Buf) : Prop := ∀ x ∈ l, x ≠ []

theorem dropB_noEmpty : ∀ (l : List Buf) (n : Nat), NoEmpty l → NoEmpty (dropB n l) := by
  intro l
  induction l with
  | nil => intro n h; exact h
  | cons x xs ih =>
    intro n h
    rw [dropB]
    split
    · exact h
    split
    · rename_i h2
      intro y hy
      rcases List.mem_cons.mp hy with rfl | hy
      · intro hc
        have := congrArg List.length hc
        simp only [List.length_drop, List.length_nil] at this
        omega
      · exact h y (List.mem_cons_of_mem _ hy)
    · exact ih _ fun y hy => h y (List.mem_cons_of_mem _ hy)

/-- Everything but the pipe. -/
structure Same (s s' : St) : Prop where
  mem : s'.mem = s.mem
  inq : s'.inq = s.inq
  outq : s'.outq = s.outq
  cap : s'.cap = s.cap
  size : s'.size = s.size
  active : s'.active = s.active

theorem Same.trans {a b c : St} (h : Same a b) (g : Same b c) : Same a c :=
  ⟨g.mem.trans h.mem, g.inq.trans h.inq, g.outq.trans h.outq, g.cap.trans h.cap, g.size.trans h.size,
    g.active.trans h.active⟩

/-- Copying the head of a message out of the pipe: what C51's receiving says of the message, or an error. -/
theorem copyPipeIn_refines (fq : Fuse.Fq) (old : Buf) (s : St) (hp : s.pend = s.bytes.length) :
    Same s (copyPipeIn fq old s).2.1 ∧
    (copyPipeIn fq old s).2.1.pend = (copyPipeIn fq old s).2.1.bytes.length ∧
    (∃ k, (copyPipeIn fq old s).2.1.bytes = s.bytes.drop k) ∧
    (copyPipeIn fq old s).1 ≠ .hang ∧
    ((copyPipeIn fq old s).1 = .ok →
      Fuse.recvSplice fq old s.bytes = .ok ⟨(copyPipeIn fq old s).2.2, (copyPipeIn fq old s).2.1.bytes⟩) ∧
    (s.flt = [] → (copyPipeIn fq old s).2.1.flt = [] ∧ ((copyPipeIn fq old s).1 =
      match Fuse.recvSplice fq old s.bytes with | .ok _ => .ok | .error e => .err e)) ∧
    (NoEmpty s.segs → NoEmpty (copyPipeIn fq old s).2.1.segs) := by
  unfold copyPipeIn
  rw [copyToBuf_exact hp]
  by_cases hf : s.fault.1 ≠ 0
  · rw [if_pos hf]
    refine ⟨⟨rfl, rfl, rfl, rfl, rfl, rfl⟩, hp, ⟨0, rfl⟩, by simp, by simp, ?_, id⟩
    intro h
    exact absurd (by simp [St.fault, h]) hf
  rw [if_neg hf]
  simp only
  generalize hn1 : min s.pend (min 80 s.pend) = n1
  have e1 : s.bytes.take n1 = s.bytes.take 80 := by
    by_cases h80 : s.bytes.length ≤ 80
    · rw [List.take_of_length_le (l := s.bytes) h80, List.take_of_length_le (by omega)]
    · rw [show n1 = 80 by omega]
  have l1 : (s.bytes.take 80).length = min 80 s.bytes.length := List.length_take
  have d1 : s.bytes.drop n1 = s.bytes.drop 80 := by
    by_cases h80 : s.bytes.length ≤ 80
    · rw [List.drop_eq_nil_of_le h80]
      exact List.drop_eq_nil_of_le (by omega)
    · rw [show n1 = 80 by omega]
  rw [e1, l1]
  unfold Fuse.recvSplice
  generalize hs1 : ({ s.tick with segs := dropB n1 s.segs, pend := s.pend - n1 } : St) = s1
  have b1 : s1.bytes = s.bytes.drop 80 := by
    rw [← hs1]
    show (dropB n1 s.segs).flatten = _
    rw [dropB_flatten]
    exact d1
  have p1 : s1.pend = s1.bytes.length := by
    rw [b1, List.length_drop, ← hs1]
    show s.pend - n1 = _
    omega
  have sm1 : Same s s1 := by rw [← hs1]; exact ⟨rfl, rfl, rfl, rfl, rfl, rfl⟩
  have f1 : s.flt = [] → s1.flt = [] := by intro h; rw [← hs1]; show s.flt.tail = []; rw [h]; rfl
  have n1' : NoEmpty s.segs → NoEmpty s1.segs := by intro h; rw [← hs1]; exact dropB_noEmpty _ _ h
  generalize hrem : toU64 ((Fuse.hLen (Fuse.over (s.bytes.take 80) old) : Int) - (min 80 s.bytes.length : Nat)) = rem
  cases hc : Fuse.checkInhdr fq (Fuse.over (s.bytes.take 80) old) (min 80 s.bytes.length) (rem == 0) with
  | error e =>
    exact ⟨sm1, p1, ⟨80, b1⟩, by simp, by simp, fun h => ⟨f1 h, rfl⟩, n1'⟩
  | ok _ =>
    simp only
    by_cases hl : (rem == 0 || Fuse.hasLargeWrite (Fuse.over (s.bytes.take 80) old)) = true
    · rw [if_pos hl, if_pos hl]
      refine ⟨sm1, p1, ⟨80, b1⟩, by simp, fun _ => ?_, fun h => ⟨f1 h, rfl⟩, n1'⟩
      rw [b1]
    · rw [if_neg hl, if_neg hl, copyToBuf_exact p1]
      by_cases hf1 : s1.fault.1 ≠ 0
      · rw [if_pos hf1]
        refine ⟨sm1.trans ⟨rfl, rfl, rfl, rfl, rfl, rfl⟩, p1, ⟨80, b1⟩, by simp, by simp, ?_, n1'⟩
        intro h
        exact absurd (by simp [St.fault, f1 h]) hf1
      rw [if_neg hf1]
      simp only
      generalize hn2 : min s1.pend rem = n2
      have e2 : s.bytes.take 80 ++ s1.bytes.take n2 = s.bytes.take (80 + rem) := by
        have : s1.bytes.take n2 = s1.bytes.take rem := by
          by_cases hr : s1.bytes.length ≤ rem
          · rw [List.take_of_length_le (l := s1.bytes) hr, List.take_of_length_le (by omega)]
          · rw [show n2 = rem by omega]
        rw [this, b1, List.take_add]
      have l2 : min 80 s.bytes.length + (s1.bytes.take n2).length = min (80 + rem) s.bytes.length := by
        have := congrArg List.length e2
        rw [List.length_append, List.length_take, List.length_take (i := 80 + rem)] at this
        exact this
      have d2 : s1.bytes.drop n2 = s.bytes.drop (80 + rem) := by
        have : s1.bytes.drop n2 = s1.bytes.drop rem := by
          by_cases hr : s1.bytes.length ≤ rem
          · rw [List.drop_eq_nil_of_le hr]
            exact List.drop_eq_nil_of_le (by omega)
          · rw [show n2 = rem by omega]
        rw [this, b1, List.drop_drop]
      rw [e2, l2]
      generalize hs2 : ({ s1.tick with segs := dropB n2 s1.segs, pend := s1.pend - n2 } : St) = s2
      have b2 : s2.bytes = s.bytes.drop (80 + rem) := by
        rw [← hs2]
        show (dropB n2 s1.segs).flatten = _
        rw [dropB_flatten]
        exact d2
      have p2 : s2.pend = s2.bytes.length := by
        rw [b2, ← d2, List.length_drop, ← hs2]
        show s1.pend - n2 = _
        omega
      have sm2 : Same s s2 := sm1.trans (by rw [← hs2]; exact ⟨rfl, rfl, rfl, rfl, rfl, rfl⟩)
      have f2 : s.flt = [] → s2.flt = [] := by
        intro h; rw [← hs2]; show s1.flt.tail = []; rw [f1 h]; rfl
      have n2' : NoEmpty s.segs → NoEmpty s2.segs := by intro h; rw [← hs2]; exact dropB_noEmpty _ _ (n1' h)
      cases hc2 : Fuse.checkInhdr fq (Fuse.over (s.bytes.take (80 + rem)) old) (min (80 + rem) s.bytes.length) true with
      | error e =>
        exact ⟨sm2, p2, ⟨_, b2⟩, by simp, by simp, fun h => ⟨f2 h, rfl⟩, n2'⟩
      | ok _ =>
        refine ⟨sm2, p2, ⟨_, b2⟩, by simp, fun _ => ?_, fun h => ⟨f2 h, rfl⟩, n2'⟩
        rw [b2]

/-- A message that the kernel can put into the pipe. -/
def Fits (fq : Fuse.Fq) (s : St) (m : List Buf) : Prop :=
  m.flatten.length ≤ min s.size fq.buffsize ∧ m.length ≤ s.cap

/-- Receiving: what C51 says of the message at the head of the queue, and the pipe holds what C51 says is left in it. -/
theorem recvIn_refines (fq : Fuse.Fq) (old : Buf) (s : St) (hi : Inv s) :
    (recvIn fq old s).2.1.outq = s.outq ∧ (recvIn fq old s).2.1.mem = s.mem ∧ Inv (recvIn fq old s).2.1 ∧
    (recvIn fq old s).1 ≠ .hang ∧ (recvIn fq old s).2.1.cap = s.cap ∧ (recvIn fq old s).2.1.size = s.size ∧
    (recvIn fq old s).2.1.active = s.active ∧
    ((recvIn fq old s).1 = .ok → ∃ m q, s.inq = m :: q ∧ (recvIn fq old s).2.1.inq = q ∧
      (recvIn fq old s).2.1.pend = (recvIn fq old s).2.1.bytes.length ∧
      Fuse.recvSplice fq old m.flatten = .ok ⟨(recvIn fq old s).2.2, (recvIn fq old s).2.1.bytes⟩) ∧
    (∃ k, (recvIn fq old s).2.1.inq = s.inq.drop k) := by
  unfold recvIn
  by_cases h1 : fq.buffsize < s.size
  · rw [if_pos h1]; exact ⟨rfl, rfl, hi, by simp, rfl, rfl, rfl, by simp, 0, rfl⟩
  rw [if_neg h1]
  by_cases h2 : s.pend ≠ 0
  · rw [if_pos h2]; exact ⟨rfl, rfl, hi, by simp, rfl, rfl, rfl, by simp, 0, rfl⟩
  rw [if_neg h2]
  have hb : s.bytes = [] := List.length_eq_zero_iff.mp (by unfold Inv at hi; omega)
  unfold spliceFromFd
  by_cases hf : s.fault.1 ≠ 0
  · rw [if_pos hf]; exact ⟨rfl, rfl, hi, by simp, rfl, rfl, rfl, by simp, 0, rfl⟩
  rw [if_neg hf]
  cases hq : s.inq with
  | nil => exact ⟨rfl, rfl, hi, by simp, rfl, rfl, rfl, by simp, 0, hq⟩
  | cons m q =>
    simp only
    by_cases h3 : m.flatten.length > min (avail s) fq.buffsize ∨ s.segs.length + m.length > s.cap
    · rw [if_pos h3]; exact ⟨rfl, rfl, hi, by simp, rfl, rfl, rfl, by simp, 1, rfl⟩
    rw [if_neg h3]
    simp only
    generalize hs2 : ({ s.tick with inq := q, segs := s.segs ++ m, pend := s.pend + m.flatten.length } : St) = s2
    have b2 : s2.bytes = m.flatten := by
      rw [← hs2]
      show (s.segs ++ m).flatten = _
      rw [List.flatten_append, show s.segs.flatten = [] from hb, List.nil_append]
    have p2 : s2.pend = s2.bytes.length := by
      rw [b2, ← hs2]
      show s.pend + _ = _
      omega
    obtain ⟨c1, c2, _, c4, c5, _, _⟩ := copyPipeIn_refines fq old s2 p2
    refine ⟨by rw [c1.outq, ← hs2]; rfl, by rw [c1.mem, ← hs2]; rfl, Nat.le_of_eq c2.symm, c4, by rw [c1.cap, ← hs2]; rfl, by rw [c1.size, ← hs2]; rfl, by rw [c1.active, ← hs2]; rfl, fun h => ?_,
      1, by rw [c1.inq, ← hs2]; rfl⟩
    refine ⟨m, q, rfl, by rw [c1.inq, ← hs2], c2, ?_⟩
    rw [← b2]
    exact c5 h

/-- Without a failing kernel, a message that fits is received exactly as C51 says. -/
theorem recvIn_full (fq : Fuse.Fq) (old : Buf) (s : St) (m : List Buf) (q : List (List Buf)) (h : Idle s)
    (hsz : s.size ≤ fq.buffsize) (hq : s.inq = m :: q) (hm : Fits fq s m) :
    (recvIn fq old s).2.1.flt = [] ∧ (recvIn fq old s).2.1.inq = q ∧
    ((recvIn fq old s).1 = match Fuse.recvSplice fq old m.flatten with | .ok _ => .ok | .error e => .err e) ∧
    (NoEmpty m → NoEmpty (recvIn fq old s).2.1.segs) := by
  unfold recvIn spliceFromFd
  obtain ⟨m1, m2⟩ := hm
  rw [if_neg (by omega), if_neg (by simp [h.pend]), if_neg (by simp [St.fault, h.flt]), hq]
  simp only
  rw [if_neg (by
    unfold avail
    rw [h.pend, h.segs, List.length_nil]
    omega)]
  simp only
  generalize hs2 : ({ s.tick with inq := q, segs := s.segs ++ m, pend := s.pend + m.flatten.length } : St) = s2
  have b2 : s2.bytes = m.flatten := by
    rw [← hs2]
    show (s.segs ++ m).flatten = _
    rw [h.segs]; rfl
  have p2 : s2.pend = s2.bytes.length := by
    rw [b2, ← hs2]
    show s.pend + _ = _
    rw [h.pend, Nat.zero_add]
  obtain ⟨c1, _, _, _, _, c6, c7⟩ := copyPipeIn_refines fq old s2 p2
  obtain ⟨d1, d2⟩ := c6 (by rw [← hs2]; show s.flt.tail = []; rw [h.flt]; rfl)
  exact ⟨d1, by rw [c1.inq, ← hs2], by rw [d2, b2], fun hn => c7 (by
    rw [← hs2]
    show NoEmpty (s.segs ++ m)
    rw [h.segs]
    exact hn)⟩

/-! ### The pipe never holds more than its owner believes -/

theorem dropB_le (n : Nat) (l : List Buf) : (dropB n l).flatten.length = l.flatten.length - n := by
  rw [dropB_flatten, List.length_drop]

theorem dispose_spec (s : St) (hi : Inv s) :
    Same s (dispose s).2 ∧ Inv (dispose s).2 ∧ (dispose s).1 ≠ .hang := by
  have hi' : s.bytes.length ≤ s.pend := hi
  unfold dispose
  split
  · exact ⟨⟨rfl, rfl, rfl, rfl, rfl, rfl⟩, hi, by simp⟩
  split
  · exact ⟨⟨rfl, rfl, rfl, rfl, rfl, rfl⟩, hi, by simp⟩
  split
  · exact ⟨⟨rfl, rfl, rfl, rfl, rfl, rfl⟩, hi, by simp⟩
  · refine ⟨⟨rfl, rfl, rfl, rfl, rfl, rfl⟩, ?_, by simp⟩
    show (dropB s.pend s.segs).flatten.length ≤ s.pend - _
    rw [dropB_le]
    show s.bytes.length - s.pend ≤ _
    omega

/-- The same with the messages still waiting. -/
def InvQ (Q : List (List Buf)) (s : St) : Prop := Inv s ∧ s.inq = Q

theorem fill_inv {Q : List (List Buf)} (s : St) (v : Iov) (hi : InvQ Q s) : InvQ Q (vmspliceToIov s v).2 :=
  ⟨(fill s v).inv hi.1, (fill s v).inq.trans hi.2⟩

theorem flush_inv {Q : List (List Buf)} (s : St) (hi : InvQ Q s) : InvQ Q (flushToDev s).2 := by
  have hi' : s.bytes.length ≤ s.pend := hi.1
  have hd : (dropB s.pend s.segs).flatten.length = 0 := by
    rw [dropB_le]; show s.bytes.length - s.pend = 0; omega
  unfold flushToDev
  split
  · exact hi
  split
  · refine ⟨?_, hi.2⟩
    show (if s.fault.2 then dropB s.pend s.segs else s.segs).flatten.length ≤ s.pend
    split
    · omega
    · exact hi.1
  split
  · exact hi
  split
  · refine ⟨?_, hi.2⟩
    show (dropB s.pend s.segs).flatten.length ≤ s.pend - _
    omega
  · refine ⟨?_, hi.2⟩
    show (dropB s.pend s.segs).flatten.length ≤ s.pend
    omega

theorem append_inv {Q : List (List Buf)} (n : Nat) (l : List Iov) (s : St) (hi : InvQ Q s) : InvQ Q (appendData n l s).2 := by
  obtain ⟨_, hq, _, x, hb, hp, _⟩ := append_spec n l s
  have hi' : s.bytes.length ≤ s.pend := hi.1
  refine ⟨?_, hq.trans hi.2⟩
  unfold Inv
  rw [hb, hp, List.length_append]
  omega

theorem send_inv {Q : List (List Buf)} (s : St) (m : Buf) (hi : InvQ Q s) : InvQ Q (sendMsg s m).2 := by
  have := sendMsg_spec s m
  refine ⟨?_, this.2.2.2.2.1.trans hi.2⟩
  unfold Inv
  rw [this.2.2.1, this.2.2.2.1]
  exact hi.1

theorem replyIov_inv {Q : List (List Buf)} (u n : Nat) (l : List Iov) (s : St) (hi : InvQ Q s) : InvQ Q (replyIov u n l s).2 := by
  have herr : ∀ (s1 : St) (e : Nat), InvQ Q s1 →
      InvQ Q (match sendMsg s1 (Fuse.replyErr u e) with | (.ok, s3) => (R.err e, s3) | r => r).2 := by
    intro s1 e h
    have := send_inv s1 (Fuse.replyErr u e) h
    revert this
    generalize sendMsg s1 (Fuse.replyErr u e) = q
    intro this
    obtain ⟨r, s3⟩ := q
    cases r <;> exact this
  unfold replyIov
  have ha : InvQ Q (appendFromBuf s (Fuse.outHdr (16 + n) 0 u)).2 := by
    unfold appendFromBuf
    split
    · exact hi
    split
    · exact hi
    · refine ⟨?_, hi.2⟩
      have hi' : s.segs.flatten.length ≤ s.pend := hi.1
      show (s.segs ++ [_]).flatten.length ≤ s.pend + _
      rw [List.flatten_append, List.length_append]
      simp only [List.flatten_cons, List.flatten_nil, List.append_nil]
      omega
  revert ha
  generalize appendFromBuf s (Fuse.outHdr (16 + n) 0 u) = q
  intro ha
  obtain ⟨r, s1⟩ := q
  cases r with
  | err e => exact herr s1 e ha
  | hang => exact ha
  | ok =>
    have h2 := append_inv l.length l s1 ha
    simp only
    revert h2
    generalize appendData l.length l s1 = q
    intro h2
    obtain ⟨r, s2⟩ := q
    cases r with
    | err e => exact herr s2 e h2
    | hang => exact h2
    | ok => exact flush_inv s2 h2

theorem doRead_inv {Q : List (List Buf)} (u len : Nat) (sc : Script) (s : St) (hi : InvQ Q s) : InvQ Q (doRead u len sc s).2 := by
  unfold doRead
  generalize rdGather len sc.res sc.pieces [] 0 = q
  obtain ⟨r, l, n⟩ := q
  cases r with
  | ok =>
    simp only
    split
    · exact send_inv _ _ hi
    · exact replyIov_inv _ _ _ _ hi
  | err e => exact send_inv _ _ hi
  | hang => exact hi

theorem gather_inv {Q : List (List Buf)} (async : Bool) (max res : Nat) : ∀ (l : List Iov) (w : Wr) (s : St), InvQ Q s →
    InvQ Q (wrGather async max res l w s).2.2 := by
  intro l
  induction l with
  | nil => intro w s hi; exact hi
  | cons v l ih =>
    intro w s hi
    rw [wrGather]
    have ha : InvQ Q (wrActor async max w v s).2.2 := by
      unfold wrActor
      cases wrCheck s max w v with
      | err e => exact hi
      | hang => exact hi
      | ok =>
        simp only
        split
        · exact hi
        · have := fill_inv s v hi
          revert this
          generalize vmspliceToIov s v = q
          intro this
          obtain ⟨r, s'⟩ := q
          cases r <;> exact this
    revert ha
    generalize wrActor async max w v s = q
    intro ha
    obtain ⟨r, w', s'⟩ := q
    cases r with
    | ok => exact ih w' s' ha
    | err e => exact ha
    | hang => exact ha

theorem wrCopy_inv {Q : List (List Buf)} : ∀ (l : List Iov) (w : Wr) (s : St), InvQ Q s → InvQ Q (wrCopy l w s).2.2 := by
  intro l
  induction l with
  | nil => intro w s hi; exact hi
  | cons v l ih =>
    intro w s hi
    rw [wrCopy]
    have := fill_inv s v hi
    revert this
    generalize vmspliceToIov s v = q
    intro this
    obtain ⟨r, s'⟩ := q
    cases r with
    | ok => exact ih _ s' this
    | err e => exact this
    | hang => exact this

theorem doWrite_inv {Q : List (List Buf)} (async : Bool) (u len : Nat) (sc : Script) (s : St) (hi : InvQ Q s) : InvQ Q (doWrite async u len sc s).2 := by
  unfold doWrite
  have hw : InvQ Q (wrFinish (wrGather async len sc.res sc.pieces ⟨[], 0, 0⟩ s)).2.2 := by
    have hg := gather_inv async len sc.res sc.pieces ⟨[], 0, 0⟩ s hi
    revert hg
    generalize wrGather async len sc.res sc.pieces ⟨[], 0, 0⟩ s = q
    intro hg
    unfold wrFinish
    split
    · exact wrCopy_inv _ _ _ hg
    · exact hg
  revert hw
  generalize wrFinish _ = q
  intro hw
  obtain ⟨r, w, s'⟩ := q
  cases r with
  | ok => exact send_inv _ _ hw
  | err e => exact send_inv _ _ hw
  | hang => exact hw

theorem execGo_inv {Q : List (List Buf)} (fq : Fuse.Fq) (async : Bool) (fs : Fs) (b : Buf) (s : St) (hi : InvQ Q s) :
    InvQ Q (execGo fq async fs b s).2 := by
  unfold execGo
  split
  · exact hi
  have h : InvQ Q (execReq fq async fs b s).2 := by
    unfold execReq
    split
    · exact doWrite_inv _ _ _ _ _ hi
    split
    · exact doRead_inv _ _ _ _ hi
    · exact send_inv _ _ hi
  revert h
  generalize execReq fq async fs b s = q
  intro h
  obtain ⟨r, s2⟩ := q
  cases r <;> exact h

/-- One round: nothing is taken, or one message is lost, or one message is received as C51 says and carried out with just
its own rest in the pipe. -/
theorem round_spec (fq : Fuse.Fq) (async : Bool) (fs : Fs) (old : Buf) (s : St) (hi : Inv s) :
    Inv (round fq async fs old s).2 ∧
    ((round fq async fs old s).2.outq = s.outq ∧ (round fq async fs old s).2.mem = s.mem ∧
        (∃ k, (round fq async fs old s).2.inq = s.inq.drop k) ∨
      ∃ m q i s1, s.inq = m :: q ∧ Fuse.recvSplice fq old m.flatten = .ok i ∧
        s1.bytes = i.pipe ∧ s1.pend = i.pipe.length ∧ s1.mem = s.mem ∧ s1.outq = s.outq ∧ s1.inq = q ∧
        round fq async fs old s = execGo fq async fs i.buf s1 ∧ (round fq async fs old s).2.inq = q) := by
  unfold round
  obtain ⟨d1, d2, d3⟩ := dispose_spec s hi
  revert d1 d2 d3
  generalize dispose s = q
  intro d1 d2 d3
  obtain ⟨r, s0⟩ := q
  cases r with
  | hang => exact absurd rfl d3
  | err e => exact ⟨d2, Or.inl ⟨d1.outq, d1.mem, 0, d1.inq⟩⟩
  | ok =>
    simp only
    obtain ⟨r1, r2, r3, r4, r5, r6, r7, r8, r9⟩ := recvIn_refines fq old s0 d2
    revert r1 r2 r3 r4 r5 r6 r7 r8 r9
    generalize recvIn fq old s0 = q
    intro r1 r2 r3 r4 r5 r6 r7 r8 r9
    obtain ⟨r, s1, b⟩ := q
    cases r with
    | hang => exact absurd rfl r4
    | err e => exact ⟨r3, Or.inl ⟨r1.trans d1.outq, r2.trans d1.mem, by
        obtain ⟨k, hk⟩ := r9
        exact ⟨k, by rw [hk, d1.inq]⟩⟩⟩
    | ok =>
      obtain ⟨m, q, q1, q2, q3, q4⟩ := r8 rfl
      refine ⟨(execGo_inv (Q := s1.inq) _ _ _ _ _ ⟨r3, rfl⟩).1, Or.inr ⟨m, q, ⟨b, s1.bytes⟩, s1, ?_, q4, rfl, q3, r2.trans d1.mem,
        r1.trans d1.outq, q2, rfl, ?_⟩⟩
      · rw [← d1.inq]
        exact q1
      · exact (execGo_inv (Q := s1.inq) _ _ _ _ _ ⟨r3, rfl⟩).2.trans q2

theorem rounds_inv (fq : Fuse.Fq) (async : Bool) : ∀ (l : List (Fs × Buf)) (s : St), Inv s → Inv (rounds fq async l s) := by
  intro l
  induction l with
  | nil => intro s hi; exact hi
  | cons x l ih =>
    intro s hi
    obtain ⟨fs, old⟩ := x
    rw [rounds]
    have := (round_spec fq async fs old s hi).1
    revert this
    generalize round fq async fs old s = q
    intro this
    obtain ⟨g, s'⟩ := q
    cases g
    · exact this
    · exact ih s' this

end Silofs.Pp
