import Verif.Props.PipeWrite
set_option linter.unusedSimpArgs false
namespace Silofs.Pp
open Silofs.Fuse (Buf)

/-- All bytes of the pieces. -/
def dataOf (m : Nat → Nat) (l : List Iov) : Buf := (l.map (load m)).flatten

theorem dataOf_append (m : Nat → Nat) (a b : List Iov) : dataOf m (a ++ b) = dataOf m a ++ dataOf m b := by
  simp [dataOf]

theorem take_flatten_prefix (l : List Buf) (n : Nat) : ∃ t, l.flatten = (l.take n).flatten ++ t :=
  ⟨(l.drop n).flatten, by rw [← List.flatten_append, List.take_append_drop]⟩

theorem nonempty_flatten {l : List Buf} (h : ∀ x ∈ l, x ≠ []) (hf : l.flatten = []) : l = [] := by
  cases l with
  | nil => rfl
  | cons x xs =>
    rw [List.flatten_cons, List.append_eq_nil_iff] at hf
    exact absurd hf.1 (h x List.mem_cons_self)

/-- What one vmsplice(2) puts into the pipe is a beginning of what was asked for. -/
theorem vm_spec (s : St) (l : List Iov) :
    (vmspliceFromIov s l).2.outq = s.outq ∧ (vmspliceFromIov s l).2.inq = s.inq ∧ (vmspliceFromIov s l).2.mem = s.mem ∧
    (vmspliceFromIov s l).2.size = s.size ∧ (vmspliceFromIov s l).2.cap = s.cap ∧
    ∃ x t, (vmspliceFromIov s l).2.bytes = s.bytes ++ x ∧ (vmspliceFromIov s l).2.pend = s.pend + x.length ∧
      dataOf s.mem l = x ++ t := by
  have hpre : ∃ t, dataOf s.mem l = dataOf s.mem (l.take (countCeil (avail s) 0 l)) ++ t :=
    ⟨dataOf s.mem (l.drop (countCeil (avail s) 0 l)), by rw [← dataOf_append, List.take_append_drop]⟩
  unfold vmspliceFromIov
  split
  · exact ⟨rfl, rfl, rfl, rfl, rfl, [], dataOf s.mem l, by simp, by simp, rfl⟩
  split
  · exact ⟨rfl, rfl, rfl, rfl, rfl, [], dataOf s.mem l, by simp, by simp, rfl⟩
  split
  · exact ⟨rfl, rfl, rfl, rfl, rfl, [], dataOf s.mem l, by simp, by simp, rfl⟩
  · obtain ⟨t1, h1⟩ := hpre
    obtain ⟨t2, h2⟩ := take_flatten_prefix (((l.take (countCeil (avail s) 0 l)).map (slotsOf s.mem)).flatten)
      (s.cap - s.segs.length)
    rw [slots_flatten] at h2
    refine ⟨rfl, rfl, rfl, rfl, rfl, (vmGot s l).flatten, t2 ++ t1, ?_, rfl, ?_⟩
    · show (s.segs ++ vmGot s l).flatten = _
      rw [List.flatten_append]; rfl
    · rw [h1, dataOf, h2, List.append_assoc]; rfl

/-- All rounds: never more than the data, and if as many bytes as the data then the data. -/
theorem append_spec : ∀ (n : Nat) (l : List Iov) (s : St),
    (appendData n l s).2.outq = s.outq ∧ (appendData n l s).2.inq = s.inq ∧ (appendData n l s).2.mem = s.mem ∧
    ∃ x, (appendData n l s).2.bytes = s.bytes ++ x ∧ (appendData n l s).2.pend = s.pend + x.length ∧
      x.length ≤ total l ∧ (x.length = total l → x = dataOf s.mem l) := by
  intro n
  induction n with
  | zero =>
    intro l s
    refine ⟨rfl, rfl, rfl, [], by simp [appendData], by simp [appendData], Nat.zero_le _, fun h => ?_⟩
    have : (dataOf s.mem l).length = 0 := by rw [dataOf, loads_length]; exact h.symm
    exact (List.length_eq_zero_iff.mp this).symm
  | succ n ih =>
    intro l s
    rw [appendData]
    by_cases hl : l = []
    · rw [if_pos hl]
      exact ⟨rfl, rfl, rfl, [], by simp, by simp, Nat.zero_le _, fun _ => by rw [hl]; rfl⟩
    rw [if_neg hl]
    obtain ⟨v1, v2, v3, _, _, x, t, v4, v5, v6⟩ := vm_spec s (l.take 48)
    have e : dataOf s.mem l = x ++ t ++ dataOf s.mem (l.drop 48) := by
      rw [← v6, ← dataOf_append, List.take_append_drop]
    have elen : total l = x.length + t.length + total (l.drop 48) := by
      have := congrArg List.length e
      simp only [dataOf, loads_length, List.length_append] at this
      exact this
    revert v1 v2 v3 v4 v5
    generalize vmspliceFromIov s (l.take 48) = q
    intro v1 v2 v3 v4 v5
    obtain ⟨r, s'⟩ := q
    have hstop : s'.outq = s.outq ∧ s'.inq = s.inq ∧ s'.mem = s.mem ∧ ∃ x, s'.bytes = s.bytes ++ x ∧
        s'.pend = s.pend + x.length ∧ x.length ≤ total l ∧ (x.length = total l → x = dataOf s.mem l) := by
      refine ⟨v1, v2, v3, x, v4, v5, by omega, fun h => ?_⟩
      have h1 : t = [] := List.length_eq_zero_iff.mp (by omega)
      have h2 : dataOf s.mem (l.drop 48) = [] := List.length_eq_zero_iff.mp (by rw [dataOf, loads_length]; omega)
      rw [e, h1, h2, List.append_nil, List.append_nil]
    cases r with
    | err e => exact hstop
    | hang => exact hstop
    | ok =>
      obtain ⟨w1, w2, w3, y, w4, w5, w6, w7⟩ := ih (l.drop 48) s'
      refine ⟨by rw [w1]; exact v1, by rw [w2]; exact v2, by rw [w3]; exact v3, x ++ y, ?_, ?_, ?_, ?_⟩
      · rw [w4]; show s'.bytes ++ y = _
        rw [show s'.bytes = s.bytes ++ x from v4, List.append_assoc]
      · rw [w5, show s'.pend = s.pend + x.length from v5, List.length_append]; omega
      · rw [List.length_append]; omega
      · intro h
        rw [List.length_append] at h
        have ht : t = [] := List.length_eq_zero_iff.mp (by omega)
        have := w7 (by omega)
        rw [show s'.mem = s.mem from v3] at this
        rw [e, ht, List.append_nil, this]

theorem outHdr_length (a b c : Nat) : (Fuse.outHdr a b c).length = 16 := by
  simp [Fuse.outHdr, leBytes_length]

theorem outHdr_len (a b c : Nat) (x : Buf) (h : a < 4294967296) : Fuse.rd 4 0 (Fuse.outHdr a b c ++ x) = a := by
  have : ((Fuse.outHdr a b c ++ x).drop 0).take 4 = leBytes 4 a := by
    rw [List.drop_zero, Fuse.outHdr, List.append_assoc, List.append_assoc,
      List.take_append_of_le_length (by rw [leBytes_length]; omega), List.take_of_length_le (by rw [leBytes_length]; omega)]
  rw [Fuse.rd, this, leVal_leBytes]
  exact Nat.mod_eq_of_lt h

/-- The file-system's part of a read. -/
theorem rdGather_spec (max res : Nat) : ∀ (l acc : List Iov) (nrd : Nat), nrd = total acc → nrd ≤ max →
    (rdGather max res l acc nrd).1 ≠ .hang ∧
    ((rdGather max res l acc nrd).1 = .ok →
      res = 0 ∧ (rdGather max res l acc nrd).2.1 = acc ++ l ∧ (rdGather max res l acc nrd).2.2 = total (acc ++ l) ∧
      total (acc ++ l) ≤ max) := by
  intro l
  induction l with
  | nil =>
    intro acc nrd h hm
    rw [rdGather]
    refine ⟨by split <;> simp, fun hok => ?_⟩
    by_cases hr : res = 0
    · exact ⟨hr, by simp, by simpa using h, by rw [List.append_nil]; omega⟩
    · simp [hr] at hok
  | cons v l ih =>
    intro acc nrd h hm
    rw [rdGather]
    split
    · simp
    split
    · simp
    · have := ih (acc ++ [v]) (nrd + v.len) (by rw [h, total_append, total_one]) (by omega)
      rw [show acc ++ v :: l = (acc ++ [v]) ++ l by rw [List.append_assoc]; rfl]
      exact this

theorem sendMsg_spec (s : St) (m : Buf) :
    (sendMsg s m).1 ≠ .hang ∧ (sendMsg s m).2.mem = s.mem ∧ (sendMsg s m).2.bytes = s.bytes ∧ (sendMsg s m).2.pend = s.pend ∧
    (sendMsg s m).2.inq = s.inq ∧
    ((sendMsg s m).1 = .ok ∧ (sendMsg s m).2.outq = s.outq ++ [m] ∨
      (∃ e, (sendMsg s m).1 = .err e) ∧ (sendMsg s m).2.outq = s.outq) := by
  unfold sendMsg
  split
  · exact ⟨by simp, rfl, rfl, rfl, rfl, Or.inr ⟨⟨_, rfl⟩, rfl⟩⟩
  · exact ⟨by simp, rfl, rfl, rfl, rfl, Or.inl ⟨rfl, rfl⟩⟩

/-- What the device has got of a reply: nothing, an error, or the right bytes. -/
def ReadOut (unique : Nat) (data : Buf) (s s' : St) : Prop :=
  s'.outq = s.outq ∨ (∃ e, s'.outq = s.outq ++ [Fuse.replyErr unique e]) ∨
  s'.outq = s.outq ++ [Fuse.replyOk unique data]

theorem flushToDev_outq (s : St) :
    (flushToDev s).2.outq = s.outq ∨
    ((flushToDev s).2.outq = s.outq ++ [s.bytes.take s.pend] ∧ devTakes (s.bytes.take s.pend) = true) := by
  unfold flushToDev
  split
  · exact Or.inl rfl
  split
  · exact Or.inl rfl
  split
  · exact Or.inl rfl
  split
  · rename_i h; exact Or.inr ⟨rfl, h⟩
  · exact Or.inl rfl

theorem replyIov_spec (unique : Nat) (l : List Iov) (s : St) (hb : s.bytes = []) (hp : s.pend = 0)
    (hlt : 16 + total l < 4294967296) : ReadOut unique (dataOf s.mem l) s (replyIov unique (total l) l s).2 := by
  unfold replyIov
  have herr : ∀ (s1 : St) (e : Nat), s1.outq = s.outq →
      ReadOut unique (dataOf s.mem l) s (match sendMsg s1 (Fuse.replyErr unique e) with
        | (.ok, s3) => (R.err e, s3) | r => r).2 := by
    intro s1 e h1
    have := (sendMsg_spec s1 (Fuse.replyErr unique e)).2.2.2.2.2
    revert this
    generalize sendMsg s1 (Fuse.replyErr unique e) = q
    intro this
    obtain ⟨r, s3⟩ := q
    rcases this with ⟨h, h2⟩ | ⟨⟨e', h⟩, h2⟩
    · subst h
      exact Or.inr (Or.inl ⟨e, by rw [← h1]; exact h2⟩)
    · subst h
      exact Or.inl (by rw [← h1]; exact h2)
  have hap : ∃ r s1, appendFromBuf s (Fuse.outHdr (16 + total l) 0 unique) = (r, s1) ∧ s1.outq = s.outq ∧ s1.mem = s.mem ∧
      (r = .ok → s1.bytes = Fuse.outHdr (16 + total l) 0 unique ∧ s1.pend = 16) ∧ r ≠ .hang := by
    unfold appendFromBuf
    split
    · exact ⟨_, _, rfl, rfl, rfl, by simp, by simp⟩
    split
    · exact ⟨_, _, rfl, rfl, rfl, by simp, by simp⟩
    · refine ⟨_, _, rfl, rfl, rfl, fun _ => ⟨?_, ?_⟩, by simp⟩
      · show (s.segs ++ [_]).flatten = _
        rw [List.flatten_append, show s.segs.flatten = [] from hb]
        simp
      · show s.pend + _ = 16
        rw [hp, outHdr_length]
  obtain ⟨r, s1, hr, h1, h1m, h2, h3⟩ := hap
  rw [hr]
  cases r with
  | hang => exact absurd rfl h3
  | err e => exact herr s1 e h1
  | ok =>
    obtain ⟨hb1, hp1⟩ := h2 rfl
    obtain ⟨a1, a2, a3, x, a4, a5, a6, a7⟩ := append_spec l.length l s1
    simp only
    revert a1 a2 a3 a4 a5
    generalize appendData l.length l s1 = q
    intro a1 a2 a3 a4 a5
    obtain ⟨r2, s2⟩ := q
    cases r2 with
    | hang => exact Or.inl (by rw [← h1]; exact a1)
    | err e => exact herr s2 e (by rw [← h1]; exact a1)
    | ok =>
      show ReadOut unique (dataOf s.mem l) s (flushToDev s2).2
      rcases flushToDev_outq s2 with hf | ⟨hf, ht⟩
      · exact Or.inl (by rw [hf, ← h1]; exact a1)
      · refine Or.inr (Or.inr ?_)
        have hs2b : s2.bytes = Fuse.outHdr (16 + total l) 0 unique ++ x := by rw [show s2.bytes = _ from a4, hb1]
        have hall : s2.bytes.take s2.pend = s2.bytes := by
          apply List.take_of_length_le
          rw [hs2b, List.length_append, outHdr_length, show s2.pend = _ from a5, hp1]
          omega
        rw [hall] at hf ht
        unfold devTakes at ht
        rw [Bool.and_eq_true, decide_eq_true_eq, decide_eq_true_eq, hs2b, outHdr_len _ _ _ _ hlt, List.length_append,
          outHdr_length] at ht
        have hx := a7 (by omega)
        rw [hf, show s2.outq = s1.outq from a1, h1, hs2b, hx, h1m]
        have hd : (dataOf s.mem l).length = total l := loads_length _ _
        rw [Fuse.replyOk, hd]

theorem doRead_spec (unique len : Nat) (sc : Script) (s : St) (hb : s.bytes = []) (hp : s.pend = 0)
    (hlt : 16 + len < 4294967296) :
    (∃ e, (doRead unique len sc s).2.outq = s.outq ++ [Fuse.replyErr unique e]) ∨ (doRead unique len sc s).2.outq = s.outq ∨
    (sc.res = 0 ∧ total sc.pieces ≤ len ∧
      (doRead unique len sc s).2.outq = s.outq ++ [Fuse.replyOk unique (dataOf s.mem sc.pieces)]) := by
  unfold doRead
  obtain ⟨g1, g2⟩ := rdGather_spec len sc.res sc.pieces [] 0 rfl (Nat.zero_le _)
  revert g1 g2
  generalize rdGather len sc.res sc.pieces [] 0 = q
  intro g1 g2
  obtain ⟨r, l, nrd⟩ := q
  cases r with
  | hang => exact absurd rfl g1
  | err e =>
    rcases (sendMsg_spec s (Fuse.replyErr unique e)).2.2.2.2.2 with ⟨_, h⟩ | ⟨_, h⟩
    · exact Or.inl ⟨e, h⟩
    · exact Or.inr (Or.inl h)
  | ok =>
    obtain ⟨h0, h1, h2, h3⟩ := g2 rfl
    simp only [List.nil_append] at h1 h2 h3
    subst h1
    subst h2
    simp only
    by_cases hl : sc.pieces.length ≤ 1
    · rw [if_pos hl]
      have hd : (dataOf s.mem sc.pieces).length = total sc.pieces := loads_length _ _
      have he : (sc.pieces.map (load s.mem)).flatten.take (total sc.pieces) = dataOf s.mem sc.pieces :=
        List.take_of_length_le (by rw [← hd]; exact Nat.le_refl _)
      rw [he]
      rcases (sendMsg_spec s (Fuse.replyOk unique (dataOf s.mem sc.pieces))).2.2.2.2.2 with ⟨_, h⟩ | ⟨_, h⟩
      · exact Or.inr (Or.inr ⟨h0, h3, h⟩)
      · exact Or.inr (Or.inl h)
    · rw [if_neg hl]
      rcases replyIov_spec unique sc.pieces s hb hp (by omega) with h | ⟨e, h⟩ | h
      · exact Or.inr (Or.inl h)
      · exact Or.inl ⟨e, h⟩
      · exact Or.inr (Or.inr ⟨h0, h3, h⟩)

end Silofs.Pp
