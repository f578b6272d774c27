import Verif.Props.PipeRead
set_option linter.unusedSimpArgs false
namespace Silofs.Pp
open Silofs.Fuse (Buf)

theorem slots_zero (m : Nat → Nat) : ∀ (l : List Iov), total l = 0 → (l.map (slotsOf m)).flatten = [] := by
  intro l h
  apply nonempty_flatten (slots_ne m l)
  rw [slots_flatten]
  exact List.length_eq_zero_iff.mp (by rw [loads_length]; exact h)

theorem countCeil_all (m : Nat → Nat) (max : Nat) : ∀ (l : List Iov) (got : Nat), got + total l ≤ max →
    ((l.take (countCeil max got l)).map (slotsOf m)).flatten = (l.map (slotsOf m)).flatten := by
  intro l
  induction l with
  | nil => intro got _; rfl
  | cons v l ih =>
    intro got h
    rw [countCeil]
    have ht : total (v :: l) = v.len + total l := by simp [total]
    by_cases h1 : max ≤ got
    · rw [if_pos h1, List.take_zero, slots_zero m (v :: l) (by omega)]; rfl
    · rw [if_neg h1, List.take_succ_cons, List.map_cons, List.map_cons, List.flatten_cons, List.flatten_cons,
        ih (got + v.len) (by omega)]

/-- One vmsplice(2) without a failing kernel, in a pipe with room for the bytes. -/
theorem vm_exact (s : St) (l : List Iov) (hf : s.flt = []) (hb : total l ≤ avail s) :
    vmspliceFromIov s l =
      if (l.map (slotsOf s.mem)).flatten = [] then (.ok, s.tick)
      else if s.cap ≤ s.segs.length then (.hang, s.tick)
      else (.ok, { s.tick with segs := s.segs ++ ((l.map (slotsOf s.mem)).flatten).take (s.cap - s.segs.length),
                               pend := s.pend + (((l.map (slotsOf s.mem)).flatten).take (s.cap - s.segs.length)).flatten.length }) := by
  unfold vmspliceFromIov vmGot
  rw [countCeil_all s.mem (avail s) l 0 (by omega)]
  rw [if_neg (by simp [St.fault, hf])]

theorem tick_eq {s : St} (hf : s.flt = []) : s.tick = s := by
  unfold St.tick
  rw [hf]
  cases s
  simp_all

theorem append_room : ∀ (n : Nat) (l : List Iov) (s : St), l.length ≤ n → s.flt = [] →
    s.segs.length + (l.map pages).sum ≤ s.cap → total l ≤ avail s → Inv s →
    (appendData n l s).1 = .ok ∧ (appendData n l s).2.flt = [] ∧ (appendData n l s).2.outq = s.outq ∧
    (appendData n l s).2.bytes = s.bytes ++ dataOf s.mem l ∧ (appendData n l s).2.pend = s.pend + total l ∧
    (appendData n l s).2.mem = s.mem := by
  intro n
  induction n with
  | zero =>
    intro l s hn hf _ _ _
    have : l = [] := List.length_eq_zero_iff.mp (by omega)
    subst this
    exact ⟨rfl, hf, rfl, by simp [appendData, dataOf], by simp [appendData, total], rfl⟩
  | succ n ih =>
    intro l s hn hf hc hb hi
    rw [appendData]
    by_cases hl : l = []
    · subst hl
      exact ⟨rfl, hf, rfl, by simp [dataOf], by simp [total], rfl⟩
    rw [if_neg hl]
    have hsplit : l = l.take 48 ++ l.drop 48 := (List.take_append_drop 48 l).symm
    have htot : total l = total (l.take 48) + total (l.drop 48) := by rw [← total_append, List.take_append_drop]
    have hpg : (l.map pages).sum = ((l.take 48).map pages).sum + ((l.drop 48).map pages).sum := by
      rw [← List.sum_append, ← List.map_append, List.take_append_drop]
    have hdat : dataOf s.mem l = dataOf s.mem (l.take 48) ++ dataOf s.mem (l.drop 48) := by
      rw [← dataOf_append, List.take_append_drop]
    have hlen : (l.drop 48).length ≤ n := by
      have : l.length ≠ 0 := fun h => hl (List.length_eq_zero_iff.mp h)
      rw [List.length_drop]; omega
    rw [vm_exact s (l.take 48) hf (by omega)]
    have hsl : (((l.take 48).map (slotsOf s.mem)).flatten).length = ((l.take 48).map pages).sum := slots_length _ _
    by_cases h0 : ((l.take 48).map (slotsOf s.mem)).flatten = []
    · rw [if_pos h0]
      have hz : total (l.take 48) = 0 := by
        have := congrArg List.flatten h0
        rw [slots_flatten] at this
        have := congrArg List.length this
        rw [loads_length] at this
        exact this
      have hd : dataOf s.mem (l.take 48) = [] :=
        List.length_eq_zero_iff.mp (by rw [dataOf, loads_length]; exact hz)
      rw [tick_eq hf]
      obtain ⟨a1, a2, a3, a4, a5, a6⟩ := ih (l.drop 48) s hlen hf (by omega) (by omega) hi
      exact ⟨a1, a2, a3, by rw [a4, hdat, hd, List.nil_append], by rw [a5]; omega, a6⟩
    · rw [if_neg h0]
      have hpos : ((l.take 48).map pages).sum ≠ 0 := by
        rw [← hsl]; exact fun h => h0 (List.length_eq_zero_iff.mp h)
      rw [if_neg (by omega), List.take_of_length_le (by omega), slots_flatten, tick_eq hf]
      simp only
      have hi' : s.bytes.length ≤ s.pend := hi
      obtain ⟨a1, a2, a3, a4, a5, a6⟩ := ih (l.drop 48)
        { s with segs := s.segs ++ ((l.take 48).map (slotsOf s.mem)).flatten,
                 pend := s.pend + ((l.take 48).map (load s.mem)).flatten.length } hlen hf
        (by show (s.segs ++ _).length + _ ≤ s.cap
            rw [List.length_append, hsl]; omega)
        (by show _ ≤ s.size - (s.pend + _)
            rw [loads_length]; unfold avail at hb; omega)
        (by show (s.segs ++ ((l.take 48).map (slotsOf s.mem)).flatten).flatten.length ≤ s.pend + _
            rw [List.flatten_append, slots_flatten, List.length_append, loads_length]
            have : s.segs.flatten.length ≤ s.pend := hi
            omega)
      refine ⟨a1, a2, a3, ?_, ?_, a6⟩
      · rw [a4, hdat, ← List.append_assoc]
        congr 1
        show (s.segs ++ ((l.take 48).map (slotsOf s.mem)).flatten).flatten = _
        rw [List.flatten_append, slots_flatten]; rfl
      · rw [a5]
        show s.pend + ((l.take 48).map (load s.mem)).flatten.length + _ = _
        rw [loads_length]; omega

/-- A thread between two requests: empty pipe, and a kernel that does not fail. -/
structure Idle (s : St) : Prop where
  segs : s.segs = []
  pend : s.pend = 0
  flt : s.flt = []

theorem flush_good {s : St} (hf : s.flt = []) (hi : s.bytes.length = s.pend) (h16 : 16 ≤ s.bytes.length)
    (hd : Fuse.rd 4 0 s.bytes = s.bytes.length) :
    (flushToDev s).1 = .ok ∧ (flushToDev s).2.outq = s.outq ++ [s.bytes] ∧ (flushToDev s).2.bytes = [] ∧
    (flushToDev s).2.pend = 0 := by
  have ht : s.bytes.take s.pend = s.bytes := List.take_of_length_le (by omega)
  unfold flushToDev
  rw [if_neg (by omega), if_neg (by simp [St.fault, hf]), if_neg (by intro h; rw [h] at h16; simp at h16), ht,
    if_pos (by unfold devTakes; rw [decide_eq_true h16, decide_eq_true hd]; rfl)]
  refine ⟨rfl, rfl, ?_, ?_⟩
  · show (dropB s.pend s.segs).flatten = []
    rw [dropB_flatten]
    exact List.drop_eq_nil_of_le (by rw [← hi]; exact Nat.le_refl _)
  · show s.pend - s.bytes.length = 0
    omega

/-- A read whose reply has room in the pipe is answered with its data, and leaves the pipe empty. -/
theorem doRead_full (unique len : Nat) (sc : Script) (s : St) (h : Idle s) (hr : sc.res = 0)
    (h50 : sc.pieces.length ≤ 50) (hlen : total sc.pieces ≤ len) (hsz : 16 + total sc.pieces ≤ s.size)
    (hcap : slotsNeeded sc.pieces ≤ s.cap) (hlt : s.size < 4294967296) :
    (doRead unique len sc s).1 = .ok ∧
    (doRead unique len sc s).2.outq = s.outq ++ [Fuse.replyOk unique (dataOf s.mem sc.pieces)] ∧
    (doRead unique len sc s).2.bytes = [] ∧ (doRead unique len sc s).2.pend = 0 := by
  have hg : ∀ (l acc : List Iov) (nrd : Nat), acc.length + l.length ≤ 50 → nrd + total l ≤ len →
      rdGather len sc.res l acc nrd = (.ok, acc ++ l, nrd + total l) := by
    intro l
    induction l with
    | nil => intro acc nrd _ _; simp [rdGather, hr, total]
    | cons v l ih =>
      intro acc nrd h1 h2
      have ht : total (v :: l) = v.len + total l := by simp [total]
      simp only [List.length_cons] at h1
      rw [rdGather, if_neg (by omega), if_neg (by omega), ih _ _ (by simp only [List.length_append, List.length_cons, List.length_nil]; omega) (by omega), ht,
        List.append_assoc, Nat.add_assoc]
      rfl
  unfold doRead
  rw [hg sc.pieces [] 0 (by simpa using h50) (by omega), List.nil_append, Nat.zero_add]
  simp only
  by_cases hl : sc.pieces.length ≤ 1
  · rw [if_pos hl]
    have hd : (dataOf s.mem sc.pieces).length = total sc.pieces := loads_length _ _
    have he : (sc.pieces.map (load s.mem)).flatten.take (total sc.pieces) = dataOf s.mem sc.pieces :=
      List.take_of_length_le (by rw [← hd]; exact Nat.le_refl _)
    rw [he]
    unfold sendMsg
    rw [if_neg (by simp [St.fault, h.flt])]
    exact ⟨rfl, rfl, by show s.segs.flatten = []; rw [h.segs]; rfl, h.pend⟩
  · rw [if_neg hl]
    unfold replyIov appendFromBuf
    unfold slotsNeeded at hcap
    rw [if_neg (by simp [St.fault, h.flt]), if_neg (by rw [h.segs, List.length_nil]; omega), tick_eq h.flt]
    simp only
    have hdl : (Fuse.outHdr (16 + total sc.pieces) 0 unique).length = 16 := outHdr_length _ _ _
    obtain ⟨a1, a2, a3, a4, a5, a6⟩ := append_room sc.pieces.length sc.pieces
      { s with segs := s.segs ++ [Fuse.outHdr (16 + total sc.pieces) 0 unique],
               pend := s.pend + (Fuse.outHdr (16 + total sc.pieces) 0 unique).length } (Nat.le_refl _) h.flt
      (by show (s.segs ++ [_]).length + _ ≤ s.cap
          rw [h.segs]; simp only [List.nil_append, List.length_cons, List.length_nil]; omega)
      (by show _ ≤ s.size - (s.pend + _)
          rw [h.pend, hdl]; omega)
      (by show (s.segs ++ [_]).flatten.length ≤ s.pend + _
          rw [h.segs, h.pend]; simp)
    revert a1 a2 a3 a4 a5 a6
    generalize appendData _ _ _ = q
    intro a1 a2 a3 a4 a5 a6
    obtain ⟨r, s2⟩ := q
    cases r with
    | err e => cases a1
    | hang => cases a1
    | ok =>
      have hb : s2.bytes = Fuse.outHdr (16 + total sc.pieces) 0 unique ++ dataOf s.mem sc.pieces := by
        rw [show s2.bytes = _ from a4]
        show (s.segs ++ [_]).flatten ++ _ = _
        rw [h.segs]; simp
      have hbl : s2.bytes.length = 16 + total sc.pieces := by
        rw [hb, List.length_append, hdl, dataOf, loads_length]
      have hp : s2.pend = 16 + total sc.pieces := by
        rw [show s2.pend = _ from a5]
        show s.pend + _ + _ = _
        rw [h.pend, hdl, Nat.zero_add]
      obtain ⟨f1, f2, f3, f4⟩ := flush_good (s := s2) a2 (by rw [hbl, hp]) (by omega)
        (by rw [hbl, hb]; exact outHdr_len _ _ _ _ (by omega))
      refine ⟨f1, ?_, f3, f4⟩
      show (flushToDev s2).2.outq = _
      have hd : (dataOf s.mem sc.pieces).length = total sc.pieces := loads_length _ _
      rw [f2, show s2.outq = _ from a3, hb, Fuse.replyOk, hd]

theorem take_short {l : List Buf} {k : Nat} (hne : ∀ x ∈ l, x ≠ []) (hk : k < l.length) :
    (l.take k).flatten.length < l.flatten.length := by
  have e : l.flatten = (l.take k).flatten ++ (l.drop k).flatten := by rw [← List.flatten_append, List.take_append_drop]
  have : (l.drop k).flatten ≠ [] := by
    intro h
    have := nonempty_flatten (fun x hx => hne x (List.mem_of_mem_drop hx)) h
    have := congrArg List.length this
    simp only [List.length_drop, List.length_nil] at this
    omega
  have : (l.drop k).flatten.length ≠ 0 := fun h => this (List.length_eq_zero_iff.mp h)
  rw [e, List.length_append]
  omega

/-- A read whose reply fits in the pipe by its bytes, but not by its pages, gets no answer, and its thread an error. -/
theorem doRead_short (unique len : Nat) (sc : Script) (s : St) (h : Idle s) (hr : sc.res = 0)
    (h1 : 1 < sc.pieces.length) (h48 : sc.pieces.length ≤ 48) (hlen : total sc.pieces ≤ len)
    (hsz : 16 + total sc.pieces ≤ s.size) (hcap : s.cap < slotsNeeded sc.pieces) (hc2 : 2 ≤ s.cap) (hlt : s.size < 4294967296) :
    (doRead unique len sc s).1 = .err 22 ∧ (doRead unique len sc s).2.outq = s.outq := by
  have hg : ∀ (l acc : List Iov) (nrd : Nat), acc.length + l.length ≤ 50 → nrd + total l ≤ len →
      rdGather len sc.res l acc nrd = (.ok, acc ++ l, nrd + total l) := by
    intro l
    induction l with
    | nil => intro acc nrd _ _; simp [rdGather, hr, total]
    | cons v l ih =>
      intro acc nrd h1 h2
      have ht : total (v :: l) = v.len + total l := by simp [total]
      simp only [List.length_cons] at h1
      rw [rdGather, if_neg (by omega), if_neg (by omega), ih _ _ (by simp only [List.length_append, List.length_cons, List.length_nil]; omega) (by omega), ht,
        List.append_assoc, Nat.add_assoc]
      rfl
  unfold doRead
  rw [hg sc.pieces [] 0 (by simp only [List.length_nil]; omega) (by omega), List.nil_append, Nat.zero_add]
  simp only
  rw [if_neg (by omega)]
  unfold replyIov appendFromBuf
  unfold slotsNeeded at hcap
  rw [if_neg (by simp [St.fault, h.flt]), if_neg (by rw [h.segs, List.length_nil]; omega), tick_eq h.flt]
  have hdl : (Fuse.outHdr (16 + total sc.pieces) 0 unique).length = 16 := outHdr_length _ _ _
  rw [h.segs, h.pend, hdl, List.nil_append, Nat.zero_add]
  simp only
  obtain ⟨n, hn⟩ : ∃ n, sc.pieces.length = n + 1 := ⟨sc.pieces.length - 1, by omega⟩
  rw [hn, appendData, if_neg (by intro hc; rw [hc] at h1; simp at h1), List.take_of_length_le h48,
    List.drop_eq_nil_of_le h48, vm_exact _ _ (by exact h.flt) (by show _ ≤ s.size - 16; omega)]
  have hsl : ((sc.pieces.map (slotsOf s.mem)).flatten).length = (sc.pieces.map pages).sum := slots_length _ _
  simp only
  rw [if_neg (by intro hc; rw [hc] at hsl; simp only [List.length_nil] at hsl; omega),
    if_neg (by simp only [List.length_cons, List.length_nil]; omega)]
  have hend : ∀ (s' : St), appendData n [] s' = (.ok, s') := by
    intro s'
    cases n with
    | zero => rfl
    | succ n => rw [appendData, if_pos rfl]
  simp only [hend]
  have hshort : (((sc.pieces.map (slotsOf s.mem)).flatten).take (s.cap - 1)).flatten.length < total sc.pieces := by
    have := take_short (slots_ne s.mem sc.pieces) (k := s.cap - 1) (by rw [hsl]; omega)
    rw [slots_flatten, loads_length] at this
    exact this
  generalize hx : ((sc.pieces.map (slotsOf s.mem)).flatten).take (s.cap - [Fuse.outHdr (16 + total sc.pieces) 0 unique].length) = x
  have hx' : x.flatten.length < total sc.pieces := by rw [← hx]; exact hshort
  generalize hs2 : (St.mk _ _ _ _ _ _ _ _ _ : St) = s2
  have hb : s2.bytes = Fuse.outHdr (16 + total sc.pieces) 0 unique ++ x.flatten := by
    rw [← hs2]
    show ([_] ++ x).flatten = _
    simp
  have hp : s2.pend = 16 + x.flatten.length := by rw [← hs2]
  have hf : s2.flt = [] := by rw [← hs2]; show s.flt.tail = []; rw [h.flt]; rfl
  have ho : s2.outq = s.outq := by rw [← hs2]; rfl
  unfold flushToDev
  have ht : s2.bytes.take s2.pend = s2.bytes := List.take_of_length_le (by rw [hb, hp, List.length_append, hdl]; omega)
  rw [if_neg (by omega), if_neg (by simp [St.fault, hf]), if_neg (by
    intro hc
    have := congrArg List.length (hb.symm.trans hc)
    rw [List.length_append, hdl] at this
    simp only [List.length_nil] at this
    omega), ht]
  rw [if_neg (by
    unfold devTakes
    rw [hb, outHdr_len _ _ _ _ (by omega), List.length_append, hdl, Bool.and_eq_true, decide_eq_true_eq, decide_eq_true_eq]
    omega)]
  exact ⟨rfl, ho⟩

end Silofs.Pp
