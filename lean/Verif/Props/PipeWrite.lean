import Verif.Props.PipeLow
set_option linter.unusedSimpArgs false
namespace Silofs.Pp
open Silofs.Fuse (Buf)

/-- `pend` never says less than is in the pipe. -/
def Inv (s : St) : Prop := s.bytes.length ≤ s.pend

@[simp] theorem tick_bytes (s : St) : s.tick.bytes = s.bytes := rfl
@[simp] theorem tick_pend (s : St) : s.tick.pend = s.pend := rfl
@[simp] theorem tick_mem (s : St) : s.tick.mem = s.mem := rfl
@[simp] theorem tick_outq (s : St) : s.tick.outq = s.outq := rfl
@[simp] theorem tick_segs (s : St) : s.tick.segs = s.segs := rfl
@[simp] theorem tick_cap (s : St) : s.tick.cap = s.cap := rfl
@[simp] theorem tick_size (s : St) : s.tick.size = s.size := rfl
@[simp] theorem tick_inq (s : St) : s.tick.inq = s.inq := rfl
@[simp] theorem tick_active (s : St) : s.tick.active = s.active := rfl

theorem countCeil_one (p : Nat) (v : Iov) : countCeil p 0 [v] = if p = 0 then 0 else 1 := by
  unfold countCeil countCeil
  by_cases h : p = 0
  · rw [if_pos h, if_pos (by omega)]
  · rw [if_neg h, if_neg (by omega)]

/-- What filling one piece does. -/
structure Fill (s : St) (v : Iov) (r : R × St) : Prop where
  nohang : r.1 ≠ .hang
  outq : r.2.outq = s.outq
  inq : r.2.inq = s.inq
  active : r.2.active = s.active
  mem : ∀ a, ¬ (v.base ≤ a ∧ a < v.base + v.len) → r.2.mem a = s.mem a
  inv : Inv s → Inv r.2
  done : s.bytes.length = s.pend → v.len ≤ s.bytes.length → r.1 = .ok →
    r.2.bytes = s.bytes.drop v.len ∧ r.2.pend = s.pend - v.len ∧
    ∀ i, i < v.len → (s.bytes)[i]? = some (r.2.mem (v.base + i))

theorem fill (s : St) (v : Iov) : Fill s v (vmspliceToIov s v) := by
  unfold vmspliceToIov
  by_cases h0 : s.fault.1 ≠ 0
  · rw [if_pos h0]
    exact ⟨by simp, rfl, rfl, rfl, fun _ _ => rfl, id, by simp⟩
  rw [if_neg h0]
  by_cases h1 : countCeil s.pend 0 [v] = 0 ∨ v.len = 0
  · rw [if_pos h1]
    refine ⟨by simp, rfl, rfl, rfl, fun _ _ => rfl, id, ?_⟩
    intro hb hl _
    have hv : v.len = 0 := by
      rcases h1 with h1 | h1
      · rw [countCeil_one] at h1
        by_cases hp : s.pend = 0
        · omega
        · rw [if_neg hp] at h1; omega
      · exact h1
    refine ⟨by rw [hv, List.drop_zero]; rfl, by rw [hv]; rfl, fun i hi => by omega⟩
  rw [if_neg h1]
  by_cases h2 : s.bytes = []
  · rw [if_pos h2]
    exact ⟨by simp, rfl, rfl, rfl, fun _ _ => rfl, id, by simp⟩
  rw [if_neg h2]
  have hmem : ∀ a, ¬ (v.base ≤ a ∧ a < v.base + v.len) → store s.mem v.base (s.bytes.take v.len) a = s.mem a := by
    intro a ha
    apply store_out
    rw [List.length_take]
    omega
  by_cases h3 : (s.bytes.take v.len).length ≠ v.len ∨ (s.bytes.take v.len).length > s.pend
  · rw [if_pos h3]
    refine ⟨by simp, rfl, rfl, rfl, hmem, ?_, by simp⟩
    intro hi
    show (dropB v.len s.segs).flatten.length ≤ s.pend
    rw [dropB_flatten, List.length_drop]
    have : s.segs.flatten.length ≤ s.pend := hi
    omega
  · rw [if_neg h3]
    refine ⟨by simp, rfl, rfl, rfl, hmem, ?_, ?_⟩
    · intro hi
      show (dropB v.len s.segs).flatten.length ≤ s.pend - v.len
      rw [dropB_flatten, List.length_drop]
      have : s.segs.flatten.length ≤ s.pend := hi
      omega
    · intro _ hl _
      refine ⟨dropB_flatten _ _, rfl, fun i hi => ?_⟩
      show _ = some (store s.mem v.base (s.bytes.take v.len) (v.base + i))
      rw [store_in _ _ _ _ (by rw [List.length_take]; omega), List.getElem?_take_of_lt hi]

/-- What holds of the memory, the pipe and the pieces already filled at any time of a write: `fs` were filled in that
order, with the first bytes of `data`, and the rest of `data` is in the pipe. -/
structure Prog (data : Buf) (s0 : St) (fs : List Iov) (s : St) : Prop where
  outq : s.outq = s0.outq
  inq : s.inq = s0.inq
  active : s.active = s0.active
  bytes : s.bytes = data.drop (total fs)
  pend : s.pend = s.bytes.length
  le : total fs ≤ data.length
  holds : Holds s.mem fs (data.take (total fs))

/-- Memory outside of `all` is as before. -/
def Outside (all : List Iov) (s0 s : St) : Prop := ∀ a, ¬ Inside all a → s.mem a = s0.mem a

theorem total_append (l l2 : List Iov) : total (l ++ l2) = total l + total l2 := by simp [total]
theorem total_one (v : Iov) : total [v] = v.len := by simp [total]

theorem apart_last {fs : List Iov} {v : Iov} {rest : List Iov} (h : Apart (fs ++ v :: rest)) :
    ∀ a, Inside fs a → ¬ (v.base ≤ a ∧ a < v.base + v.len) := by
  intro a ⟨w, hw, h1, h2⟩
  have := (List.pairwise_append.mp h).2.2 w hw v (List.mem_cons_self)
  exact this a h1 h2

theorem Prog.fill {data : Buf} {s0 s : St} {fs rest : List Iov} {v : Iov} (hp : Prog data s0 fs s)
    (ha : Apart (fs ++ v :: rest)) (hl : total (fs ++ v :: rest) ≤ data.length)
    (hok : (vmspliceToIov s v).1 = .ok) : Prog data s0 (fs ++ [v]) (vmspliceToIov s v).2 := by
  have f := Pp.fill s v
  have hl1 : total fs + v.len ≤ data.length := by
    rw [total_append] at hl
    have : total (v :: rest) = v.len + total rest := by simp [total]
    omega
  have hb : s.bytes.length = data.length - total fs := by rw [hp.bytes, List.length_drop]
  obtain ⟨d1, d2, d3⟩ := f.done hp.pend.symm (by omega) hok
  refine ⟨by rw [f.outq, hp.outq], by rw [f.inq, hp.inq], by rw [f.active, hp.active], ?_, ?_, ?_, ?_⟩
  · rw [d1, hp.bytes, List.drop_drop, total_append, total_one]
  · rw [d2, hp.pend, d1, List.length_drop]
  · rw [total_append, total_one]; exact hl1
  · apply holds_append
    · rw [List.take_take, total_append, Nat.min_eq_left (by omega)]
      exact holds_congr (fun a h => f.mem a (apart_last ha a h)) hp.holds
    · refine ⟨fun i hi => ?_, ?_⟩
      · rw [List.getElem?_drop, List.getElem?_take_of_lt (by rw [total_append, total_one]; omega)]
        rw [← d3 i hi, hp.bytes, List.getElem?_drop]
      · show List.drop _ _ = []
        apply List.drop_eq_nil_of_le
        rw [List.length_drop, List.length_take, total_append, total_one]
        omega

theorem outside_fill {all : List Iov} {s0 s : St} {v : Iov} (hv : v ∈ all) (h : Outside all s0 s) :
    Outside all s0 (vmspliceToIov s v).2 := by
  intro a ha
  rw [(fill s v).mem a (fun hc => ha ⟨v, hv, hc⟩), h a ha]

theorem wrCheck_nohang (s : St) (max : Nat) (w : Wr) (v : Iov) : wrCheck s max w v ≠ .hang := by
  unfold wrCheck
  repeat' split
  all_goals simp

/-- Gathering in the mode that fills at once. -/
theorem gather_sync {data : Buf} {s0 : St} (max res : Nat) : ∀ (rest fs : List Iov) (w : Wr) (s : St),
    Prog data s0 fs s → Apart (fs ++ rest) → total (fs ++ rest) ≤ data.length → Outside (fs ++ rest) s0 s →
    w.iovs = fs → w.ncp = fs.length → w.nwr = total fs →
    (wrGather false max res rest w s).2.2.outq = s0.outq ∧
    (wrGather false max res rest w s).1 ≠ .hang ∧
    Outside (fs ++ rest) s0 (wrGather false max res rest w s).2.2 ∧
    ((wrGather false max res rest w s).1 = .ok →
      res = 0 ∧ Prog data s0 (fs ++ rest) (wrGather false max res rest w s).2.2 ∧
      (wrGather false max res rest w s).2.1 = ⟨fs ++ rest, total (fs ++ rest), (fs ++ rest).length⟩) ∧
    (wrGather false max res rest w s).2.1.ncp = (wrGather false max res rest w s).2.1.iovs.length := by
  intro rest
  induction rest with
  | nil =>
    intro fs w s hp ha hl ho h1 h2 h3
    rw [wrGather, List.append_nil] at *
    refine ⟨hp.outq, by split <;> simp, ho, ?_, by rw [h1, h2]⟩
    intro hok
    have hr : res = 0 := by
      by_cases hr : res = 0
      · exact hr
      · simp [hr] at hok
    refine ⟨hr, hp, ?_⟩
    cases w
    simp_all
  | cons v rest ih =>
    intro fs w s hp ha hl ho h1 h2 h3
    have hmem : v ∈ fs ++ v :: rest := List.mem_append_right _ List.mem_cons_self
    rw [wrGather, wrActor]
    cases hc : wrCheck s max w v with
    | err e =>
      refine ⟨hp.outq, by simp, ho, by simp, ?_⟩
      show w.ncp = w.iovs.length
      rw [h1, h2]
    | hang => exact absurd hc (wrCheck_nohang s max w v)
    | ok =>
      simp only [Bool.false_eq_true, if_false]
      have f := fill s v
      have ho' := outside_fill hmem ho
      have hpf := @Prog.fill data s0 s fs rest v hp ha hl
      revert f ho' hpf
      generalize vmspliceToIov s v = q
      intro f ho' hpf
      obtain ⟨r, s'⟩ := q
      cases r with
      | hang => exact absurd rfl f.nohang
      | err e => exact ⟨by rw [← hp.outq]; exact f.outq, by simp, ho', by simp, by show w.ncp = w.iovs.length; rw [h1, h2]⟩
      | ok =>
        have e1 : fs ++ v :: rest = (fs ++ [v]) ++ rest := by rw [List.append_assoc]; rfl
        have := ih (fs ++ [v]) ⟨w.iovs ++ [v], w.nwr + v.len, w.ncp + 1⟩ s' (hpf rfl) (by rw [← e1]; exact ha)
          (by rw [← e1]; exact hl) (by rw [← e1]; exact ho') (by rw [h1]) (by simp [h2])
          (by rw [h3, total_append, total_one])
        rw [← e1] at this
        exact this

/-- Gathering in the mode that fills later: nothing happens to the pipe and the memory. -/
theorem gather_async (max res : Nat) : ∀ (rest : List Iov) (w : Wr) (s : St),
    (wrGather true max res rest w s).2.2 = s ∧
    (wrGather true max res rest w s).1 ≠ .hang ∧
    (wrGather true max res rest w s).2.1.ncp = w.ncp ∧ (wrGather true max res rest w s).2.1.nwr = w.nwr ∧
    (∃ k, (wrGather true max res rest w s).2.1.iovs = w.iovs ++ rest.take k) ∧
    ((wrGather true max res rest w s).1 = .ok →
      res = 0 ∧ (wrGather true max res rest w s).2.1.iovs = w.iovs ++ rest) := by
  intro rest
  induction rest with
  | nil =>
    intro w s
    rw [wrGather]
    refine ⟨rfl, by split <;> simp, rfl, rfl, ⟨0, by simp⟩, ?_⟩
    intro hok
    refine ⟨?_, by simp⟩
    by_cases hr : res = 0
    · exact hr
    · simp [hr] at hok
  | cons v rest ih =>
    intro w s
    rw [wrGather, wrActor]
    cases hc : wrCheck s max w v with
    | err e => exact ⟨rfl, by simp, rfl, rfl, ⟨0, by simp⟩, by simp⟩
    | hang => exact absurd hc (wrCheck_nohang s max w v)
    | ok =>
      simp only [if_true]
      obtain ⟨a1, a2, a3, a4, ⟨k, a5⟩, a6⟩ := ih { w with iovs := w.iovs ++ [v] } s
      refine ⟨a1, a2, a3, a4, ⟨k + 1, ?_⟩, fun h => ⟨(a6 h).1, ?_⟩⟩
      · rw [a5, List.take_succ_cons, List.append_assoc]; rfl
      · rw [(a6 h).2, List.append_assoc]; rfl

/-- Filling what was gathered. -/
theorem copy_spec {data : Buf} {s0 : St} : ∀ (rest fs : List Iov) (w : Wr) (s : St),
    Prog data s0 fs s → Apart (fs ++ rest) → total (fs ++ rest) ≤ data.length → Outside (fs ++ rest) s0 s →
    w.nwr = total fs →
    (wrCopy rest w s).2.2.outq = s0.outq ∧ (wrCopy rest w s).1 ≠ .hang ∧
    Outside (fs ++ rest) s0 (wrCopy rest w s).2.2 ∧
    ((wrCopy rest w s).1 = .ok →
      Prog data s0 (fs ++ rest) (wrCopy rest w s).2.2 ∧ (wrCopy rest w s).2.1.nwr = total (fs ++ rest)) := by
  intro rest
  induction rest with
  | nil =>
    intro fs w s hp ha hl ho h3
    rw [wrCopy, List.append_nil] at *
    exact ⟨hp.outq, by simp, ho, fun _ => ⟨hp, h3⟩⟩
  | cons v rest ih =>
    intro fs w s hp ha hl ho h3
    have hmem : v ∈ fs ++ v :: rest := List.mem_append_right _ List.mem_cons_self
    rw [wrCopy]
    have f := fill s v
    have ho' := outside_fill hmem ho
    have hpf := @Prog.fill data s0 s fs rest v hp ha hl
    revert f ho' hpf
    generalize vmspliceToIov s v = q
    intro f ho' hpf
    obtain ⟨r, s'⟩ := q
    cases r with
    | hang => exact absurd rfl f.nohang
    | err e => exact ⟨by rw [← hp.outq]; exact f.outq, by simp, ho', by simp⟩
    | ok =>
      have e1 : fs ++ v :: rest = (fs ++ [v]) ++ rest := by rw [List.append_assoc]; rfl
      have := ih (fs ++ [v]) ⟨w.iovs, w.nwr + v.len, w.ncp + 1⟩ s' (hpf rfl) (by rw [← e1]; exact ha)
        (by rw [← e1]; exact hl) (by rw [← e1]; exact ho') (by show w.nwr + v.len = _; rw [h3, total_append, total_one])
      rw [← e1] at this
      exact this

theorem inside_take {l : List Iov} {k a : Nat} (h : Inside (l.take k) a) : Inside l a := by
  obtain ⟨v, hv, h1⟩ := h
  exact ⟨v, List.mem_of_mem_take hv, h1⟩

theorem total_take_le (l : List Iov) (k : Nat) : total (l.take k) ≤ total l := by
  have := total_append (l.take k) (l.drop k)
  rw [List.take_append_drop] at this
  omega

/-- The whole operation, before its reply. -/
theorem finish_spec {s : St} (async : Bool) (max : Nat) (sc : Script) (hp : s.pend = s.bytes.length)
    (ha : Apart sc.pieces) (hl : total sc.pieces ≤ s.bytes.length) :
    (wrFinish (wrGather async max sc.res sc.pieces ⟨[], 0, 0⟩ s)).2.2.outq = s.outq ∧
    (wrFinish (wrGather async max sc.res sc.pieces ⟨[], 0, 0⟩ s)).1 ≠ .hang ∧
    Outside sc.pieces s (wrFinish (wrGather async max sc.res sc.pieces ⟨[], 0, 0⟩ s)).2.2 ∧
    ((wrFinish (wrGather async max sc.res sc.pieces ⟨[], 0, 0⟩ s)).1 = .ok →
      sc.res = 0 ∧ Prog s.bytes s sc.pieces (wrFinish (wrGather async max sc.res sc.pieces ⟨[], 0, 0⟩ s)).2.2 ∧
      (wrFinish (wrGather async max sc.res sc.pieces ⟨[], 0, 0⟩ s)).2.1.nwr = total sc.pieces) := by
  have hp0 : Prog s.bytes s [] s := ⟨rfl, rfl, rfl, by simp [total], hp, by simp [total], by simp [Holds, total]⟩
  cases async with
  | false =>
    obtain ⟨g1, g2, g3, g4, g5⟩ := gather_sync (data := s.bytes) (s0 := s) max sc.res sc.pieces [] ⟨[], 0, 0⟩ s hp0 ha hl
      (fun _ _ => rfl) rfl rfl rfl
    rw [List.nil_append] at g3 g4
    revert g1 g2 g3 g4 g5
    generalize wrGather false max sc.res sc.pieces ⟨[], 0, 0⟩ s = q
    intro g1 g2 g3 g4 g5
    unfold wrFinish
    rw [g5, List.drop_length, wrCopy]
    by_cases h1 : q.1 = .ok
    · rw [if_pos (Or.inl h1)]
      refine ⟨g1, by simp [h1], g3, fun _ => ⟨(g4 h1).1, (g4 h1).2.1, ?_⟩⟩
      show q.2.1.nwr = _
      rw [(g4 h1).2.2]
    · split
      · exact ⟨g1, by simp only [if_neg h1]; exact g2, g3, fun h => absurd (by simpa only [if_neg h1] using h) h1⟩
      · exact ⟨g1, g2, g3, fun h => absurd h h1⟩
  | true =>
    obtain ⟨g1, g2, g3, g4, ⟨k, g5⟩, g6⟩ := gather_async max sc.res sc.pieces ⟨[], 0, 0⟩ s
    revert g1 g2 g3 g4 g5 g6
    generalize wrGather true max sc.res sc.pieces ⟨[], 0, 0⟩ s = q
    intro g1 g2 g3 g4 g6 g5
    unfold wrFinish
    rw [g1, g3, List.drop_zero]
    simp only [List.nil_append] at g5 g6
    have hak : Apart (sc.pieces.take k) := List.Pairwise.sublist (List.take_sublist _ _) ha
    obtain ⟨c1, c2, c3, c4⟩ := copy_spec (data := s.bytes) (s0 := s) q.2.1.iovs [] q.2.1 s hp0
      (by rw [List.nil_append, g5]; exact hak)
      (by rw [List.nil_append, g5]; exact Nat.le_trans (total_take_le _ _) hl) (fun _ _ => rfl) g4
    rw [List.nil_append] at c3 c4
    have ho : Outside sc.pieces s (wrCopy q.2.1.iovs q.2.1 s).2.2 := by
      intro a hna
      exact c3 a (fun h => hna (inside_take (k := k) (by rw [← g5]; exact h)))
    by_cases h1 : q.1 = .ok
    · rw [if_pos (Or.inl h1)]
      simp only [if_pos h1]
      obtain ⟨g6a, g6b⟩ := g6 h1
      refine ⟨c1, c2, ho, fun h => ⟨g6a, ?_⟩⟩
      have := c4 h
      rw [g6b] at this
      rw [g6b]
      exact this
    · split
      · simp only [if_neg h1]
        exact ⟨c1, g2, ho, fun h => absurd h h1⟩
      · refine ⟨by rw [g1], g2, by rw [g1]; exact fun _ _ => rfl, fun h => absurd h h1⟩

end Silofs.Pp
