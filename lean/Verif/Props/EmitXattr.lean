import Verif.Props.Xattr
import Verif.Props.FuseAnswer
import Verif.Model.Emit
import Verif.Spec.Emit
/-
C52, first part: the list of the names of extended attributes, as a program gets it.
-/
set_option linter.unusedSimpArgs false
set_option linter.unusedVariables false

namespace Silofs.Emit
open Silofs.Fuse

/-- Names, each with its NUL. -/
def packed (ns : List (List Nat)) : Buf := (ns.map (· ++ [0])).flatten

theorem packed_cons (n : List Nat) (ns : List (List Nat)) : packed (n :: ns) = n ++ [0] ++ packed ns := rfl

theorem packed_append (a b : List (List Nat)) : packed (a ++ b) = packed a ++ packed b := by
  simp [packed]

theorem unpack_word (n cur : List Nat) (b : Buf) (h : NoNul n) : unpack cur (n ++ 0 :: b) = (cur ++ n) :: unpack [] b := by
  induction n generalizing cur with
  | nil => simp [unpack]
  | cons c n ih =>
    have hc : c ≠ 0 := h c (by simp)
    have hn : NoNul n := fun x hx => h x (by simp [hx])
    have := ih (cur ++ [c]) hn
    cases c with
    | zero => exact absurd rfl hc
    | succ c => rw [List.cons_append, unpack]; rw [this]; simp; simp

theorem unpack_packed (ns : List (List Nat)) (h : ∀ n ∈ ns, NoNul n) : unpack [] (packed ns) = ns := by
  induction ns with
  | nil => rfl
  | cons n ns ih =>
    rw [packed_cons, List.append_assoc, show [0] ++ packed ns = 0 :: packed ns from rfl,
      unpack_word n [] _ (h n (by simp)), ih (fun m hm => h m (by simp [hm]))]
    rfl

/-! ### One pass -/

theorem emitRange_append (xi : Xiter) (a b : List (List Nat)) :
    emitRange xi (a ++ b) = match emitRange xi a with
      | .err e => .err e
      | .ok xi' => emitRange xi' b := by
  induction a generalizing xi with
  | nil => rfl
  | cons n a ih =>
    rw [List.cons_append, emitRange, emitRange]
    cases fillxent xi n with
    | err e => rfl
    | ok xi' => exact ih xi'

theorem emitRange_count (xi : Xiter) (ns : List (List Nat)) (h : xi.room = none) :
    emitRange xi ns = .ok { xi with cnt := xi.cnt + (packed ns).length } := by
  induction ns generalizing xi with
  | nil => rfl
  | cons n ns ih =>
    rw [emitRange, fillxent, h]
    simp only
    rw [ih _ rfl, packed_cons]
    simp only [List.length_append, List.length_cons, List.length_nil]
    congr 2; omega

theorem emitRange_room (xi : Xiter) (ns : List (List Nat)) (r : Nat) (h : xi.room = some r)
    (hr : xi.buf.length ≤ r) :
    emitRange xi ns =
      if xi.buf.length + (packed ns).length ≤ r then
        .ok ⟨some r, xi.buf ++ packed ns, xi.cnt + (packed ns).length⟩
      else .err .range := by
  induction ns generalizing xi with
  | nil =>
    rw [emitRange, if_pos (by simpa [packed] using hr)]
    cases xi; simp only at h; simp [packed, h]
  | cons n ns ih =>
    rw [emitRange, fillxent, h]
    simp only
    rw [packed_cons]
    simp only [List.length_append, List.length_cons, List.length_nil]
    by_cases hs : r - xi.buf.length < n.length + 1
    · rw [if_pos hs, if_neg (by omega)]
    · rw [if_neg hs]
      simp only
      rw [ih _ rfl (by simp only [List.length_append, List.length_cons, List.length_nil]; omega)]
      simp only [List.length_append, List.length_cons, List.length_nil, List.append_assoc]
      by_cases ht : xi.buf.length + (n.length + (0 + 1)) + (packed ns).length ≤ r
      · rw [if_pos ht, if_pos (by omega)]; congr 2; omega
      · rw [if_neg ht, if_neg (by omega)]

/-- Emission while walking is the list, then emission. -/
theorem emitNodes_spec {io : Nat → Bool} {k : Nat} : ∀ {i : Nat} {s : Xattr.St} {xi : Xiter},
    Xattr.Same s (emitNodes io k i s xi).1 ∧
    (∀ ns, (Xattr.listAt io k i s).2 = .ok ns → (emitNodes io k i s xi).2 = emitRange xi ns) ∧
    (∀ xi', (emitNodes io k i s xi).2 = .ok xi' → ∃ ns, (Xattr.listAt io k i s).2 = .ok ns) := by
  induction k with
  | zero =>
    intro i s xi
    refine ⟨Xattr.Same.refl s, fun ns h => ?_, fun _ _ => ⟨[], rfl⟩⟩
    simp only [Xattr.listAt, Xattr.Res.ok.injEq] at h
    rw [← h]; rfl
  | succ k ih =>
    intro i s xi
    simp only [emitNodes, Xattr.listAt]
    cases hs : s.slot i with
    | none => exact ih
    | some x =>
      simp only
      cases hx : Xattr.stage io i x with
      | none => exact ⟨Xattr.Same.refl s, fun ns h => (by cases h), fun _ h => (by cases h)⟩
      | some x' =>
        simp only
        have hset : Xattr.Same s (s.set i x') := Xattr.Same.set (by rw [hs]; exact Xattr.stage_same hx)
        cases he : emitRange xi (Xattr.names x'.node.buf 0 x'.node.nents) with
        | err e =>
          simp only
          refine ⟨hset, fun ns h => ?_, fun _ h => (by cases h)⟩
          cases hl : Xattr.listAt io k (i + 1) (s.set i x') with
          | mk s1 r =>
            rw [hl] at h
            cases r with
            | err e => cases h
            | ok ns1 =>
              simp only [Xattr.Res.ok.injEq] at h
              rw [← h, emitRange_append, he]
        | ok xi1 =>
          simp only
          obtain ⟨h1, h2, h3⟩ := ih (i := i + 1) (s := s.set i x') (xi := xi1)
          refine ⟨hset.trans h1, fun ns h => ?_, fun xi' h => ?_⟩
          · cases hl : Xattr.listAt io k (i + 1) (s.set i x') with
            | mk s1 r =>
              rw [hl] at h h2
              cases r with
              | err e => cases h
              | ok ns1 =>
                simp only [Xattr.Res.ok.injEq] at h
                rw [← h, emitRange_append, he, h2 ns1 rfl]
          · obtain ⟨ns, hns⟩ := h3 xi' h
            cases hl : Xattr.listAt io k (i + 1) (s.set i x') with
            | mk s1 r =>
              rw [hl] at hns
              cases r with
              | err e => cases hns
              | ok ns1 => exact ⟨_, rfl⟩

theorem stage_some {io : Nat → Bool} (hio : ∀ i, io i = true) (i : Nat) (x : Xattr.Slot) :
    ∃ x', Xattr.stage io i x = some x' := by
  unfold Xattr.stage
  rw [if_pos (hio i)]
  cases x.cache <;> exact ⟨_, rfl⟩

theorem listAt_ok {io : Nat → Bool} (hio : ∀ i, io i = true) {k : Nat} : ∀ {i : Nat} {s : Xattr.St},
    ∃ ns, (Xattr.listAt io k i s).2 = .ok ns := by
  induction k with
  | zero => intro i s; exact ⟨_, rfl⟩
  | succ k ih =>
    intro i s
    simp only [Xattr.listAt]
    cases hs : s.slot i with
    | none => exact ih
    | some x =>
      simp only
      obtain ⟨x', hx⟩ := stage_some hio i x
      rw [hx]
      simp only
      obtain ⟨ns, h⟩ := ih (i := i + 1) (s := s.set i x')
      cases hl : Xattr.listAt io k (i + 1) (s.set i x') with
      | mk s1 r =>
        rw [hl] at h
        simp only at h
        rw [h]
        exact ⟨_, rfl⟩

/-! ### The list is short -/

theorem rep_packed {buf : Nat → Nat} {es : List Xattr.Entry} : ∀ {u tip : Nat}, Xattr.Rep buf u es tip →
    (packed (es.map (·.1))).length ≤ 8 * (tip - u) := by
  induction es with
  | nil => intro u tip h; simp [packed]
  | cons e es ih =>
    intro u tip h
    have h1 := ih h.2
    have h2 := h.2.le
    rw [List.map_cons, packed_cons]
    simp only [List.length_append, List.length_cons, List.length_nil]
    have : e.1.length + 1 ≤ 8 * e.units := by
      show e.1.length + 1 ≤ 8 * Xattr.units _ _
      unfold Xattr.units Xattr.up8
      omega
    omega

theorem flat_packed {s : Xattr.St} {es : Nat → List Xattr.Entry} (hh : Xattr.Holds s es) (k : Nat) : ∀ i,
    (packed ((List.range' i k).flatMap (fun j => (es j).map (·.1)))).length ≤ 4032 * k := by
  induction k with
  | zero => intro i; simp [packed]
  | succ k ih =>
    intro i
    rw [List.range'_succ, List.flatMap_cons, packed_append, List.length_append]
    have h1 := ih (i + 1)
    have h2 : (packed ((es i).map (·.1))).length ≤ 4032 := by
      have := hh i
      cases hs : s.slot i with
      | none => rw [hs] at this; simp only at this; rw [this]; simp [packed]
      | some x =>
        rw [hs] at this
        have h3 := rep_packed this.1
        have h4 := this.2
        unfold Xattr.nentsMax at h4
        omega
    omega

/-! ### C52 -/

/-- **C52** (names of attributes).  Let `m` be the attributes of an inode and let its nodes be readable.  There is one list
`ns` of the names of `m`, each once, such that for every `size`: a request with size zero is answered by the bytes
that the names need, and any other by exactly these names, if they fit, and by ERANGE, if they do not.  All names
together need less than 32K, so a program that asks for the size first and then with that size gets the list.
Nothing changes. -/
theorem C52_listxattr {io : Nat → Bool} {s : Xattr.St} {m : Xattr.XMap} (h : Xattr.Repr s m) (hio : ∀ i, io i = true)
    (hnul : ∀ n, m n ≠ none → NoNul n) :
    ∃ ns : List (List Nat), ns.Nodup ∧ (∀ n, n ∈ ns ↔ m n ≠ none) ∧ (packed ns).length ≤ 32256 ∧
      ∀ size,
        Xattr.Repr (listxattr io s size).1 m ∧
        (size = 0 → ∃ b, (listxattr io s size).2 = .ok b ∧ ∀ ino, kread (.listxattr ino 0) b = some (.count (packed ns).length)) ∧
        (0 < size → (packed ns).length ≤ size →
          ∃ b, (listxattr io s size).2 = .ok b ∧ (∀ ino, kread (.listxattr ino size) b = some (.bytes b)) ∧
            b.length ≤ size ∧ unpack [] b = ns) ∧
        (0 < size → size < (packed ns).length → (listxattr io s size).2 = .err .range) := by
  obtain ⟨ns, hns⟩ := listAt_ok hio (k := Xattr.nslots) (i := 0) (s := s)
  have h31 := (Xattr.C31_list (io := io) h).2.2 ns hns
  have hlen : (packed ns).length ≤ 32256 := by
    obtain ⟨es, hh, _⟩ := h
    rw [(Xattr.listAt_spec (io := io) (k := Xattr.nslots) (i := 0) (s := s)).2 ns hns es hh]
    exact flat_packed hh 8 0
  have hnn : ∀ n ∈ ns, NoNul n := fun n hn => hnul n ((h31.2 n).1 hn)
  refine ⟨ns, h31.1, h31.2, hlen, fun size => ?_⟩
  obtain ⟨e1, e2, _⟩ := emitNodes_spec (io := io) (k := Xattr.nslots) (i := 0) (s := s) (xi := xiterPrep size)
  have e2 := e2 ns hns
  cases he : emitNodes io Xattr.nslots 0 s (xiterPrep size) with
  | mk s1 r =>
    rw [he] at e1 e2
    simp only at e1 e2
    have hst : (listxattr io s size).1 = s1 := by
      unfold listxattr; rw [he]; cases r <;> rfl
    refine ⟨by rw [hst]; exact e1.repr h, fun hz => ?_, fun hz hf => ?_, fun hz hf => ?_⟩
    · rw [emitRange_count _ _ (by unfold xiterPrep; rw [if_neg (by omega)])] at e2
      refine ⟨leBytes 4 (packed ns).length ++ leBytes 4 0, ?_, fun ino => ?_⟩
      · unfold listxattr
        rw [he, e2]
        simp only [xiterPrep, if_neg (show ¬ 0 < size by omega), if_true, Nat.zero_add]
      · simp only [kread, if_true, rd_hit]
        rw [Nat.mod_eq_of_lt (by omega)]
    · rw [emitRange_room _ _ (min size 65536) (by unfold xiterPrep; rw [if_pos hz]) (Nat.zero_le _),
        if_pos (by simp only [xiterPrep, List.length_nil]; omega)] at e2
      have hb : (listxattr io s size).2 = .ok (packed ns) := by
        unfold listxattr
        rw [he, e2]
        simp only [xiterPrep, reduceCtorEq, if_false, List.nil_append, Nat.zero_add, List.take_length]
      refine ⟨packed ns, hb, fun ino => ?_, hf, unpack_packed ns hnn⟩
      simp only [kread, if_neg (show ¬ size = 0 by omega)]
    · rw [emitRange_room _ _ (min size 65536) (by unfold xiterPrep; rw [if_pos hz]) (Nat.zero_le _),
        if_neg (by simp only [xiterPrep, List.length_nil]; omega)] at e2
      unfold listxattr
      rw [he, e2]

/-- Whatever nodes can not be read: an answer that is not an error is the whole list. -/
theorem C52_listxattr_whole {io : Nat → Bool} {s : Xattr.St} {m : Xattr.XMap} (h : Xattr.Repr s m)
    (hnul : ∀ n, m n ≠ none → NoNul n) (size : Nat) (b : Buf) (hz : 0 < size) (hb : (listxattr io s size).2 = .ok b) :
    (unpack [] b).Nodup ∧ ∀ n, n ∈ unpack [] b ↔ m n ≠ none := by
  obtain ⟨_, e2, e3⟩ := emitNodes_spec (io := io) (k := Xattr.nslots) (i := 0) (s := s) (xi := xiterPrep size)
  unfold listxattr at hb
  cases he : emitNodes io Xattr.nslots 0 s (xiterPrep size) with
  | mk s1 r =>
    rw [he] at hb e2 e3
    cases r with
    | err e => cases hb
    | ok xi =>
      obtain ⟨ns, hns⟩ := e3 xi rfl
      have h31 := (Xattr.C31_list (io := io) h).2.2 ns hns
      have e := e2 ns hns
      simp only at e
      rw [emitRange_room _ _ (min size 65536) (by unfold xiterPrep; rw [if_pos hz]) (Nat.zero_le _)] at e
      split at e
      · simp only [Xattr.Res.ok.injEq] at e
        rw [e] at hb
        simp only [reduceCtorEq, if_false, xiterPrep, List.nil_append, Nat.zero_add, List.take_length,
          Xattr.Res.ok.injEq] at hb
        rw [← hb, unpack_packed ns (fun n hn => hnul n ((h31.2 n).1 hn))]
        exact h31
      · cases e

end Silofs.Emit
