import Verif.Model.Dir
import Verif.Props.DirIndex
/-
Invariant of the directory tree and its preservation by every operation.
-/
set_option linter.unusedSimpArgs false
set_option linter.unusedVariables false
namespace Silofs.Dir

/-- Entry `e` sits in slot `s` of node `i`. -/
def EntAt (nodes : Nat → Option Node) (i s : Nat) (e : Ent) : Prop :=
  ∃ n, nodes i = some n ∧ n.slots[s]? = some (some e)

/-- Index of the node at depth `k` on the path of `hash`. -/
def pathIdx (hash : Nat) : Nat → Nat
  | 0 => 1
  | k + 1 => child (pathIdx hash k) (hashOrd hash (k + 1))

theorem hashOrd_lt (h k : Nat) : hashOrd h k < 64 := Nat.mod_lt _ (by decide)

theorem pathIdx_pos (h k : Nat) : 1 ≤ pathIdx h k := by
  cases k <;> simp [pathIdx, child]

theorem pathIdx_depth (h k : Nat) : depth (pathIdx h k) = k := by
  induction k with
  | zero => exact depth_le_one _ (by simp [pathIdx])
  | succ k ih =>
    rw [pathIdx, C12_depth_child _ _ (pathIdx_pos h k) (hashOrd_lt _ _), ih]

theorem pathIdx_parent (h k : Nat) : parent (pathIdx h (k + 1)) = pathIdx h k := by
  rw [pathIdx]
  exact (C12_parent_of_child _ _ (pathIdx_pos h k) (hashOrd_lt _ _)).1

/-! ### Node operations -/

theorem searchFrom_sound (h : Nat) (nm : Name) (l : List (Option Ent)) (k s : Nat) (e : Ent)
    (hs : searchFrom h nm k l = some (s, e)) :
    k ≤ s ∧ l[s - k]? = some (some e) ∧ e.matches h nm = true := by
  induction l generalizing k with
  | nil => simp [searchFrom] at hs
  | cons x l ih =>
    cases x with
    | none =>
      rw [searchFrom] at hs
      have := ih _ hs
      refine ⟨by omega, ?_, this.2.2⟩
      rw [show s - k = (s - (k + 1)) + 1 by omega, List.getElem?_cons_succ]
      exact this.2.1
    | some x =>
      rw [searchFrom] at hs
      by_cases hm : x.matches h nm = true
      · rw [if_pos hm] at hs
        simp only [Option.some.injEq, Prod.mk.injEq] at hs
        obtain ⟨rfl, rfl⟩ := hs
        simp [hm]
      · rw [if_neg hm] at hs
        have := ih _ hs
        refine ⟨by omega, ?_, this.2.2⟩
        rw [show s - k = (s - (k + 1)) + 1 by omega, List.getElem?_cons_succ]
        exact this.2.1

theorem searchFrom_none (h : Nat) (nm : Name) (l : List (Option Ent)) (k : Nat)
    (hs : searchFrom h nm k l = none) (s : Nat) (e : Ent) (he : l[s]? = some (some e)) :
    e.matches h nm = false := by
  induction l generalizing k s with
  | nil => simp at he
  | cons x l ih =>
    cases x with
    | none =>
      rw [searchFrom] at hs
      cases s with
      | zero => simp at he
      | succ s => exact ih _ hs s (by simpa using he)
    | some x =>
      rw [searchFrom] at hs
      by_cases hm : x.matches h nm = true
      · rw [if_pos hm] at hs; simp at hs
      · rw [if_neg hm] at hs
        cases s with
        | zero =>
          simp only [List.getElem?_cons_zero, Option.some.injEq] at he
          subst he; simpa using hm
        | succ s => exact ih _ hs s (by simpa using he)

theorem matches_iff (e : Ent) (h : Nat) (nm : Name) :
    e.matches h nm = true ↔ e.hash = h % 16777216 ∧ e.name = nm := by
  simp [Ent.matches]

/-- Where `putFirst` puts the entry. -/
def freeSlot : List (Option Ent) → Nat
  | [] => 0
  | none :: _ => 0
  | some _ :: l => freeSlot l + 1

theorem putFirst_get (e : Ent) (l : List (Option Ent)) (s : Nat) (x : Ent) :
    (putFirst e l)[s]? = some (some x) ↔
      (s = freeSlot l ∧ x = e) ∨ (s ≠ freeSlot l ∧ l[s]? = some (some x)) := by
  induction l generalizing s with
  | nil =>
    cases s with
    | zero => simp [putFirst, freeSlot]; exact ⟨Eq.symm, Eq.symm⟩
    | succ s => simp [putFirst, freeSlot]
  | cons y l ih =>
    cases y with
    | none =>
      cases s with
      | zero => simp [putFirst, freeSlot]; exact ⟨Eq.symm, Eq.symm⟩
      | succ s => simp [putFirst, freeSlot]
    | some y =>
      cases s with
      | zero => simp [putFirst, freeSlot]
      | succ s => simp [putFirst, freeSlot, ih]

theorem freeSlot_free (l : List (Option Ent)) (x : Ent) : l[freeSlot l]? ≠ some (some x) := by
  induction l with
  | nil => simp [freeSlot]
  | cons y l ih =>
    cases y with
    | none => simp [freeSlot]
    | some y => simpa [freeSlot] using ih

theorem freeSlot_le (l : List (Option Ent)) : freeSlot l ≤ l.length := by
  induction l with
  | nil => simp [freeSlot]
  | cons y l ih => cases y <;> simp [freeSlot]; exact ih

theorem putFirst_length (e : Ent) (l : List (Option Ent)) :
    (putFirst e l).length = if freeSlot l < l.length then l.length else l.length + 1 := by
  induction l with
  | nil => simp [putFirst, freeSlot]
  | cons y l ih =>
    cases y with
    | none => simp [putFirst, freeSlot]
    | some y =>
      simp only [putFirst, freeSlot, List.length_cons, ih, Nat.add_lt_add_iff_right]
      split <;> rfl

theorem trimEnd_get (l : List (Option Ent)) (s : Nat) (x : Ent) :
    (trimEnd l)[s]? = some (some x) ↔ l[s]? = some (some x) := by
  induction l generalizing s with
  | nil => simp [trimEnd]
  | cons y l ih =>
    rw [trimEnd]
    split
    · rename_i h1
      simp only [Bool.and_eq_true, Option.isNone_iff_eq_none, List.isEmpty_iff] at h1
      cases s with
      | zero => simp [h1.1]
      | succ s => simp [← ih, h1]
    · cases s with
      | zero => simp
      | succ s => simp [ih]

theorem trimEnd_length (l : List (Option Ent)) : (trimEnd l).length ≤ l.length := by
  induction l with
  | nil => simp [trimEnd]
  | cons y l ih =>
    rw [trimEnd]; split <;> simp
    exact ih

/-- Bytes of the names in a slot table. -/
def nameBytes : List (Option Ent) → Nat
  | [] => 0
  | none :: l => nameBytes l
  | some e :: l => e.name.length + nameBytes l

theorem nameBytes_putFirst (e : Ent) (l : List (Option Ent)) :
    nameBytes (putFirst e l) = nameBytes l + e.name.length := by
  induction l with
  | nil => simp [putFirst, nameBytes]
  | cons y l ih => cases y <;> simp [putFirst, nameBytes, ih] <;> omega

theorem nameBytes_trimEnd (l : List (Option Ent)) : nameBytes (trimEnd l) = nameBytes l := by
  induction l with
  | nil => simp [trimEnd]
  | cons y l ih =>
    rw [trimEnd]
    split
    · rename_i h1
      simp only [Bool.and_eq_true, Option.isNone_iff_eq_none, List.isEmpty_iff] at h1
      rw [h1.1]
      simp only [nameBytes]
      rw [← ih, h1.2]
      rfl
    · cases y <;> simp [nameBytes, ih]

theorem nameBytes_set (l : List (Option Ent)) (s : Nat) (e : Ent) (h : l[s]? = some (some e)) :
    nameBytes (l.set s none) + e.name.length = nameBytes l := by
  induction l generalizing s with
  | nil => simp at h
  | cons y l ih =>
    cases s with
    | zero =>
      simp only [List.getElem?_cons_zero, Option.some.injEq] at h
      subst h
      simp [nameBytes]; omega
    | succ s =>
      have := ih s (by simpa using h)
      cases y <;> simp [nameBytes] <;> omega

/-- A node is consistent: name bytes are counted right, the table and the
packed names fit the node. -/
def Node.WF (n : Node) : Prop := n.nnb = nameBytes n.slots ∧ n.used ≤ 7680

theorem Node.empty_wf : Node.empty.WF := by simp [Node.WF, Node.empty, nameBytes, Node.used]

theorem Node.insert_wf (n : Node) (h : Nat) (nm : Name) (ino dt : Nat) (hw : n.WF)
    (hm : n.mayInsert nm.length = true) : (n.insert h nm ino dt).WF := by
  unfold Node.WF Node.used Node.insert Node.mayInsert Node.used at *
  simp only [decide_eq_true_eq] at hm
  simp only [nameBytes_putFirst, putFirst_length]
  refine ⟨by omega, ?_⟩
  split <;> omega

theorem Node.remove_wf (n : Node) (s : Nat) (e : Ent) (hw : n.WF)
    (he : n.slots[s]? = some (some e)) : (n.remove s e).WF := by
  unfold Node.WF Node.used Node.remove at *
  have h1 := nameBytes_set n.slots s e he
  have h2 := trimEnd_length (n.slots.set s none)
  simp only [nameBytes_trimEnd]
  simp only [List.length_set] at h2
  omega

theorem Node.insert_get (n : Node) (h : Nat) (nm : Name) (ino dt s : Nat) (x : Ent) :
    (n.insert h nm ino dt).slots[s]? = some (some x) ↔
      (s = freeSlot n.slots ∧ x = ⟨h % 16777216, nm, ino, dt⟩) ∨
      (s ≠ freeSlot n.slots ∧ n.slots[s]? = some (some x)) := putFirst_get _ _ _ _

theorem Node.remove_get (n : Node) (t : Nat) (e : Ent) (s : Nat) (x : Ent) :
    (n.remove t e).slots[s]? = some (some x) ↔ s ≠ t ∧ n.slots[s]? = some (some x) := by
  unfold Node.remove
  simp only [trimEnd_get]
  rw [List.getElem?_set]
  by_cases hst : t = s
  · subst hst
    simp
  · simp [hst]; intro _ h; exact hst h.symm

/-! ### The tree invariant -/

structure Inv (d : Dir) : Prop where
  range : ∀ i n, d.nodes i = some n → 1 ≤ i ∧ i ≤ 16777216 ∧ i ≤ d.last ∧ n.WF
  closed : ∀ i n, d.nodes i = some n → 2 ≤ i → ∃ p, d.nodes (parent i) = some p
  ents : ∀ i s e, EntAt d.nodes i s e →
    e.hash = d.hash e.name % 16777216 ∧ i = pathIdx (d.hash e.name) (depth i) ∧
      1 ≤ e.name.length ∧ e.name.length ≤ 255
  uniq : ∀ i s e i' s' e', EntAt d.nodes i s e → EntAt d.nodes i' s' e' → e.name = e'.name →
    i = i' ∧ s = s'
  count : ∃ L : List (Nat × Nat), L.Nodup ∧ L.length = d.ndents ∧
    ∀ i s, (i, s) ∈ L ↔ ∃ e, EntAt d.nodes i s e
  lastz : d.nodes 1 = none → d.last = 0
  lastmax : d.last ≤ 16777216
  live : d.dangling = false

theorem Inv.fresh (h : Name → Nat) : Inv (Dir.fresh h) where
  range := by simp [Dir.fresh]
  closed := by simp [Dir.fresh]
  ents := by simp [Dir.fresh, EntAt]
  uniq := by simp [Dir.fresh, EntAt]
  count := ⟨[], by simp, by simp [Dir.fresh], by simp [Dir.fresh, EntAt]⟩
  lastz := by simp [Dir.fresh]
  lastmax := by simp [Dir.fresh]
  live := by simp [Dir.fresh]

theorem EntAt.unique {nodes : Nat → Option Node} {i s : Nat} {e e' : Ent}
    (h : EntAt nodes i s e) (h' : EntAt nodes i s e') : e = e' := by
  obtain ⟨n, hn, hs⟩ := h
  obtain ⟨n', hn', hs'⟩ := h'
  rw [hn] at hn'; cases hn'
  rw [hs] at hs'; cases hs'; rfl

theorem Inv.path_closed {d : Dir} (hi : Inv d) (h k : Nat) (n : Node)
    (hn : d.nodes (pathIdx h k) = some n) (j : Nat) (hj : j ≤ k) :
    ∃ p, d.nodes (pathIdx h j) = some p := by
  induction k generalizing n with
  | zero => have : j = 0 := by omega
            subst this; exact ⟨n, hn⟩
  | succ k ih =>
    by_cases hjk : j = k + 1
    · subst hjk; exact ⟨n, hn⟩
    · have h2 : 2 ≤ pathIdx h (k + 1) := by
        rw [pathIdx]; unfold child; omega
      obtain ⟨p, hp⟩ := hi.closed _ _ hn h2
      rw [pathIdx_parent] at hp
      exact ih p hp (by omega)

theorem Inv.root_of_ent {d : Dir} (hi : Inv d) {i s : Nat} {e : Ent} (he : EntAt d.nodes i s e) :
    ∃ r, d.nodes 1 = some r := by
  have h1 := hi.ents i s e he
  obtain ⟨n, hn, _⟩ := he
  rw [h1.2.1] at hn
  exact hi.path_closed _ _ _ hn 0 (by omega)

theorem Inv.ndents_zero {d : Dir} (hi : Inv d) : d.ndents = 0 ↔ ∀ i s e, ¬ EntAt d.nodes i s e := by
  obtain ⟨L, _, hl, hm⟩ := hi.count
  constructor
  · intro h i s e he
    have : L = [] := List.eq_nil_of_length_eq_zero (by omega)
    have := (hm i s).2 ⟨e, he⟩
    simp_all
  · intro h
    have : L = [] := by
      apply List.eq_nil_iff_forall_not_mem.2
      intro ⟨i, s⟩ hh
      obtain ⟨e, he⟩ := (hm i s).1 hh
      exact h i s e he
    simp [this] at hl; omega

theorem Inv.depth_le {d : Dir} (hi : Inv d) {i : Nat} {n : Node} (h : d.nodes i = some n) :
    depth i ≤ 4 := by
  have h1 := hi.range i n h
  have := (C12_valid_depth i).2 ⟨h1.1, h1.2.1⟩
  unfold validDepth at this
  simp at this
  exact this.2

/-! ### Lookup -/

theorem lookupAt_sound (nodes : Nat → Option Node) (stage : Nat → Bool) (h : Nat) (nm : Name)
    (k i : Nat) (n : Node) (hn : nodes i = some n) (j s : Nat) (e : Ent)
    (hr : lookupAt nodes stage h nm k i n = .ok (j, s, e)) :
    EntAt nodes j s e ∧ e.name = nm := by
  induction k generalizing i n with
  | zero =>
    rw [lookupAt] at hr
    split at hr
    · rename_i s' e' hs
      simp only [Res.ok.injEq, Prod.mk.injEq] at hr
      obtain ⟨rfl, rfl, rfl⟩ := hr
      have := searchFrom_sound _ _ _ _ _ _ hs
      exact ⟨⟨n, hn, by simpa using this.2.1⟩, ((matches_iff _ _ _).1 this.2.2).2⟩
    · simp at hr
  | succ k ih =>
    rw [lookupAt] at hr
    split at hr
    · rename_i s' e' hs
      simp only [Res.ok.injEq, Prod.mk.injEq] at hr
      obtain ⟨rfl, rfl, rfl⟩ := hr
      have := searchFrom_sound _ _ _ _ _ _ hs
      exact ⟨⟨n, hn, by simpa using this.2.1⟩, ((matches_iff _ _ _).1 this.2.2).2⟩
    · simp only at hr
      split at hr
      · simp at hr
      · rename_i n' hn'
        split at hr
        · simp at hr
        · exact ih _ _ hn' hr

/-- The loop only ever ends with an entry, ENOENT, EIO from a failing stage, or
death at a depth-4 node. -/
theorem lookupAt_cases (nodes : Nat → Option Node) (stage : Nat → Bool) (h : Nat) (nm : Name)
    (k i : Nat) (n : Node) (hk : k ≤ 4) (hi : i = pathIdx h (4 - k)) (hn : nodes i = some n) :
    (∃ j s e, lookupAt nodes stage h nm k i n = .ok (j, s, e)) ∨
    lookupAt nodes stage h nm k i n = .enoent ∨
    (lookupAt nodes stage h nm k i n = .eio ∧ ∃ q, stage q = true) ∨
    (lookupAt nodes stage h nm k i n = .die ∧ ∃ m, nodes (pathIdx h 4) = some m) := by
  induction k generalizing i n with
  | zero =>
    rw [lookupAt]
    split
    · exact Or.inl ⟨_, _, _, rfl⟩
    · refine Or.inr (Or.inr (Or.inr ⟨rfl, n, ?_⟩)); rw [← hn, hi]
  | succ k ih =>
    rw [lookupAt]
    split
    · exact Or.inl ⟨_, _, _, rfl⟩
    · simp only
      split
      · exact Or.inr (Or.inl rfl)
      · rename_i n' hn'
        split
        · rename_i hq; exact Or.inr (Or.inr (Or.inl ⟨rfl, _, hq⟩))
        · refine ih _ _ (by omega) ?_ hn'
          rw [hi]
          rw [show 4 - k = (4 - (k + 1)) + 1 by omega, pathIdx]

/-- An entry below the current node on its path is found, unless staging fails. -/
theorem lookupAt_complete {d : Dir} (hv : Inv d) (stage : Nat → Bool) (k i s : Nat) (e : Ent)
    (he : EntAt d.nodes i s e) (hk : k ≤ 4) (hd : 4 - k ≤ depth i) (n : Node)
    (hn : d.nodes (pathIdx (d.hash e.name) (4 - k)) = some n) :
    lookupAt d.nodes stage (d.hash e.name) e.name k (pathIdx (d.hash e.name) (4 - k)) n
        = .ok (i, s, e) ∨
    (lookupAt d.nodes stage (d.hash e.name) e.name k (pathIdx (d.hash e.name) (4 - k)) n = .eio ∧
      ∃ q, stage q = true) := by
  have hents := hv.ents i s e he
  have hme : e.matches (d.hash e.name) e.name = true := (matches_iff _ _ _).2 ⟨hents.1, rfl⟩
  induction k generalizing n with
  | zero =>
    left
    obtain ⟨m, hm, hs⟩ := he
    have h4 : depth i = 4 := by have := hv.depth_le hm; omega
    have hi : i = pathIdx (d.hash e.name) 4 := by rw [← h4]; exact hents.2.1
    rw [lookupAt]
    have hnm : n = m := by rw [hi] at hm; simp only [Nat.sub_zero] at hn; rw [hn] at hm; cases hm; rfl
    subst hnm
    split
    · rename_i s' e' hs'
      have hsd := searchFrom_sound _ _ _ _ _ _ hs'
      have hname := ((matches_iff _ _ _).1 hsd.2.2).2
      have h2 : EntAt d.nodes (pathIdx (d.hash e.name) 4) s' e' := ⟨n, hn, by simpa using hsd.2.1⟩
      have hu := hv.uniq _ _ _ _ _ _ ⟨n, hm, hs⟩ h2 hname.symm
      have : e = e' := by
        apply EntAt.unique ⟨n, hm, hs⟩
        rw [hu.1, hu.2]; exact h2
      subst this
      simp only [Nat.sub_zero]
      rw [hu.1, hu.2]
    · rename_i hs'
      have := searchFrom_none _ _ _ _ hs' s e hs
      rw [hme] at this; simp at this
  | succ k ih =>
    rw [lookupAt]
    split
    · rename_i s' e' hs'
      left
      have hsd := searchFrom_sound _ _ _ _ _ _ hs'
      have hname := ((matches_iff _ _ _).1 hsd.2.2).2
      have h2 : EntAt d.nodes (pathIdx (d.hash e.name) (4 - (k + 1))) s' e' :=
        ⟨n, hn, by simpa using hsd.2.1⟩
      have hu := hv.uniq _ _ _ _ _ _ he h2 hname.symm
      have : e = e' := by
        apply EntAt.unique he
        rw [hu.1, hu.2]; exact h2
      subst this
      rw [← hu.1, ← hu.2]
    · rename_i hs'
      have hlt : 4 - (k + 1) ≠ depth i := by
        intro heq
        obtain ⟨m, hm, hs⟩ := he
        rw [hents.2.1, ← heq, hn] at hm; cases hm
        have := searchFrom_none _ _ _ _ hs' s e hs
        rw [hme] at this; simp at this
      have hstep : child (pathIdx (d.hash e.name) (4 - (k + 1))) (hashOrd (d.hash e.name) (4 - k))
          = pathIdx (d.hash e.name) (4 - k) := by
        rw [show 4 - k = (4 - (k + 1)) + 1 by omega, pathIdx]
      have hpres : ∃ p, d.nodes (pathIdx (d.hash e.name) (4 - k)) = some p := by
        obtain ⟨m, hm, _⟩ := he
        rw [hents.2.1] at hm
        exact hv.path_closed _ _ _ hm _ (by omega)
      obtain ⟨p, hp⟩ := hpres
      simp only [hstep, hp]
      split
      · rename_i hq; exact Or.inr ⟨rfl, _, hq⟩
      · exact ih (by omega) (by omega) p hp

end Silofs.Dir
