import Verif.Props.XattrNode
/-
C31: the extended attributes of an inode are a map from names to values.
-/
set_option linter.unusedSimpArgs false
set_option linter.unusedVariables false
namespace Silofs.Xattr

/-! ### Specification -/

/-- Attributes as a user sees them. -/
abbrev XMap := Bytes → Option Bytes

/-- Requests that change attributes, and what goes on between requests. -/
inductive Op where
  | set (io1 io2 : Nat → Bool) (junk : Nat → Node) (name value : Bytes) (flag : Flag)
  | remove (io : Nat → Bool) (name : Bytes)
  | flush (i : Nat)
  | evict (i : Nat)

/-- What each request may do to the map. -/
def Op.spec (m : XMap) (o : Op) (m' : XMap) : Prop :=
  match o with
  | .set _ _ _ name value flag =>
    m' = m ∨ ((flag = .create → m name = none) ∧ (flag = .replace → m name ≠ none) ∧
      m' = fun n => if n = name then some value else m n)
  | .remove _ name => m' = m ∨ (m name ≠ none ∧ m' = fun n => if n = name then none else m n)
  | .flush _ => m' = m
  | .evict _ => m' = m

/-! ### Representation -/

/-- Entries with a name in the `k` slots from `i` on. -/
def cnt (es : Nat → List Entry) (name : Bytes) : Nat → Nat → Nat
  | 0, _ => 0
  | k + 1, i => (es i).countP (fun e => e.1 == name) + cnt es name k (i + 1)

/-- Every slot holds a list of entries. -/
def Holds (s : St) (es : Nat → List Entry) : Prop :=
  ∀ i, match s.slot i with
    | none => es i = []
    | some x => x.node.Rep (es i) ∧ x.node.nents ≤ nentsMax

/-- The slots hold the map, each name once. -/
def Repr (s : St) (m : XMap) : Prop :=
  ∃ es, Holds s es ∧ (∀ name, cnt es name nslots 0 ≤ 1) ∧
    ∀ n v, m n = some v ↔ ∃ i, i < nslots ∧ (n, v) ∈ es i

/-- A clean cached node is as stored. -/
def Slot.Faith (x : Slot) : Prop := ∀ n, x.cache = some (n, false) → n = x.disk

def Faithful (s : St) : Prop := ∀ i x, s.slot i = some x → x.Faith

/-! ### Staging changes nothing -/

/-- One slot before and after: the same content, or a new empty node. -/
def SameSlot (a b : Option Slot) : Prop :=
  match a, b with
  | none, none => True
  | none, some x => x.node = emptyNode ∧ x.Faith
  | some x, some y => y.node = x.node ∧ (x.Faith → y.Faith)
  | some _, none => False

def Same (s s' : St) : Prop := ∀ i, SameSlot (s.slot i) (s'.slot i)

theorem SameSlot.refl (a : Option Slot) : SameSlot a a := by
  cases a with
  | none => trivial
  | some x => exact ⟨rfl, id⟩

theorem SameSlot.trans {a b c : Option Slot} (h1 : SameSlot a b) (h2 : SameSlot b c) : SameSlot a c := by
  cases a <;> cases b <;> cases c <;> simp_all [SameSlot]

theorem Same.refl (s : St) : Same s s := fun _ => SameSlot.refl _

theorem Same.trans {a b c : St} (h1 : Same a b) (h2 : Same b c) : Same a c := fun i => (h1 i).trans (h2 i)

theorem set_slot (s : St) (i : Nat) (x : Slot) (k : Nat) : (s.set i x).slot k = if k = i then some x else s.slot k := rfl

theorem Same.set {s : St} {i : Nat} {x : Slot} (h : SameSlot (s.slot i) (some x)) : Same s (s.set i x) := by
  intro k
  rw [set_slot]
  by_cases e : k = i
  · rw [if_pos e, e]; exact h
  · rw [if_neg e]; exact SameSlot.refl _

theorem Same.holds {s s' : St} {es : Nat → List Entry} (h : Same s s') (hh : Holds s es) : Holds s' es := by
  intro i
  have h1 := h i
  have h2 := hh i
  cases hs : s.slot i with
  | none =>
    rw [hs] at h1 h2
    cases hs' : s'.slot i with
    | none => exact h2
    | some x =>
      rw [hs'] at h1
      simp only at h2 ⊢
      rw [h1.1, h2]
      exact ⟨emptyNode_rep, by unfold emptyNode nentsMax; decide⟩
  | some x =>
    rw [hs] at h1 h2
    cases hs' : s'.slot i with
    | none => rw [hs'] at h1; exact h1.elim
    | some y =>
      rw [hs'] at h1
      simp only at h2 ⊢
      rw [h1.1]; exact h2

theorem Same.repr {s s' : St} {m : XMap} (h : Same s s') (hr : Repr s m) : Repr s' m := by
  obtain ⟨es, h1, h2⟩ := hr
  exact ⟨es, h.holds h1, h2⟩

theorem Same.faithful {s s' : St} (h : Same s s') (hf : Faithful s) : Faithful s' := by
  intro i y hy
  have h1 := h i
  rw [hy] at h1
  cases hs : s.slot i with
  | none => rw [hs] at h1; exact h1.2
  | some x => rw [hs] at h1; exact h1.2 (hf i x hs)

theorem stage_same {io : Nat → Bool} {i : Nat} {x x' : Slot} (h : stage io i x = some x') :
    x'.node = x.node ∧ (x.Faith → x'.Faith) := by
  unfold stage at h
  split at h
  · split at h
    · cases h; exact ⟨rfl, id⟩
    · rename_i hc
      cases h
      refine ⟨by simp [Slot.node, hc], fun _ n hn => ?_⟩
      simp only [Option.some.injEq, Prod.mk.injEq] at hn
      exact hn.1.symm
  · cases h

theorem lookup_spec {io : Nat → Bool} {name : Bytes} {k : Nat} : ∀ {i : Nat} {s : St},
    Same s (lookup io name k i s).1 ∧
    match (lookup io name k i s).2 with
    | .err _ => True
    | .ok none => ∀ j x, i ≤ j → j < i + k → (lookup io name k i s).1.slot j = some x → x.node.search name = none
    | .ok (some (j, u)) => i ≤ j ∧ j < i + k ∧ ∃ x, (lookup io name k i s).1.slot j = some x ∧ x.node.search name = some u := by
  induction k with
  | zero =>
    intro i s
    exact ⟨Same.refl s, fun j x h1 h2 => by omega⟩
  | succ k ih =>
    intro i s
    have ih' := fun s => ih (i := i + 1) (s := s)
    simp only [lookup]
    split
    · rename_i hs
      obtain ⟨h1, h2⟩ := ih' s
      refine ⟨h1, ?_⟩
      split
      · trivial
      · rename_i e
        rw [e] at h2
        intro j x h3 h4 h5
        by_cases ej : j = i
        · subst ej
          have := h1 j
          rw [hs, h5] at this
          rw [this.1]
          unfold Node.search emptyNode
          rw [if_neg (by unfold units; simp)]
        · exact h2 j x (by omega) (by omega) h5
      · rename_i j u e
        rw [e] at h2
        exact ⟨by omega, by omega, h2.2.2⟩
    · rename_i x hs
      split
      · exact ⟨Same.refl s, trivial⟩
      · rename_i x' hx
        have hst := stage_same hx
        have hset : Same s (s.set i x') := Same.set (by rw [hs]; exact hst)
        split
        · rename_i u hu
          refine ⟨hset, Nat.le_refl i, by omega, x', ?_, hu⟩
          rw [set_slot, if_pos rfl]
        · rename_i hu
          obtain ⟨h1, h2⟩ := ih' (s.set i x')
          refine ⟨hset.trans h1, ?_⟩
          split
          · trivial
          · rename_i e
            rw [e] at h2
            intro j y h3 h4 h5
            by_cases ej : j = i
            · subst ej
              have := h1 j
              rw [set_slot, if_pos rfl, h5] at this
              rw [this.1]; exact hu
            · exact h2 j y (by omega) (by omega) h5
          · rename_i j u e
            rw [e] at h2
            exact ⟨by omega, by omega, h2.2.2⟩

theorem require_same {io : Nat → Bool} {junk : Nat → Node} {i : Nat} {s : St} {x : Slot}
    (h : require io junk i s = some x) : SameSlot (s.slot i) (some x) := by
  unfold require at h
  split at h
  · rename_i y hs
    rw [hs]
    exact stage_same h
  · rename_i hs
    rw [hs]
    split at h
    · cases h
      refine ⟨rfl, fun n hn => ?_⟩
      simp at hn
    · cases h

/-- Where a new entry went: the slots are the same as before but for the node that took it. -/
theorem insertAt_spec {io : Nat → Bool} {junk : Nat → Node} {name value : Bytes} {k : Nat} : ∀ {i : Nat} {s : St},
    match (insertAt io junk name value k i s).2 with
    | .err _ => Same s (insertAt io junk name value k i s).1
    | .ok j => i ≤ j ∧ j < i + k ∧ ∃ t x n, Same s t ∧ t.slot j = some x ∧ x.node.insert name value = some n ∧
        (insertAt io junk name value k i s).1 = t.set j { x with cache := some (n, true) } := by
  induction k with
  | zero => intro i s; exact Same.refl s
  | succ k ih =>
    intro i s
    cases hr : require io junk i s with
    | none => simp only [insertAt, hr]; exact Same.refl s
    | some x =>
      have hset : Same s (s.set i x) := Same.set (require_same hr)
      cases hn : x.node.insert name value with
      | some n =>
        simp only [insertAt, hr, hn]
        refine ⟨Nat.le_refl i, by omega, s.set i x, x, n, hset, by rw [set_slot, if_pos rfl], hn, ?_⟩
        simp only [St.set, St.mk.injEq]
        funext q
        by_cases e : q = i
        · rw [if_pos e, if_pos e]
        · rw [if_neg e, if_neg e, if_neg e]
      | none =>
        simp only [insertAt, hr, hn]
        have := ih (i := i + 1) (s := s.set i x)
        split
        · rename_i e he
          rw [he] at this
          exact hset.trans this
        · rename_i j hj
          rw [hj] at this
          obtain ⟨h1, h2, t, y, n, h3, h4⟩ := this
          exact ⟨by omega, by omega, t, y, n, hset.trans h3, h4⟩

/-! ### Entries -/

/-- Change the list of one slot. -/
def upd (es : Nat → List Entry) (i : Nat) (l : List Entry) : Nat → List Entry := fun k => if k = i then l else es k

theorem cnt_congr {es es' : Nat → List Entry} {name : Bytes} {k : Nat} : ∀ {i : Nat},
    (∀ j, i ≤ j → j < i + k → es' j = es j) → cnt es' name k i = cnt es name k i := by
  induction k with
  | zero => intro i _; rfl
  | succ k ih =>
    intro i h
    simp only [cnt]
    rw [h i (Nat.le_refl i) (by omega), ih (fun j h1 h2 => h j (by omega) (by omega))]

theorem cnt_upd {es : Nat → List Entry} {name : Bytes} {j : Nat} {l : List Entry} {k : Nat} : ∀ {i : Nat},
    i ≤ j → j < i + k →
    cnt (upd es j l) name k i + (es j).countP (fun e => e.1 == name) =
      cnt es name k i + l.countP (fun e => e.1 == name) := by
  induction k with
  | zero => intro i h1 h2; omega
  | succ k ih =>
    intro i h1 h2
    simp only [cnt]
    by_cases e : i = j
    · subst e
      have : cnt (upd es i l) name k (i + 1) = cnt es name k (i + 1) :=
        cnt_congr (fun j h1 h2 => by simp only [upd]; rw [if_neg (by omega)])
      rw [this]
      simp only [upd, if_true]
      omega
    · have := ih (i := i + 1) (by omega) (by omega)
      have e2 : upd es j l i = es i := by simp only [upd]; rw [if_neg e]
      rw [e2]
      omega

theorem cnt_pos {es : Nat → List Entry} {name : Bytes} {k : Nat} : ∀ {i : Nat},
    0 < cnt es name k i ↔ ∃ j, i ≤ j ∧ j < i + k ∧ ∃ e ∈ es j, e.1 = name := by
  induction k with
  | zero => intro i; simp [cnt]; omega
  | succ k ih =>
    intro i
    simp only [cnt]
    constructor
    · intro h
      by_cases h0 : 0 < (es i).countP (fun e => e.1 == name)
      · rw [List.countP_pos_iff] at h0
        obtain ⟨e, he, hn⟩ := h0
        exact ⟨i, Nat.le_refl i, by omega, e, he, by simpa using hn⟩
      · obtain ⟨j, h1, h2, h3⟩ := ih.1 (show 0 < cnt es name k (i + 1) by omega)
        exact ⟨j, by omega, by omega, h3⟩
    · rintro ⟨j, h1, h2, e, he, hn⟩
      by_cases ej : j = i
      · subst ej
        have : 0 < (es j).countP (fun e => e.1 == name) := by
          rw [List.countP_pos_iff]
          exact ⟨e, he, by simpa using hn⟩
        omega
      · have := (ih (i := i + 1)).2 ⟨j, by omega, by omega, e, he, hn⟩
        omega

theorem holds_upd {s : St} {es : Nat → List Entry} (h : Holds s es) {i : Nat} {x : Slot} {l : List Entry}
    (hx : x.node.Rep l) (hn : x.node.nents ≤ nentsMax) : Holds (s.set i x) (upd es i l) := by
  intro k
  rw [set_slot]
  by_cases e : k = i
  · rw [if_pos e]
    simp only [upd, if_pos e]
    exact ⟨hx, hn⟩
  · rw [if_neg e]
    have := h k
    simp only [upd, if_neg e]
    exact this

/-- The map after an entry with a new name is added. -/
theorem repr_add {s : St} {es : Nat → List Entry} {m : XMap} {j : Nat} {name value : Bytes} {x : Slot} {n : Node}
    (hj : j < nslots) (hh : Holds s es) (hu : ∀ name, cnt es name nslots 0 ≤ 1)
    (hm : ∀ n v, m n = some v ↔ ∃ i, i < nslots ∧ (n, v) ∈ es i)
    (habs : cnt es name nslots 0 = 0) (hx : x.node.Rep (es j ++ [(name, value)])) (hle : x.node.nents ≤ nentsMax) :
    Repr (s.set j x) (fun n => if n = name then some value else m n) := by
  refine ⟨upd es j (es j ++ [(name, value)]), holds_upd hh hx hle, fun nm => ?_, fun n' v => ?_⟩
  · have := cnt_upd (es := es) (name := nm) (l := es j ++ [(name, value)]) (Nat.zero_le j) (by omega : j < 0 + nslots)
    rw [List.countP_append] at this
    have h1 := hu nm
    by_cases e : name = nm
    · subst e
      have : ([(name, value)] : List Entry).countP (fun e => e.1 == name) = 1 := by simp
      omega
    · have : ([(name, value)] : List Entry).countP (fun e => e.1 == nm) = 0 := by simp [e]
      omega
  · have hnone : ∀ i, i < nslots → ∀ v, (name, v) ∉ es i := by
      intro i hi v hv
      have : 0 < cnt es name nslots 0 := cnt_pos.2 ⟨i, Nat.zero_le i, by omega, (name, v), hv, rfl⟩
      omega
    show (if n' = name then some value else m n') = some v ↔ _
    by_cases e : n' = name
    · rw [if_pos e, e]
      constructor
      · intro h
        cases h
        refine ⟨j, hj, ?_⟩
        simp [upd]
      · rintro ⟨i, hi, hv⟩
        simp only [upd] at hv
        split at hv
        · rename_i ei
          rw [List.mem_append] at hv
          rcases hv with hv | hv
          · exact absurd hv (hnone j hj v)
          · simp at hv
            rw [hv]
        · exact absurd hv (hnone i hi v)
    · rw [if_neg e, hm]
      constructor
      · rintro ⟨i, hi, hv⟩
        refine ⟨i, hi, ?_⟩
        simp only [upd]
        split
        · rename_i ei; rw [List.mem_append]; exact Or.inl (by rw [← ei]; exact hv)
        · exact hv
      · rintro ⟨i, hi, hv⟩
        simp only [upd] at hv
        split at hv
        · rename_i ei
          rw [List.mem_append] at hv
          rcases hv with hv | hv
          · exact ⟨j, hj, hv⟩
          · simp at hv; exact absurd hv.1 e
        · exact ⟨i, hi, hv⟩

/-- No entry has the name. -/
theorem absent {s : St} {es : Nat → List Entry} (hh : Holds s es) {name : Bytes}
    (h : ∀ j x, j < nslots → s.slot j = some x → x.node.search name = none) : cnt es name nslots 0 = 0 := by
  cases hc : cnt es name nslots 0 with
  | zero => rfl
  | succ c =>
    obtain ⟨j, _, h2, e, he, hn⟩ := (cnt_pos (es := es) (name := name) (k := nslots) (i := 0)).1 (by omega)
    have hj := hh j
    cases hs : s.slot j with
    | none => rw [hs] at hj; simp only at hj; rw [hj] at he; cases he
    | some x =>
      rw [hs] at hj
      have := hj.1.search name
      rw [h j x (by omega) hs] at this
      exact absurd hn (this e he)

theorem map_none {es : Nat → List Entry} {m : XMap} {name : Bytes}
    (hm : ∀ n v, m n = some v ↔ ∃ i, i < nslots ∧ (n, v) ∈ es i) (h : cnt es name nslots 0 = 0) : m name = none := by
  cases hv : m name with
  | none => rfl
  | some v =>
    obtain ⟨i, hi, hmem⟩ := (hm name v).1 hv
    have : 0 < cnt es name nslots 0 := cnt_pos.2 ⟨i, Nat.zero_le i, by omega, (name, v), hmem, rfl⟩
    omega

/-- Removing the only entry of a name. -/
theorem repr_del {s : St} {es : Nat → List Entry} {m : XMap} {i : Nat} {e : Entry} {l1 l2 : List Entry} {x : Slot}
    (hi : i < nslots) (hh : Holds s es) (hu : ∀ name, cnt es name nslots 0 ≤ 1)
    (hm : ∀ n v, m n = some v ↔ ∃ i, i < nslots ∧ (n, v) ∈ es i)
    (hes : es i = l1 ++ e :: l2) (hx : x.node.Rep (l1 ++ l2)) (hle : x.node.nents ≤ nentsMax) :
    Repr (s.set i x) (fun n => if n = e.1 then none else m n) := by
  have hc := fun nm => cnt_upd (es := es) (name := nm) (l := l1 ++ l2) (Nat.zero_le i) (by omega : i < 0 + nslots)
  refine ⟨upd es i (l1 ++ l2), holds_upd hh hx hle, fun nm => ?_, fun n' v => ?_⟩
  · have h1 := hc nm
    have h2 := hu nm
    rw [hes, List.countP_append, List.countP_append, List.countP_cons] at h1
    omega
  · have hz : cnt (upd es i (l1 ++ l2)) e.1 nslots 0 = 0 := by
      have h1 := hc e.1
      have h2 := hu e.1
      rw [hes, List.countP_append, List.countP_append, List.countP_cons] at h1
      simp only [beq_self_eq_true, if_true] at h1
      omega
    show (if n' = e.1 then none else m n') = some v ↔ _
    by_cases en : n' = e.1
    · rw [if_pos en]
      constructor
      · intro h; cases h
      · rintro ⟨k, hk, hv⟩
        have : 0 < cnt (upd es i (l1 ++ l2)) e.1 nslots 0 :=
          cnt_pos.2 ⟨k, Nat.zero_le k, by omega, (n', v), hv, en⟩
        omega
    · rw [if_neg en, hm]
      constructor
      · rintro ⟨k, hk, hv⟩
        refine ⟨k, hk, ?_⟩
        simp only [upd]
        split
        · rename_i ek
          subst ek
          rw [hes] at hv
          rcases List.mem_append.1 hv with hv | hv
          · exact List.mem_append.2 (Or.inl hv)
          · rcases List.mem_cons.1 hv with hv | hv
            · exact absurd (by rw [← hv]) en
            · exact List.mem_append.2 (Or.inr hv)
        · exact hv
      · rintro ⟨k, hk, hv⟩
        refine ⟨k, hk, ?_⟩
        simp only [upd] at hv
        split at hv
        · rename_i ek
          subst ek
          rw [hes]
          rcases List.mem_append.1 hv with hv | hv
          · exact List.mem_append.2 (Or.inl hv)
          · exact List.mem_append.2 (Or.inr (List.mem_cons_of_mem _ hv))
        · exact hv

/-! ### Requests -/

theorem insert_low {n n' : Node} {name value : Bytes} (h : n.insert name value = some n') :
    ∀ x, x < 8 * n.nents → n'.buf x = n.buf x := by
  unfold Node.insert at h
  split at h
  · cases h
  · cases h
    intro x hx
    exact assign_low hx

theorem set_set (s : St) (i : Nat) (x y : Slot) : (s.set i x).set i y = s.set i y := by
  simp only [St.set, St.mk.injEq]
  funext k
  by_cases e : k = i
  · rw [if_pos e, if_pos e]
  · rw [if_neg e, if_neg e, if_neg e]

theorem set_comm (s : St) {i j : Nat} (h : i ≠ j) (x y : Slot) : (s.set i x).set j y = (s.set j y).set i x := by
  simp only [St.set, St.mk.injEq]
  funext k
  by_cases e : k = i
  · subst e; rw [if_pos rfl, if_neg h, if_pos rfl]
  · rw [if_neg e, if_neg e]

theorem faithful_set {s : St} {i : Nat} {x : Slot} (h : Faithful s) (hx : x.Faith) : Faithful (s.set i x) := by
  intro k y hy
  rw [set_slot] at hy
  split at hy
  · cases hy; exact hx
  · exact h k y hy

theorem checkOp_ok {name : Bytes} {size : Nat} (h : checkOp name size = none) :
    name.length ≤ nameMax ∧ size ≤ valueMax := by
  unfold checkOp at h
  split at h
  · cases h
  · split at h
    · cases h
    · omega

theorem lookup_err {io : Nat → Bool} {name : Bytes} {k : Nat} : ∀ {i : Nat} {s s' : St} {e : Err},
    lookup io name k i s = (s', .err e) → e = .io := by
  induction k with
  | zero => intro i s s' e h; simp [lookup] at h
  | succ k ih =>
    intro i s s' e h
    simp only [lookup] at h
    split at h
    · exact ih h
    · split at h
      · cases h; rfl
      · split at h
        · cases h
        · exact ih h

theorem insertAt_err {io : Nat → Bool} {junk : Nat → Node} {name value : Bytes} {k : Nat} :
    ∀ {i : Nat} {s s' : St} {e : Err}, insertAt io junk name value k i s = (s', .err e) → e = .io ∨ e = .nospc := by
  induction k with
  | zero => intro i s s' e h; simp [insertAt] at h; exact Or.inr h.2.symm
  | succ k ih =>
    intro i s s' e h
    simp only [insertAt] at h
    split at h
    · cases h; exact Or.inl rfl
    · split at h
      · cases h
      · exact ih h

theorem checkOp_err {name : Bytes} {size : Nat} {e : Err} (h : checkOp name size = some e) :
    e = .nametoolong ∨ e = .inval := by
  unfold checkOp at h
  split at h
  · cases h; exact Or.inl rfl
  · split at h
    · cases h; exact Or.inr rfl
    · cases h

theorem Err.plain {e : Err} (h : e = .io ∨ e = .nospc ∨ e = .nametoolong ∨ e = .inval) :
    e ≠ .exist ∧ e ≠ .nodata := by
  rcases h with h | h | h | h <;> (rw [h]; exact ⟨by simp, by simp⟩)

/-- What a set may do: if it succeeds the name has the value and nothing else changes, CREATE needs
the name to be absent and REPLACE needs it present; if it fails nothing changes.  The cached nodes stay equal
to the stored ones, unless the new entry went to another node than the old one. -/
def SetPost (name value : Bytes) (flag : Flag) (s : St) (m : XMap) (r : St × Res (Option Nat × Nat)) : Prop :=
  match r.2 with
  | .err e => Repr r.1 m ∧ (Faithful s → Faithful r.1) ∧
    (e = .exist → flag = .create ∧ m name ≠ none) ∧ (e = .nodata → flag = .replace ∧ m name = none)
  | .ok (old, new) =>
    Repr r.1 (fun n => if n = name then some value else m n) ∧
    (flag = .create → m name = none) ∧ (flag = .replace → m name ≠ none) ∧
    (Faithful s → old = none ∨ old = some new → Faithful r.1)

/-- **C31** (set).  A set of any name, value and flag, whatever fails during it. -/
theorem C31_set {io1 io2 : Nat → Bool} {junk : Nat → Node} {name value : Bytes} {flag : Flag} {s : St} {m : XMap}
    (h : Repr s m) : SetPost name value flag s m (setxattr io1 io2 junk name value flag s) := by
  unfold setxattr
  split
  · rename_i e hck
    have hp := Err.plain (Or.inr (Or.inr (checkOp_err hck)))
    exact ⟨h, id, fun he => absurd he hp.1, fun he => absurd he hp.2⟩
  · rename_i hck
    obtain ⟨hnl, hvl⟩ := checkOp_ok hck
    have hl := lookup_spec (io := io1) (name := name) (k := nslots) (i := 0) (s := s)
    split
    · rename_i s1 e hs1
      rw [hs1] at hl
      have hp := Err.plain (Or.inl (lookup_err hs1))
      exact ⟨hl.1.repr h, hl.1.faithful, fun he => absurd he hp.1, fun he => absurd he hp.2⟩
    · rename_i s1 i u hs1
      rw [hs1] at hl
      obtain ⟨hsame, _, hi, x1, hx1, hu1⟩ := hl
      replace hi : i < nslots := by omega
      split
      · rename_i hfl
        obtain ⟨es, hh, huniq, hm⟩ := hsame.repr h
        have hhi := hh i
        rw [hx1] at hhi
        have hsr := hhi.1.search name
        rw [hu1] at hsr
        obtain ⟨l1, e, l2, hes, hen, _⟩ := hsr
        refine ⟨hsame.repr h, hsame.faithful, fun _ => ⟨hfl, ?_⟩, fun he => by cases he⟩
        rw [(hm name e.2).2 ⟨i, hi, by rw [hes, ← hen]; simp⟩]
        simp
      · rename_i hfl
        have hins := insertAt_spec (io := io2) (junk := junk) (name := name) (value := value) (k := nslots) (i := 0) (s := s1)
        split
        · rename_i s2 e hs2
          rw [hs2] at hins
          have hp := Err.plain ((insertAt_err hs2).elim Or.inl (fun h => Or.inr (Or.inl h)))
          exact ⟨(hsame.trans hins).repr h, (hsame.trans hins).faithful,
            fun he => absurd he hp.1, fun he => absurd he hp.2⟩
        · rename_i s2 j hs2
          rw [hs2] at hins
          obtain ⟨_, hj, t, xt, n, ht, hxt, hn, hs2'⟩ := hins
          replace hj : j < nslots := by omega
          replace hs2' : s2 = t.set j { xt with cache := some (n, true) } := hs2'
          subst hs2'
          have hst := hsame.trans ht
          obtain ⟨es, hh, huniq, hm⟩ := hst.repr h
          -- the old entry in `t`
          have hti := ht i
          rw [hx1] at hti
          cases hxi : t.slot i with
          | none => rw [hxi] at hti; exact hti.elim
          | some xi =>
            rw [hxi] at hti
            have hui : xi.node.search name = some u := by rw [hti.1]; exact hu1
            have hhi := hh i
            rw [hxi] at hhi
            have hsr := hhi.1.search name
            rw [hui] at hsr
            obtain ⟨l1, e, l2, hes, hen, hno, r1, r2, r3⟩ := hsr
            have hmn : m name ≠ none := by
              have : m name = some e.2 := (hm name e.2).2 ⟨i, hi, by rw [hes, ← hen]; simp⟩
              rw [this]; simp
            have hcnt1 := huniq name
            -- the node that takes the new entry
            have hhj := hh j
            rw [hxt] at hhj
            have hinsR := hhj.1.insert hnl hvl
            rw [hn] at hinsR
            by_cases eij : i = j
            · subst eij
              have exx : xt = xi := Option.some.inj (hxt.symm.trans hxi)
              subst exx
              clear hxt
              have hlow := insert_low hn
              have hle3 := r3.le
              have q1 : Xattr.Rep n.buf 0 l1 u := r1.congr (fun x _ hx => hlow x (by omega))
              have q2 : Ent n.buf u e := r2.move (fun k hk => hlow _ (by omega))
              have q3 : Xattr.Rep n.buf (u + e.units) (l2 ++ [(name, value)]) n.nents := by
                have p3 : Xattr.Rep n.buf (u + e.units) l2 xt.node.nents := r3.congr (fun x _ hx => hlow x (by omega))
                have := hinsR.1
                -- the last entry
                unfold Node.insert at hn
                split at hn
                · cases hn
                · cases hn
                  have he := assign_ent xt.node.buf xt.node.nents name value (by unfold nameMax at hnl; omega)
                    (by unfold valueMax at hvl; omega)
                  refine p3.append ⟨he, ?_⟩
                  show _ = _
                  rw [he.units]
              obtain ⟨w1, w2⟩ := Node.Rep.remove q1 q2 q3
              have hfin : dirtify i (discard i u (t.set i { xt with cache := some (n, true) })) =
                  t.set i { xt with cache := some (n.remove u, true) } := by
                simp only [discard, dirtify, set_slot, if_true, Slot.node, set_set]
              show Repr (dirtify i (discard i u (t.set i { xt with cache := some (n, true) }))) _ ∧ _
              rw [hfin]
              refine ⟨?_, fun hc => absurd hc hfl, fun _ => hmn, fun hf _ => ?_⟩
              · -- first add under the assumption that the old one is gone
                have hdel : cnt (upd es i (l1 ++ l2)) name nslots 0 = 0 := by
                  have h1 := cnt_upd (es := es) (name := name) (l := l1 ++ l2) (Nat.zero_le i) (by omega : i < 0 + nslots)
                  rw [hes, List.countP_append, List.countP_append, List.countP_cons] at h1
                  rw [hen] at h1
                  simp only [beq_self_eq_true, if_true] at h1
                  omega
                obtain ⟨w3, w4⟩ := Node.Rep.remove r1 r2 r3
                obtain ⟨es', k1, k2, k3⟩ := repr_del (s := t) (x := ⟨xt.disk, some (xt.node.remove u, true)⟩) hi hh huniq hm hes w3 (by
                  show (xt.node.remove u).nents ≤ nentsMax
                  have := hhi.2; omega)
                have hrep : Repr ((t.set i ⟨xt.disk, some (xt.node.remove u, true)⟩).set i { xt with cache := some (n.remove u, true) })
                    (fun n => if n = name then some value else (fun n => if n = e.1 then none else m n) n) := by
                  refine repr_add (es := upd es i (l1 ++ l2)) (n := n) hi ?_ ?_ ?_ hdel ?_ ?_
                  · exact holds_upd hh w3 (by show (xt.node.remove u).nents ≤ nentsMax; have := hhi.2; omega)
                  · intro nm
                    have h1 := cnt_upd (es := es) (name := nm) (l := l1 ++ l2) (Nat.zero_le i) (by omega : i < 0 + nslots)
                    have h2 := huniq nm
                    rw [hes, List.countP_append, List.countP_append, List.countP_cons] at h1
                    omega
                  · intro n' v
                    show (if n' = e.1 then none else m n') = some v ↔ _
                    by_cases en : n' = e.1
                    · rw [if_pos en]
                      constructor
                      · intro h; cases h
                      · rintro ⟨k, hk, hv⟩
                        have : 0 < cnt (upd es i (l1 ++ l2)) name nslots 0 :=
                          cnt_pos.2 ⟨k, Nat.zero_le k, by omega, (n', v), hv, by rw [← hen]; exact en⟩
                        omega
                    · rw [if_neg en, hm]
                      constructor
                      · rintro ⟨k, hk, hv⟩
                        refine ⟨k, hk, ?_⟩
                        simp only [upd]
                        split
                        · rename_i ek
                          subst ek
                          rw [hes] at hv
                          rcases List.mem_append.1 hv with hv | hv
                          · exact List.mem_append.2 (Or.inl hv)
                          · rcases List.mem_cons.1 hv with hv | hv
                            · exact absurd (by rw [← hv]) en
                            · exact List.mem_append.2 (Or.inr hv)
                        · exact hv
                      · rintro ⟨k, hk, hv⟩
                        refine ⟨k, hk, ?_⟩
                        simp only [upd] at hv
                        split at hv
                        · rename_i ek
                          subst ek
                          rw [hes]
                          rcases List.mem_append.1 hv with hv | hv
                          · exact List.mem_append.2 (Or.inl hv)
                          · exact List.mem_append.2 (Or.inr (List.mem_cons_of_mem _ hv))
                        · exact hv
                  · simp only [upd, if_true]
                    show (n.remove u).Rep (l1 ++ l2 ++ [(name, value)])
                    rw [List.append_assoc]
                    exact w1
                  · show (n.remove u).nents ≤ nentsMax
                    have := hinsR.2 hhi.2
                    omega
                rw [set_set] at hrep
                have hfun : (fun n' => if n' = name then some value else (fun n => if n = e.1 then none else m n) n') =
                    (fun n' => if n' = name then some value else m n') := by
                  funext n'
                  by_cases en : n' = name
                  · rw [if_pos en, if_pos en]
                  · rw [if_neg en, if_neg en]
                    simp only
                    rw [if_neg (by rw [hen]; exact en)]
                rw [hfun] at hrep
                exact hrep
              · exact faithful_set (hst.faithful hf) (fun k hk => by simp at hk)
            · -- another node took the entry: the old one is removed from its node
              have hfin : dirtify j (discard i u (t.set j { xt with cache := some (n, true) })) =
                  (t.set i { xi with cache := some (xi.node.remove u, match xi.cache with
                    | some c => c.2
                    | none => false) }).set j { xt with cache := some (n, true) } := by
                have eji : j ≠ i := fun e => eij e.symm
                simp only [discard, set_slot, if_neg eij, hxi]
                simp only [dirtify, set_slot, if_neg eji, if_true, Slot.node]
                rw [set_comm t eji, set_set]
                rfl
              show Repr (dirtify j (discard i u (t.set j { xt with cache := some (n, true) }))) _ ∧ _
              rw [hfin]
              refine ⟨?_, fun hc => absurd hc hfl, fun _ => hmn, fun hf hor => ?_⟩
              · obtain ⟨w3, w4⟩ := Node.Rep.remove r1 r2 r3
                generalize hxi' : ({ xi with cache := some (xi.node.remove u, match xi.cache with
                    | some c => c.2
                    | none => false) } : Slot) = xi'
                have hnode : xi'.node = xi.node.remove u := by rw [← hxi']; rfl
                have hle' : xi'.node.nents ≤ nentsMax := by rw [hnode]; have := hhi.2; omega
                have hdel := repr_del (s := t) (x := xi') hi hh huniq hm hes (by rw [hnode]; exact w3) hle'
                obtain ⟨es', k1, k2, k3⟩ := hdel
                have hc0 : cnt es' name nslots 0 = 0 := by
                  cases hc : cnt es' name nslots 0 with
                  | zero => rfl
                  | succ c =>
                    obtain ⟨q, _, hq, f, hf, hfn⟩ := (cnt_pos (es := es') (name := name) (k := nslots) (i := 0)).1 (by omega)
                    have := (k3 f.1 f.2).2 ⟨q, by omega, hf⟩
                    replace this : (if f.1 = e.1 then none else m f.1) = some f.2 := this
                    rw [if_pos (by rw [hfn, hen])] at this
                    cases this
                have hjs : (t.set i xi').slot j = some xt := by
                  rw [set_slot, if_neg (fun e => eij e.symm)]; exact hxt
                have hk1j := k1 j
                rw [hjs] at hk1j
                have hins' := hk1j.1.insert hnl hvl
                rw [hn] at hins'
                have := repr_add (s := t.set i xi') (x := { xt with cache := some (n, true) }) (n := n) hj k1 k2 k3 hc0 hins'.1
                  (hins'.2 hk1j.2)
                have hfun : (fun n' => if n' = name then some value else (fun n => if n = e.1 then none else m n) n') =
                    (fun n' => if n' = name then some value else m n') := by
                  funext n'
                  by_cases en : n' = name
                  · rw [if_pos en, if_pos en]
                  · rw [if_neg en, if_neg en]
                    simp only
                    rw [if_neg (by rw [hen]; exact en)]
                rw [hfun] at this
                exact this
              · rcases hor with hor | hor
                · cases hor
                · exact absurd (Option.some.inj hor) eij
    · rename_i s1 hs1
      rw [hs1] at hl
      obtain ⟨hsame, hnone⟩ := hl
      split
      · rename_i hfl
        obtain ⟨es1, hh1, hu1, hm1⟩ := hsame.repr h
        exact ⟨hsame.repr h, hsame.faithful, fun he => (nomatch he), fun _ => ⟨hfl,
          map_none hm1 (absent hh1 (fun j x hj hs => hnone j x (Nat.zero_le j) (by omega) hs))⟩⟩
      · rename_i hfl
        obtain ⟨es1, hh1, hu1, hm1⟩ := hsame.repr h
        have hc0 := absent hh1 (fun j x hj hs => hnone j x (Nat.zero_le j) (by omega) hs)
        have hins := insertAt_spec (io := io2) (junk := junk) (name := name) (value := value) (k := nslots) (i := 0) (s := s1)
        split
        · rename_i s2 e hs2
          rw [hs2] at hins
          have hp := Err.plain ((insertAt_err hs2).elim Or.inl (fun h => Or.inr (Or.inl h)))
          exact ⟨(hsame.trans hins).repr h, (hsame.trans hins).faithful,
            fun he => absurd he hp.1, fun he => absurd he hp.2⟩
        · rename_i s2 j hs2
          rw [hs2] at hins
          obtain ⟨_, hj, t, xt, n, ht, hxt, hn, hs2'⟩ := hins
          replace hj : j < nslots := by omega
          replace hs2' : s2 = t.set j { xt with cache := some (n, true) } := hs2'
          subst hs2'
          have hh := ht.holds hh1
          have hhj := hh j
          rw [hxt] at hhj
          have hinsR := hhj.1.insert hnl hvl
          rw [hn] at hinsR
          refine ⟨repr_add (n := n) hj hh hu1 hm1 hc0 hinsR.1 (hinsR.2 hhj.2), fun _ => map_none hm1 hc0,
            fun hc => absurd hc hfl, fun hf _ => ?_⟩
          exact faithful_set ((hsame.trans ht).faithful hf) (fun k hk => by simp at hk)

/-- What a remove may do: if it succeeds the name was present and is gone; if it fails nothing
changes; it reports absence only if the name is absent. -/
def RemovePost (name : Bytes) (s : St) (m : XMap) (r : St × Res Unit) : Prop :=
  (Faithful s → Faithful r.1) ∧
  match r.2 with
  | .err e => Repr r.1 m ∧ (e = .nodata → m name = none)
  | .ok _ => m name ≠ none ∧ Repr r.1 (fun n => if n = name then none else m n)

/-- **C31** (remove).  A remove of any name, whatever fails during it. -/
theorem C31_remove {io : Nat → Bool} {name : Bytes} {s : St} {m : XMap} (h : Repr s m) :
    RemovePost name s m (removexattr io name s) := by
  unfold removexattr
  split
  · rename_i e hck
    refine ⟨id, h, fun he => ?_⟩
    subst he
    unfold checkOp at hck
    split at hck
    · cases hck
    · split at hck <;> cases hck
  · have hl := lookup_spec (io := io) (name := name) (k := nslots) (i := 0) (s := s)
    split
    · rename_i s1 e hs1
      rw [hs1] at hl
      refine ⟨hl.1.faithful, hl.1.repr h, fun he => ?_⟩
      exfalso
      have := lookup_err hs1
      rw [he] at this
      cases this
    · rename_i s1 hs1
      rw [hs1] at hl
      obtain ⟨es, hh, hu, hm⟩ := hl.1.repr h
      exact ⟨hl.1.faithful, hl.1.repr h,
        fun _ => map_none hm (absent hh (fun j x hj hs => hl.2 j x (Nat.zero_le j) (by omega) hs))⟩
    · rename_i s1 i u hs1
      rw [hs1] at hl
      obtain ⟨hsame, _, hi, x1, hx1, hu1⟩ := hl
      replace hi : i < nslots := by omega
      replace hx1 : s1.slot i = some x1 := hx1
      obtain ⟨es, hh, huniq, hm⟩ := hsame.repr h
      have hhi := hh i
      rw [show (s1, Res.ok (some (i, u))).1.slot i = some x1 from hx1] at hhi
      have hsr := hhi.1.search name
      rw [hu1] at hsr
      obtain ⟨l1, e, l2, hes, hen, hno, r1, r2, r3⟩ := hsr
      obtain ⟨w3, w4⟩ := Node.Rep.remove r1 r2 r3
      have hfin : dirtify i (discard i u s1) = s1.set i { x1 with cache := some (x1.node.remove u, true) } := by
        simp only [discard, hx1]
        simp only [dirtify, set_slot, if_true, Slot.node, set_set]
      have hmn : m name ≠ none := by
        have : m name = some e.2 := (hm name e.2).2 ⟨i, hi, by rw [hes, ← hen]; simp⟩
        rw [this]; simp
      show (Faithful s → Faithful (dirtify i (discard i u s1))) ∧ m name ≠ none ∧ Repr (dirtify i (discard i u s1)) _
      rw [hfin]
      refine ⟨fun hf => faithful_set (hsame.faithful hf) (fun k hk => by simp at hk), hmn, ?_⟩
      have := repr_del (s := s1) (x := { x1 with cache := some (x1.node.remove u, true) }) hi hh huniq hm hes w3 (by
        show (x1.node.remove u).nents ≤ nentsMax
        have := hhi.2; omega)
      rw [hen] at this
      exact this

/-- What a get may do: it changes nothing; it returns the size of the value and, if the buffer is not
empty, the whole value; it reports absence only if the name is absent, and a short buffer only if the value is
longer. -/
def GetPost (name : Bytes) (cap : Nat) (s : St) (m : XMap) (r : St × Res (Nat × Bytes)) : Prop :=
  Repr r.1 m ∧ (Faithful s → Faithful r.1) ∧
  match r.2 with
  | .err .nodata => m name = none
  | .err .range => ∃ v, m name = some v ∧ cap < v.length
  | .err _ => True
  | .ok (n, bs) => ∃ v, m name = some v ∧ n = v.length ∧ (cap = 0 ∧ bs = [] ∨ v.length ≤ cap ∧ bs = v)

/-- **C31** (get).  A get of any name into any buffer. -/
theorem C31_get {io : Nat → Bool} {name : Bytes} {cap : Nat} {s : St} {m : XMap} (h : Repr s m) :
    GetPost name cap s m (getxattr io name cap s) := by
  unfold getxattr
  split
  · rename_i e hck
    refine ⟨h, id, ?_⟩
    unfold checkOp at hck
    split at hck
    · cases hck; trivial
    · split at hck
      · cases hck; trivial
      · cases hck
  · have hl := lookup_spec (io := io) (name := name) (k := nslots) (i := 0) (s := s)
    split
    · rename_i s1 e hs1
      rw [hs1] at hl
      have := lookup_err hs1
      subst this
      exact ⟨hl.1.repr h, hl.1.faithful, trivial⟩
    · rename_i s1 hs1
      rw [hs1] at hl
      obtain ⟨es, hh, hu, hm⟩ := hl.1.repr h
      exact ⟨hl.1.repr h, hl.1.faithful,
        map_none hm (absent hh (fun j x hj hs => hl.2 j x (Nat.zero_le j) (by omega) hs))⟩
    · rename_i s1 i u hs1
      rw [hs1] at hl
      obtain ⟨hsame, _, hi, x1, hx1, hu1⟩ := hl
      replace hi : i < nslots := by omega
      replace hx1 : s1.slot i = some x1 := hx1
      obtain ⟨es, hh, huniq, hm⟩ := hsame.repr h
      have hhi := hh i
      rw [show (s1, Res.ok (some (i, u))).1.slot i = some x1 from hx1] at hhi
      have hsr := hhi.1.search name
      rw [hu1] at hsr
      obtain ⟨l1, e, l2, hes, hen, hno, r1, r2, r3⟩ := hsr
      have hmv : m name = some e.2 := (hm name e.2).2 ⟨i, hi, by rw [hes, ← hen]; simp⟩
      have hvs := r2.valSize
      split
      · rename_i hns; rw [hx1] at hns; cases hns
      · rename_i y hy
        rw [hx1] at hy
        cases hy
        split
        · exact ⟨hsame.repr h, hsame.faithful, e.2, hmv, hvs, Or.inl ⟨by assumption, rfl⟩⟩
        · split
          · rename_i hcap
            exact ⟨hsame.repr h, hsame.faithful, e.2, hmv, by rw [← hvs]; exact hcap⟩
          · rename_i hcap
            exact ⟨hsame.repr h, hsame.faithful, e.2, hmv, hvs, Or.inr ⟨by omega, r2.2⟩⟩

theorem listAt_spec {io : Nat → Bool} {k : Nat} : ∀ {i : Nat} {s : St},
    Same s (listAt io k i s).1 ∧
    ∀ ns, (listAt io k i s).2 = .ok ns → ∀ es, Holds s es → ns = (List.range' i k).flatMap (fun j => (es j).map (·.1)) := by
  induction k with
  | zero =>
    intro i s
    refine ⟨Same.refl s, fun ns h es _ => ?_⟩
    simp only [listAt, Res.ok.injEq] at h
    rw [← h]; rfl
  | succ k ih =>
    intro i s
    simp only [listAt]
    split
    · rename_i hs
      obtain ⟨h1, h2⟩ := ih (i := i + 1) (s := s)
      refine ⟨h1, fun ns hn es hh => ?_⟩
      have := hh i
      rw [hs] at this
      simp only at this
      rw [h2 ns hn es hh, List.range'_succ, List.flatMap_cons, this]; rfl
    · rename_i x hs
      split
      · exact ⟨Same.refl s, fun ns hn => by cases hn⟩
      · rename_i x' hx
        have hst := stage_same hx
        have hset : Same s (s.set i x') := Same.set (by rw [hs]; exact hst)
        obtain ⟨h1, h2⟩ := ih (i := i + 1) (s := s.set i x')
        split
        · rename_i s1 e he
          rw [he] at h1
          exact ⟨hset.trans h1, fun ns hn => by cases hn⟩
        · rename_i s1 ns1 he
          rw [he] at h1 h2
          refine ⟨hset.trans h1, fun ns hn es hh => ?_⟩
          simp only [Res.ok.injEq] at hn
          have hi := hh i
          rw [hs] at hi
          rw [← hn, h2 ns1 rfl es (hset.holds hh), List.range'_succ, List.flatMap_cons, hst.1, hi.1.names]

/-- Each name is listed as often as it is stored. -/
theorem list_count {es : Nat → List Entry} {name : Bytes} {k : Nat} : ∀ {i : Nat},
    ((List.range' i k).flatMap (fun j => (es j).map (·.1))).count name = cnt es name k i := by
  induction k with
  | zero => intro i; rfl
  | succ k ih =>
    intro i
    rw [List.range'_succ, List.flatMap_cons, List.count_append, ih]
    simp only [cnt]
    congr 1
    rw [List.count_eq_countP, List.countP_map]
    rfl

/-- **C31** (list).  A list that succeeds has exactly the names present, each once, and changes nothing. -/
theorem C31_list {io : Nat → Bool} {s : St} {m : XMap} (h : Repr s m) :
    Repr (listxattr io s).1 m ∧ (Faithful s → Faithful (listxattr io s).1) ∧
    ∀ ns, (listxattr io s).2 = .ok ns → ns.Nodup ∧ ∀ n, n ∈ ns ↔ m n ≠ none := by
  unfold listxattr
  obtain ⟨h1, h2⟩ := listAt_spec (io := io) (k := nslots) (i := 0) (s := s)
  refine ⟨h1.repr h, h1.faithful, fun ns hn => ?_⟩
  obtain ⟨es, hh, hu, hm⟩ := h
  have e := h2 ns hn es hh
  have hc : ∀ n, ns.count n = cnt es n nslots 0 := fun n => by rw [e]; exact list_count
  refine ⟨?_, fun n => ?_⟩
  · rw [List.nodup_iff_count]
    intro a
    rw [hc]; exact hu a
  · rw [← List.count_pos_iff, hc, cnt_pos]
    constructor
    · rintro ⟨j, _, hj, x, hx, rfl⟩
      have := (hm x.1 x.2).2 ⟨j, by omega, hx⟩
      rw [this]; simp
    · intro hne
      cases hv : m n with
      | none => exact absurd hv hne
      | some v =>
        obtain ⟨i, hi, hmem⟩ := (hm n v).1 hv
        exact ⟨i, Nat.zero_le i, by omega, (n, v), hmem, rfl⟩

/-! ### Histories -/

/-- The state after an event. -/
def step (s : St) : Op → St
  | .set io1 io2 junk name value flag => (setxattr io1 io2 junk name value flag s).1
  | .remove io name => (removexattr io name s).1
  | .flush i => flush i s
  | .evict i => evict i s

/-- The set, if the event is one, does not put the new entry into another node than the old one. -/
def NoMove (s : St) : Op → Prop
  | .set io1 io2 junk name value flag =>
    ∀ i j, (setxattr io1 io2 junk name value flag s).2 = .ok (some i, j) → i = j
  | _ => True

/-- A node is dropped from the cache only if it is as stored. -/
def EvictOk (s : St) : Op → Prop
  | .evict i => ∀ x, s.slot i = some x → x.Faith
  | _ => True

theorem flush_same {i : Nat} {s : St} : Same s (flush i s) := by
  unfold flush
  split
  · exact Same.refl s
  · rename_i x hx
    split
    · rename_i n hc
      refine Same.set ?_
      rw [hx]
      refine ⟨by simp [Slot.node, hc], fun _ n' hn => ?_⟩
      simp at hn
      exact hn.symm
    · exact Same.refl s

theorem evict_same {i : Nat} {s : St} (h : ∀ x, s.slot i = some x → x.Faith) : Same s (evict i s) := by
  unfold evict
  split
  · exact Same.refl s
  · rename_i x hx
    split
    · rename_i n hc
      refine Same.set ?_
      rw [hx]
      have hd := h x hx n hc
      refine ⟨by simp [Slot.node, hc, hd], fun _ n' hn => ?_⟩
      cases hn
    · exact Same.refl s

/-- **C31** (one event, partial).  Every event does to the map what it may do, provided a dropped node is as
stored. -/
theorem C31_step_partial {s : St} {m : XMap} {o : Op} (h : Repr s m) (he : EvictOk s o) :
    ∃ m', o.spec m m' ∧ Repr (step s o) m' := by
  cases o with
  | set io1 io2 junk name value flag =>
    have := C31_set (io1 := io1) (io2 := io2) (junk := junk) (name := name) (value := value) (flag := flag) h
    unfold SetPost at this
    split at this
    · exact ⟨m, Or.inl rfl, this.1⟩
    · exact ⟨_, Or.inr ⟨this.2.1, this.2.2.1, rfl⟩, this.1⟩
  | remove io name =>
    have := (C31_remove (io := io) (name := name) h).2
    split at this
    · exact ⟨m, Or.inl rfl, this.1⟩
    · exact ⟨_, Or.inr ⟨this.1, rfl⟩, this.2⟩
  | flush i => exact ⟨m, rfl, flush_same.repr h⟩
  | evict i => exact ⟨m, rfl, (evict_same he).repr h⟩

/-- Cached nodes stay as stored if no set moves an entry to another node. -/
theorem step_faithful {s : St} {m : XMap} {o : Op} (h : Repr s m) (hf : Faithful s) (hn : NoMove s o) :
    Faithful (step s o) := by
  cases o with
  | set io1 io2 junk name value flag =>
    have := C31_set (io1 := io1) (io2 := io2) (junk := junk) (name := name) (value := value) (flag := flag) h
    unfold SetPost at this
    split at this
    · exact this.2.1 hf
    · rename_i old new e
      refine this.2.2.2 hf ?_
      cases old with
      | none => exact Or.inl rfl
      | some i => rw [hn i new e]; exact Or.inr rfl
  | remove io name => exact (C31_remove (io := io) (name := name) h).1 hf
  | flush i => exact flush_same.faithful hf
  | evict i => exact (evict_same (hf i)).faithful hf

/-- A run of events, no set moving an entry to another node. -/
def Calm : St → List Op → Prop
  | _, [] => True
  | s, o :: os => NoMove s o ∧ Calm (step s o) os

/-- The maps a list of events may lead to. -/
def Runs : XMap → List Op → XMap → Prop
  | m, [], m' => m' = m
  | m, o :: os, m' => ∃ m1, o.spec m m1 ∧ Runs m1 os m'

/-- **C31** (histories, partial).  After any list of sets, removes, write-backs and evictions in any order, with
any failures, the attributes are a map the events may lead to, provided no set moves an entry to another
node.  Without the proviso this is false: see `C31_replace_violated`. -/
theorem C31_history_partial {os : List Op} : ∀ {s : St} {m : XMap}, Repr s m → Faithful s → Calm s os →
    ∃ m', Runs m os m' ∧ Repr (os.foldl step s) m' ∧ Faithful (os.foldl step s) := by
  induction os with
  | nil => intro s m h hf _; exact ⟨m, rfl, h, hf⟩
  | cons o os ih =>
    intro s m h hf hc
    have he : EvictOk s o := by
      cases o with
      | evict i => exact hf i
      | _ => trivial
    obtain ⟨m1, h1, h2⟩ := C31_step_partial h he
    obtain ⟨m', h3, h4⟩ := ih h2 (step_faithful h hf hc.1) hc.2
    exact ⟨m', ⟨m1, h1, h3⟩, h4⟩

/-- A new inode has no attributes. -/
theorem fresh_repr : Repr fresh (fun _ => none) ∧ Faithful fresh := by
  refine ⟨⟨fun _ => [], fun i => rfl, fun nm => Nat.zero_le 1, fun n v => ?_⟩, fun i x h => by cases h⟩
  simp

/-! ### A replace that moves an entry -/

/-- A value of one byte repeated. -/
def vv (n b : Nat) : Bytes := List.replicate n b

def okIo : Nat → Bool := fun _ => true

/-- Fill the first node, write it back, replace its first entry by a longer one that goes to the second node,
write back, drop the first node from the cache. -/
def moveRun : List Op :=
  [.set okIo okIo (fun _ => emptyNode) [97] (vv 8 1) .any,
   .set okIo okIo (fun _ => emptyNode) [98] (vv 2000 2) .any,
   .set okIo okIo (fun _ => emptyNode) [99] (vv 1900 3) .any,
   .flush 0,
   .set okIo okIo (fun _ => emptyNode) [97] (vv 2000 4) .any,
   .flush 0, .flush 1, .evict 0]

/-- Result of a get as plain data. -/
def Res.val : Res (Nat × Bytes) → Option (Nat × Bytes)
  | .ok p => some p
  | .err _ => none

def Res.lst : Res (List Bytes) → Option (List Bytes)
  | .ok p => some p
  | .err _ => none

/-- **C31** is false when a replaced entry moves to another node: the replace succeeds and the new value reads
back, but the node that held the old entry is not marked dirty; once it is dropped from the cache the old value
is back, and the name is listed twice. -/
theorem C31_replace_violated :
    (getxattr okIo [97] 0 ((moveRun.take 7).foldl step fresh)).2.val = some (2000, []) ∧
    (getxattr okIo [97] 64 (moveRun.foldl step fresh)).2.val = some (8, vv 8 1) ∧
    (listxattr okIo (moveRun.foldl step fresh)).2.lst = some [[97], [98], [99], [97]] := by
  decide +kernel

/-- The same events without the replace are calm: the hypotheses of `C31_history_partial` hold. -/
example : Calm fresh [.set okIo okIo (fun _ => emptyNode) [97] [1] .create, .flush 0,
    .set okIo okIo (fun _ => emptyNode) [97] [2, 3] .replace, .evict 0] := by
  refine ⟨?_, trivial, ?_, trivial, trivial⟩
  · intro i j h
    have : (match (setxattr okIo okIo (fun _ => emptyNode) [97] [1] .create fresh).2 with
      | .ok (some _, _) => true
      | _ => false) = false := by decide +kernel
    rw [h] at this; cases this
  · intro i j h
    have : (match (setxattr okIo okIo (fun _ => emptyNode) [97] [2, 3] .replace
        (step (step fresh (.set okIo okIo (fun _ => emptyNode) [97] [1] .create)) (.flush 0))).2 with
      | .ok (some i, j) => i == j
      | _ => false) = true := by decide +kernel
    rw [h] at this
    exact of_decide_eq_true this

end Silofs.Xattr
