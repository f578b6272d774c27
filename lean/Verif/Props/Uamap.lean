import Verif.Model.Lcache
import Mathlib.Data.List.Nodup
/-
The map from ranges to addresses of the unodes which cover them never gives an outdated address, unless
there was no memory for an entry.
-/
set_option linter.unusedSimpArgs false
namespace Silofs.Lcache

/-! ### Specification: the address which is in force for a range -/

/-- What is known of the addresses in force: nothing, or which. -/
abbrev InForce := Nat → Option Nat

/-- Creating a unode puts its address in force; meeting one tells that its address is; forgetting one
leaves open which is. -/
def InForce.step (keyOf : Nat → Nat) (c : InForce) : UaOp → InForce
  | .create a _ => fun k => if k = keyOf a then some a else c k
  | .found a _ => fun k => if k = keyOf a then some a else c k
  | .forget a => fun k => if k = keyOf a then none else c k
  | .idle => c
  | .dropAll => c

/-- Unodes are met only at addresses in force. -/
def InForce.Legal (keyOf : Nat → Nat) (c : InForce) : UaOp → Prop
  | .found a _ => c (keyOf a) = none ∨ c (keyOf a) = some a
  | _ => True

/-- Memory was found for the entry of every created unode. -/
def UaOp.memOk : UaOp → Prop
  | .create _ mem => mem = true
  | _ => True

def runMap (m : UaMap) : List UaOp → UaMap
  | [] => m
  | op :: ops => runMap (m.step op) ops

def runForce (keyOf : Nat → Nat) (c : InForce) : List UaOp → InForce
  | [] => c
  | op :: ops => runForce keyOf (c.step keyOf op) ops

def LegalForce (keyOf : Nat → Nat) (c : InForce) : List UaOp → Prop
  | [] => True
  | op :: ops => c.Legal keyOf op ∧ LegalForce keyOf (c.step keyOf op) ops

/-! ### Invariant -/

structure UOk (m : UaMap) : Prop where
  order : m.lru.Pairwise (· > ·)
  lt : ∀ e ∈ m.lru, e < m.next
  tbl : ∀ s, m.htbl s = m.lru.filter fun e => decide (m.slot (m.keyOf (m.ent e)) = s)

/-- Entries of a key, newest first. -/
def UaMap.ofKey (m : UaMap) (k : Nat) : List Nat := m.lru.filter fun e => decide (m.keyOf (m.ent e) = k)

theorem UOk.nodup {m : UaMap} (o : UOk m) : m.lru.Nodup :=
  o.order.imp (fun h => Nat.ne_of_gt h)

theorem find?_filter_imp {α : Type} (p q : α → Bool) (l : List α) (h : ∀ x, p x = true → q x = true) :
    (l.filter q).find? p = l.find? p := by
  induction l with
  | nil => rfl
  | cons a l ih =>
    rw [List.filter_cons]
    by_cases hq : q a = true
    · rw [if_pos hq, List.find?_cons, List.find?_cons, ih]
    · rw [if_neg hq, ih, List.find?_cons]
      have : p a = false := by cases hp : p a with
        | false => rfl
        | true => exact absurd (h a hp) hq
      rw [this]

theorem find?_eq_head {α : Type} (p : α → Bool) (l : List α) : l.find? p = (l.filter p).head? := by
  rw [List.head?_filter]

/-- The entry found is the newest of the key. -/
theorem ufind_eq {m : UaMap} (o : UOk m) (k : Nat) : m.find k = (m.ofKey k).head? := by
  unfold UaMap.find UaMap.ofKey
  rw [o.tbl, find?_filter_imp, find?_eq_head]
  intro x hx
  have := of_decide_eq_true hx
  rw [this]; exact decide_eq_true rfl

theorem uok_init (cap : Nat) (hash keyOf : Nat → Nat) : UOk (UaMap.init cap hash keyOf) :=
  ⟨List.Pairwise.nil, (fun _ h => nomatch h), fun _ => rfl⟩

theorem removeEnt_lru {m : UaMap} (o : UOk m) (e : Nat) :
    (m.removeEnt e).lru = m.lru.filter (fun x => decide (x ≠ e)) := by
  show m.lru.erase e = _
  rw [o.nodup.erase_eq_filter]
  apply List.filter_congr
  intro x _
  simp [bne, decide_not]
  rfl

theorem uok_removeEnt {m : UaMap} (o : UOk m) (e : Nat) : UOk (m.removeEnt e) := by
  have hl := removeEnt_lru o e
  refine ⟨?_, ?_, ?_⟩
  · rw [hl]; exact o.order.filter _
  · intro x hx
    rw [hl] at hx
    exact o.lt x (List.mem_filter.mp hx).1
  · intro s
    show (if s = m.slot (m.keyOf (m.ent e)) then (m.htbl s).erase e else m.htbl s) =
      (m.removeEnt e).lru.filter fun x => decide (m.slot (m.keyOf (m.ent x)) = s)
    rw [hl, o.tbl, List.filter_filter]
    by_cases hs : s = m.slot (m.keyOf (m.ent e))
    · rw [if_pos hs, (o.nodup.filter _).erase_eq_filter, List.filter_filter]
      apply List.filter_congr
      intro x _
      by_cases hx : x = e
      · subst hx; simp
      · simp [hx]
    · rw [if_neg hs]
      apply List.filter_congr
      intro x _
      by_cases hx : x = e
      · subst hx; simp [Ne.symm hs]
      · simp [hx]

theorem removeEnt_ofKey {m : UaMap} (o : UOk m) (e k : Nat) :
    (m.removeEnt e).ofKey k = (m.ofKey k).filter fun x => decide (x ≠ e) := by
  unfold UaMap.ofKey
  rw [removeEnt_lru o e, List.filter_filter, List.filter_filter]
  apply List.filter_congr
  intro x _
  show (decide (m.keyOf (m.ent x) = k) && _) = _
  rw [Bool.and_comm]

/-- What is found later is what was found before, or nothing. -/
structure Loses (m m' : UaMap) : Prop where
  ok : UOk m'
  keyOf : m'.keyOf = m.keyOf
  ent : m'.ent = m.ent
  next : m'.next = m.next
  cap : m'.cap = m.cap
  len : m'.lru.length ≤ m.lru.length
  find : ∀ k e, m'.find k = some e → m.find k = some e

theorem Loses.refl {m : UaMap} (o : UOk m) : Loses m m :=
  ⟨o, rfl, rfl, rfl, rfl, Nat.le_refl _, fun _ _ h => h⟩

theorem Loses.trans {a b c : UaMap} (h : Loses a b) (g : Loses b c) : Loses a c :=
  ⟨g.ok, g.keyOf.trans h.keyOf, g.ent.trans h.ent, g.next.trans h.next, g.cap.trans h.cap,
   Nat.le_trans g.len h.len, fun k e x => h.find k e (g.find k e x)⟩

/-- Removal of the oldest entry. -/
theorem loses_dropLru {m : UaMap} (o : UOk m) : Loses m m.dropLru := by
  unfold UaMap.dropLru
  cases hg : m.lru.getLast? with
  | none => exact Loses.refl o
  | some e =>
    dsimp only
    refine ⟨uok_removeEnt o e, rfl, rfl, rfl, rfl, ?_, ?_⟩
    · rw [removeEnt_lru o]; exact List.length_filter_le _ _
    · intro k x hx
      rw [ufind_eq (uok_removeEnt o e), removeEnt_ofKey o] at hx
      rw [ufind_eq o]
      have hsplit : m.lru = m.lru.dropLast ++ [e] := by
        have hne : m.lru ≠ [] := fun h => by rw [h] at hg; cases hg
        rw [List.getLast?_eq_some_getLast hne] at hg
        injection hg with hg
        rw [← hg]; exact (List.dropLast_concat_getLast hne).symm
      have hnd := o.nodup
      rw [hsplit] at hnd
      have hno : e ∉ m.lru.dropLast := by
        intro h
        exact (List.nodup_append.mp hnd).2.2 e h e (List.mem_singleton.mpr rfl) rfl
      have hkey : m.ofKey k = (m.lru.dropLast.filter fun y => decide (m.keyOf (m.ent y) = k)) ++
          ([e].filter fun y => decide (m.keyOf (m.ent y) = k)) := by
        unfold UaMap.ofKey
        rw [← List.filter_append, ← hsplit]
      rw [hkey] at hx ⊢
      rw [List.filter_append] at hx
      have h1 : ((m.lru.dropLast.filter fun y => decide (m.keyOf (m.ent y) = k)).filter fun y => decide (y ≠ e)) =
          m.lru.dropLast.filter fun y => decide (m.keyOf (m.ent y) = k) := by
        apply List.filter_eq_self.mpr
        intro y hy
        have := (List.mem_filter.mp hy).1
        exact decide_eq_true (fun h => hno (h ▸ this))
      have h2 : (([e].filter fun y => decide (m.keyOf (m.ent y) = k)).filter fun y => decide (y ≠ e)) = [] := by
        apply List.filter_eq_nil_iff.mpr
        intro y hy
        have := List.mem_singleton.mp (List.mem_filter.mp hy).1
        simp [this]
      rw [h1, h2, List.append_nil] at hx
      rw [List.head?_append, hx]
      rfl

theorem loses_refresh {m : UaMap} (o : UOk m) : Loses m m.refresh := by
  unfold UaMap.refresh
  by_cases h : 2 * m.lru.length > m.cap
  · rw [if_pos h]; exact loses_dropLru o
  · rw [if_neg h]; exact Loses.refl o

theorem loses_dropAllLoop (n : Nat) : ∀ {m : UaMap}, UOk m → Loses m (UaMap.dropAllLoop n m) := by
  induction n with
  | zero => intro m o; exact Loses.refl o
  | succ n ih =>
    intro m o
    have l := loses_dropLru o
    exact l.trans (ih l.ok)

/-- `remove` takes away all entries of the key and no other. -/
theorem removeLoop_spec (k : Nat) (n : Nat) : ∀ {m : UaMap}, UOk m → (m.ofKey k).length ≤ n →
    UOk (UaMap.removeLoop k n m) ∧ (UaMap.removeLoop k n m).ofKey k = [] ∧
    (UaMap.removeLoop k n m).keyOf = m.keyOf ∧ (UaMap.removeLoop k n m).ent = m.ent ∧
    (UaMap.removeLoop k n m).next = m.next ∧ (UaMap.removeLoop k n m).cap = m.cap ∧
    (UaMap.removeLoop k n m).lru.length ≤ m.lru.length ∧
    ∀ k', k' ≠ k → (UaMap.removeLoop k n m).ofKey k' = m.ofKey k' := by
  induction n with
  | zero =>
    intro m o h
    exact ⟨o, List.length_eq_zero_iff.mp (Nat.le_zero.mp h), rfl, rfl, rfl, rfl, Nat.le_refl _, fun _ _ => rfl⟩
  | succ n ih =>
    intro m o h
    unfold UaMap.removeLoop
    cases hf : m.find k with
    | none =>
      dsimp only
      rw [ufind_eq o] at hf
      exact ⟨o, List.head?_eq_none_iff.mp hf, rfl, rfl, rfl, rfl, Nat.le_refl _, fun _ _ => rfl⟩
    | some e =>
      dsimp only
      rw [ufind_eq o] at hf
      have he : e ∈ m.ofKey k := List.mem_of_head? hf
      have hk : m.keyOf (m.ent e) = k := of_decide_eq_true (List.mem_filter.mp he).2
      have hlen : ((m.removeEnt e).ofKey k).length ≤ n := by
        rw [removeEnt_ofKey o]
        have hlt : ((m.ofKey k).filter fun x => decide (x ≠ e)).length < (m.ofKey k).length := by
          apply Nat.lt_of_le_of_ne (List.length_filter_le _ _)
          intro hc
          have := List.length_filter_eq_length_iff.mp hc e he
          simp at this
        omega
      obtain ⟨a, b, c, d, f, g, l, i⟩ := ih (uok_removeEnt o e) hlen
      refine ⟨a, b, c, d, f, g, ?_, ?_⟩
      · refine Nat.le_trans l ?_
        rw [removeEnt_lru o]; exact List.length_filter_le _ _
      · intro k' hk'
        rw [i k' hk', removeEnt_ofKey o]
        apply List.filter_eq_self.mpr
        intro x hx
        apply decide_eq_true
        intro hxe
        have := of_decide_eq_true (List.mem_filter.mp hx).2
        rw [hxe, hk] at this
        exact hk' this.symm

theorem uok_push {m : UaMap} (o : UOk m) (a : Nat) : UOk (m.push a) := by
  have hent : ∀ x ∈ m.lru, (m.push a).ent x = m.ent x := by
    intro x hx
    show (if x = m.next then a else m.ent x) = _
    rw [if_neg (Nat.ne_of_lt (o.lt x hx))]
  refine ⟨?_, ?_, ?_⟩
  · exact List.pairwise_cons.mpr ⟨fun x hx => o.lt x hx, o.order⟩
  · intro x hx
    show x < m.next + 1
    cases hx with
    | head => exact Nat.lt_succ_self _
    | tail _ h => exact Nat.lt_succ_of_lt (o.lt x h)
  · intro s
    have hnext : (m.push a).ent m.next = a := if_pos rfl
    show (if s = m.slot (m.keyOf a) then m.next :: m.htbl s else m.htbl s) =
      (m.next :: m.lru).filter fun x => decide (m.slot (m.keyOf ((m.push a).ent x)) = s)
    have hrest : (m.lru.filter fun x => decide (m.slot (m.keyOf ((m.push a).ent x)) = s)) = m.htbl s := by
      rw [o.tbl]
      apply List.filter_congr
      intro x hx
      rw [hent x hx]
    rw [List.filter_cons, hnext, hrest]
    by_cases hs : s = m.slot (m.keyOf a)
    · rw [if_pos hs, if_pos (decide_eq_true hs.symm)]
    · rw [if_neg hs, if_neg (by simp [Ne.symm hs])]

theorem push_ofKey {m : UaMap} (o : UOk m) (a k : Nat) :
    (m.push a).ofKey k = if m.keyOf a = k then m.next :: m.ofKey k else m.ofKey k := by
  unfold UaMap.ofKey
  have hnext : (m.push a).ent m.next = a := if_pos rfl
  show ((m.next :: m.lru).filter fun x => decide (m.keyOf ((m.push a).ent x) = k)) = _
  have hrest : (m.lru.filter fun x => decide (m.keyOf ((m.push a).ent x) = k)) =
      m.lru.filter fun x => decide (m.keyOf (m.ent x) = k) := by
    apply List.filter_congr
    intro x hx
    have : (m.push a).ent x = m.ent x := if_neg (Nat.ne_of_lt (o.lt x hx))
    rw [this]
  rw [List.filter_cons, hnext, hrest]
  by_cases h : m.keyOf a = k
  · rw [if_pos h, if_pos (decide_eq_true h)]
  · rw [if_neg h, if_neg (by simp [h])]

/-- What is in the map is in force. -/
def Agrees (m : UaMap) (c : InForce) : Prop := ∀ k e, m.find k = some e → c k = some (m.ent e)

theorem agrees_lose {m m' : UaMap} {c : InForce} (l : Loses m m') (h : Agrees m c) : Agrees m' c := by
  intro k e he
  rw [l.ent]; exact h k e (l.find k e he)

theorem insert_spec {m : UaMap} {c : InForce} (o : UOk m) (a : Nat)
    (h : ∀ k e, k ≠ m.keyOf a → m.find k = some e → c k = some (m.ent e)) :
    UOk (m.insert a true) ∧ (m.insert a true).keyOf = m.keyOf ∧
    Agrees (m.insert a true) (fun k => if k = m.keyOf a then some a else c k) := by
  have e : m.insert a true = m.refresh.push a := if_pos rfl
  rw [e]
  have l := loses_refresh o
  refine ⟨uok_push l.ok a, l.keyOf, ?_⟩
  intro k x hx
  have hx' := hx
  rw [ufind_eq (uok_push l.ok a), push_ofKey l.ok] at hx'
  rw [l.keyOf] at hx'
  by_cases hk : m.keyOf a = k
  · rw [if_pos hk] at hx'
    injection hx' with hx'
    dsimp only
    rw [if_pos hk.symm, ← hx']
    exact congrArg some (show a = (if m.refresh.next = m.refresh.next then a else _) from (if_pos rfl).symm)
  · rw [if_neg hk, ← ufind_eq l.ok] at hx'
    dsimp only
    rw [if_neg (Ne.symm hk)]
    have hmem : x ∈ m.refresh.lru := by
      rw [ufind_eq l.ok] at hx'
      exact (List.mem_filter.mp (List.mem_of_head? hx')).1
    have hent : (m.refresh.push a).ent x = m.refresh.ent x := if_neg (Nat.ne_of_lt (l.ok.lt x hmem))
    rw [hent, l.ent]
    exact h k x (Ne.symm hk) (l.find k x hx')

theorem ustep_spec {m : UaMap} {c : InForce} (o : UOk m) (ag : Agrees m c) (op : UaOp)
    (hl : c.Legal m.keyOf op) (hm : op.memOk) :
    UOk (m.step op) ∧ (m.step op).keyOf = m.keyOf ∧ Agrees (m.step op) (c.step m.keyOf op) := by
  cases op with
  | create a mem =>
    have hm' : mem = true := hm
    subst hm'
    exact insert_spec o a (fun k e _ h => ag k e h)
  | found a mem =>
    show UOk (m.track a mem) ∧ (m.track a mem).keyOf = m.keyOf ∧ Agrees (m.track a mem) _
    unfold UaMap.track
    cases hlk : m.lookup (m.keyOf a) with
    | some b =>
      refine ⟨o, rfl, ?_⟩
      intro k e he
      show (if k = m.keyOf a then some a else c k) = _
      by_cases hk : k = m.keyOf a
      · rw [if_pos hk]
        have := ag k e he
        rw [hk] at this
        rcases hl with h | h
        · rw [h] at this; cases this
        · rw [h] at this; exact this
      · rw [if_neg hk]; exact ag k e he
    | none =>
      dsimp only
      cases mem with
      | true => exact insert_spec o a (fun k e _ h => ag k e h)
      | false =>
        have e : m.insert a false = m := if_neg (by decide)
        rw [e]
        refine ⟨o, rfl, ?_⟩
        intro k x hx
        show (if k = m.keyOf a then some a else c k) = _
        by_cases hk : k = m.keyOf a
        · unfold UaMap.lookup at hlk
          rw [← hk, hx] at hlk; cases hlk
        · rw [if_neg hk]; exact ag k x hx
  | forget a =>
    have hlen : (m.ofKey (m.keyOf a)).length ≤ m.lru.length := List.length_filter_le _ _
    obtain ⟨r1, r2, r3, r4, r5, r6, r7, r8⟩ := removeLoop_spec (m.keyOf a) m.lru.length o hlen
    refine ⟨r1, r3, ?_⟩
    intro k e he
    have he' : (UaMap.removeLoop (m.keyOf a) m.lru.length m).find k = some e := he
    rw [ufind_eq r1] at he'
    show (if k = m.keyOf a then none else c k) = _
    by_cases hk : k = m.keyOf a
    · rw [hk, r2] at he'; cases he'
    · rw [r8 k hk, ← ufind_eq o] at he'
      rw [if_neg hk]
      have : (m.step (.forget a)).ent = m.ent := r4
      rw [this]; exact ag k e he'
  | idle => exact ⟨(loses_dropLru o).ok, (loses_dropLru o).keyOf, agrees_lose (loses_dropLru o) ag⟩
  | dropAll =>
    have l := loses_dropAllLoop m.lru.length o
    exact ⟨l.ok, l.keyOf, agrees_lose l ag⟩

theorem urun_spec (ops : List UaOp) : ∀ {m : UaMap} {c : InForce}, UOk m → Agrees m c →
    LegalForce m.keyOf c ops → (∀ op ∈ ops, op.memOk) →
    UOk (runMap m ops) ∧ (runMap m ops).keyOf = m.keyOf ∧ Agrees (runMap m ops) (runForce m.keyOf c ops) := by
  induction ops with
  | nil => intro m c o ag _ _; exact ⟨o, rfl, ag⟩
  | cons op ops ih =>
    intro m c o ag hl hm
    obtain ⟨a, b, g⟩ := ustep_spec o ag op hl.1 (hm op (List.mem_cons_self ..))
    have hl2 : LegalForce (m.step op).keyOf (c.step m.keyOf op) ops := by rw [b]; exact hl.2
    obtain ⟨x, y, z⟩ := ih a g hl2 (fun q hq => hm q (List.mem_cons_of_mem _ hq))
    rw [b] at y z
    exact ⟨x, y, z⟩

/-- C55. Whatever sequence of unodes is created, met and forgotten, and however often the map is cut
down, an address which the map gives for a range is the one in force; provided memory was found for the
entry of every created unode. -/
theorem C55_address_in_force_partial (cap : Nat) (hash keyOf : Nat → Nat) (ops : List UaOp)
    (hl : LegalForce keyOf (fun _ => none) ops) (hm : ∀ op ∈ ops, op.memOk) (k a : Nat)
    (h : (runMap (UaMap.init cap hash keyOf) ops).lookup k = some a) :
    runForce keyOf (fun _ => none) ops k = some a := by
  have hf : ∀ k, (UaMap.init cap hash keyOf).find k = none := fun _ => rfl
  obtain ⟨_, _, z⟩ := urun_spec ops (uok_init cap hash keyOf) (c := fun _ => none)
    (fun k e he => by rw [hf] at he; cases he) hl hm
  unfold UaMap.lookup at h
  cases hx : (runMap (UaMap.init cap hash keyOf) ops).find k with
  | none => rw [hx] at h; cases h
  | some e =>
    rw [hx] at h
    injection h with h
    rw [← h]; exact z k e hx

/-- C55. The address of a unode which was just created or met is given until the next request. -/
theorem C55_address_given (cap : Nat) (hash keyOf : Nat → Nat) (ops : List UaOp)
    (hl : LegalForce keyOf (fun _ => none) ops) (hm : ∀ op ∈ ops, op.memOk) (a : Nat) :
    ((runMap (UaMap.init cap hash keyOf) ops).step (.create a true)).lookup (keyOf a) = some a := by
  obtain ⟨o, hk, _⟩ := urun_spec ops (uok_init cap hash keyOf) (c := fun _ => none)
    (fun k e he => by cases he) hl hm
  have hk' : (runMap (UaMap.init cap hash keyOf) ops).keyOf = keyOf := hk
  generalize runMap (UaMap.init cap hash keyOf) ops = m at o hk'
  show (m.insert a true).lookup (keyOf a) = some a
  have e : m.insert a true = m.refresh.push a := if_pos rfl
  have l := loses_refresh o
  unfold UaMap.lookup
  rw [e, ufind_eq (uok_push l.ok a), push_ofKey l.ok, l.keyOf, hk', if_pos rfl]
  exact congrArg some (show (if m.refresh.next = m.refresh.next then a else _) = a from if_pos rfl)

/-- C55. Forgetting leaves no address for the range. -/
theorem C55_address_forgotten (cap : Nat) (hash keyOf : Nat → Nat) (ops : List UaOp)
    (hl : LegalForce keyOf (fun _ => none) ops) (hm : ∀ op ∈ ops, op.memOk) (a : Nat) :
    ((runMap (UaMap.init cap hash keyOf) ops).step (.forget a)).lookup (keyOf a) = none := by
  obtain ⟨o, hk, _⟩ := urun_spec ops (uok_init cap hash keyOf) (c := fun _ => none)
    (fun k e he => by cases he) hl hm
  have hk' : (runMap (UaMap.init cap hash keyOf) ops).keyOf = keyOf := hk
  generalize runMap (UaMap.init cap hash keyOf) ops = m at o hk'
  have hlen : (m.ofKey (m.keyOf a)).length ≤ m.lru.length := List.length_filter_le _ _
  obtain ⟨r1, r2, _⟩ := removeLoop_spec (m.keyOf a) m.lru.length o hlen
  show ((UaMap.removeLoop (m.keyOf a) m.lru.length m).find (keyOf a)).map _ = none
  rw [ufind_eq r1, ← hk', r2]; rfl

/-- C55. Without memory for the entry of a created unode the map goes on giving the address before:
a unode of the time before a snapshot, from then on changed instead of its successor. Here range 3 is
covered by the unode at 3, then by the one at 13 for which no entry could be allocated. -/
theorem C55_address_in_force_violated :
    LegalForce (· % 10) (fun _ => none) [.create 3 true, .create 13 false] ∧
    (runMap (UaMap.init 8 id (· % 10)) [.create 3 true, .create 13 false]).lookup 3 = some 3 ∧
    runForce (· % 10) (fun _ => none) [.create 3 true, .create 13 false] 3 = some 13 := by
  refine ⟨⟨trivial, trivial, trivial⟩, by decide +kernel, by decide +kernel⟩

/-- A legal run: replaced addresses, met ones, a map of four slots which is cut down as it grows. -/
example : LegalForce (· % 10) (fun _ => none)
      [.create 3 true, .create 4 true, .create 13 true, .found 13 false, .create 5 true, .found 4 true, .idle] ∧
    (runMap (UaMap.init 4 id (· % 10))
      [.create 3 true, .create 4 true, .create 13 true, .found 13 false, .create 5 true, .found 4 true]).lookup 3 = some 13 ∧
    (runMap (UaMap.init 4 id (· % 10))
      [.create 3 true, .create 4 true, .create 13 true, .found 13 false, .create 5 true, .found 4 true, .idle]).lookup 4 = none := by
  refine ⟨⟨trivial, trivial, trivial, Or.inr (by decide), trivial, Or.inr (by decide), trivial, trivial⟩,
    by decide +kernel, by decide +kernel⟩

end Silofs.Lcache
