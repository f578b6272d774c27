import Verif.Spec.Linklist
set_option linter.unusedSimpArgs false
set_option linter.unusedVariables false
set_option linter.unusedSectionVars false
/-
C69, basis: rings of links in memory.
-/
namespace Silofs.Lk

variable {α : Type} [DecidableEq α]

/-! ### Single stores -/

theorem setNext_lnk (m : Mem α) (a : α) (v : Option α) (b : α) :
    (m.setNext (some a) v).lnk b = if b = a then { m.lnk b with next := v } else m.lnk b := rfl

theorem setPrev_lnk (m : Mem α) (a : α) (v : Option α) (b : α) :
    (m.setPrev (some a) v).lnk b = if b = a then { m.lnk b with prev := v } else m.lnk b := rfl

theorem setNext_bad (m : Mem α) (a : α) (v : Option α) : (m.setNext (some a) v).bad = m.bad := rfl
theorem setPrev_bad (m : Mem α) (a : α) (v : Option α) : (m.setPrev (some a) v).bad = m.bad := rfl

theorem set_lnk (m : Mem α) (a : α) (p n : Option α) (b : α) :
    (m.set a p n).lnk b = if b = a then ⟨p, n⟩ else m.lnk b := by
  unfold Mem.set
  rw [setPrev_lnk, setNext_lnk]
  by_cases h : b = a
  · simp only [if_pos h]
  · simp only [if_neg h]

theorem set_bad (m : Mem α) (a : α) (p n : Option α) : (m.set a p n).bad = m.bad := rfl

/-- The two fields after an insertion. -/
theorem insert_next (m : Mem α) (x p n b : α) (hp : p ≠ x) (hn : n ≠ x) :
    ((m.insert x (some p) (some n)).lnk b).next = if b = p then some x else if b = x then some n else (m.lnk b).next := by
  unfold Mem.insert
  rw [setNext_lnk]
  by_cases h : b = p
  · simp only [if_pos h]
  · simp only [if_neg h]
    rw [setPrev_lnk, set_lnk]
    by_cases h1 : b = n
    · have h2 : b ≠ x := by rw [h1]; exact hn
      simp only [if_pos h1, if_neg h2]
    · simp only [if_neg h1]
      by_cases h2 : b = x
      · simp only [if_pos h2]
      · simp only [if_neg h2]

theorem insert_prev (m : Mem α) (x p n b : α) (hp : p ≠ x) (hn : n ≠ x) :
    ((m.insert x (some p) (some n)).lnk b).prev = if b = n then some x else if b = x then some p else (m.lnk b).prev := by
  unfold Mem.insert
  rw [setNext_lnk]
  have e : ∀ c : Prop, ∀ [Decidable c], ∀ l : Link α, (if c then { l with next := some x } else l).prev = l.prev := by
    intro c _ l; by_cases hc : c
    · rw [if_pos hc]
    · rw [if_neg hc]
  rw [e, setPrev_lnk, set_lnk]
  by_cases h1 : b = n
  · simp only [if_pos h1]
  · simp only [if_neg h1]
    by_cases h2 : b = x
    · simp only [if_pos h2]
    · simp only [if_neg h2]

theorem insert_bad (m : Mem α) (x p n : α) : (m.insert x (some p) (some n)).bad = m.bad := rfl

theorem remove_lnk (m : Mem α) (x p n b : α) (hl : m.lnk x = ⟨some p, some n⟩) :
    (m.remove x).lnk b = if b = x then ⟨some x, some x⟩ else
      ⟨if b = n then some p else (m.lnk b).prev, if b = p then some n else (m.lnk b).next⟩ := by
  unfold Mem.remove
  rw [hl, set_lnk]
  by_cases h : b = x
  · rw [if_pos h, if_pos h]
  · rw [if_neg h, if_neg h]
    simp only [setNext_lnk, setPrev_lnk]
    by_cases h1 : b = p
    · by_cases h2 : b = n
      · simp only [if_pos h1, if_pos h2]
      · simp only [if_pos h1, if_neg h2]
    · by_cases h2 : b = n
      · simp only [if_neg h1, if_pos h2]
      · simp only [if_neg h1, if_neg h2]

theorem remove_bad (m : Mem α) (x p n : α) (hl : m.lnk x = ⟨some p, some n⟩) : (m.remove x).bad = m.bad := by
  unfold Mem.remove
  rw [hl]; rfl

/-! ### Chains -/

/-- Neighbours in the sequence point at each other. -/
def Links (m : Mem α) : List α → Prop
  | a :: b :: r => ((m.lnk a).next = some b ∧ (m.lnk b).prev = some a) ∧ Links m (b :: r)
  | _ => True

theorem links_app (m : Mem α) : ∀ (A : List α) (p n : α) (B : List α),
    Links m (A ++ p :: n :: B) ↔ Links m (A ++ [p]) ∧ ((m.lnk p).next = some n ∧ (m.lnk n).prev = some p) ∧ Links m (n :: B)
  | [], p, n, B => by
    show (_ ∧ _) ∧ _ ↔ True ∧ _ ∧ _
    exact ⟨fun h => ⟨trivial, h.1, h.2⟩, fun h => ⟨h.2.1, h.2.2⟩⟩
  | [a], p, n, B => by
    show (_ ∧ _) ∧ (_ ∧ _) ∧ _ ↔ ((_ ∧ _) ∧ True) ∧ (_ ∧ _) ∧ _
    exact ⟨fun h => ⟨⟨h.1, trivial⟩, h.2.1, h.2.2⟩, fun h => ⟨h.1.1, h.2.1, h.2.2⟩⟩
  | a :: b :: A, p, n, B => by
    have ih := links_app m (b :: A) p n B
    show (_ ∧ _) ∧ Links m ((b :: A) ++ p :: n :: B) ↔ ((_ ∧ _) ∧ Links m ((b :: A) ++ [p])) ∧ _ ∧ _
    rw [ih]
    exact ⟨fun h => ⟨⟨h.1, h.2.1⟩, h.2.2⟩, fun h => ⟨h.1.1, h.1.2, h.2⟩⟩

/-- A chain depends on the forward pointers of all but the last and the backward pointers of all but the first. -/
theorem links_congr {m m' : Mem α} : ∀ {l : List α}, Links m l → (∀ a, a ∈ l.dropLast → (m'.lnk a).next = (m.lnk a).next) →
    (∀ a, a ∈ l.tail → (m'.lnk a).prev = (m.lnk a).prev) → Links m' l
  | [], _, _, _ => trivial
  | [_], _, _, _ => trivial
  | a :: b :: r, h, h1, h2 => by
    refine ⟨⟨?_, ?_⟩, links_congr h.2 (fun x hx => h1 x ?_) (fun x hx => h2 x ?_)⟩
    · rw [h1 a List.mem_cons_self]; exact h.1.1
    · rw [h2 b List.mem_cons_self]; exact h.1.2
    · exact List.mem_cons_of_mem _ hx
    · exact List.mem_cons_of_mem _ hx

/-- The list with head `hd` holds `l`. -/
structure Ring (m : Mem α) (hd : α) (l : List α) : Prop where
  links : Links m (hd :: (l ++ [hd]))
  nodup : (hd :: l).Nodup

theorem ring_congr {m m' : Mem α} {hd : α} {l : List α} (r : Ring m hd l) (h : ∀ a, a ∈ hd :: l → m'.lnk a = m.lnk a) :
    Ring m' hd l := by
  refine ⟨links_congr r.links (fun a ha => ?_) (fun a ha => ?_), r.nodup⟩
  · rw [h a]
    have e : (hd :: (l ++ [hd])).dropLast = hd :: l := by
      rw [← List.cons_append, List.dropLast_concat]
    rw [e] at ha; exact ha
  · rw [h a]
    have ha : a ∈ l ++ [hd] := ha
    rcases List.mem_append.mp ha with ha | ha
    · exact List.mem_cons_of_mem _ ha
    · rw [List.mem_singleton.mp ha]; exact List.mem_cons_self

theorem snoc_of (hd : α) (l : List α) : ∃ A p, hd :: l = A ++ [p] :=
  ⟨(hd :: l).dropLast, (hd :: l).getLast (by simp), (List.dropLast_concat_getLast _).symm⟩

theorem cons_of (l : List α) (hd : α) : ∃ n B, l ++ [hd] = n :: B := by
  cases l with
  | nil => exact ⟨hd, [], rfl⟩
  | cons a r => exact ⟨a, r ++ [hd], rfl⟩

/-- Where the two parts of a ring meet. -/
theorem ring_split {m : Mem α} {hd : α} {l1 l2 A B : List α} {p n : α} (r : Ring m hd (l1 ++ l2)) (e1 : hd :: l1 = A ++ [p])
    (e2 : l2 ++ [hd] = n :: B) :
    Links m (A ++ [p]) ∧ ((m.lnk p).next = some n ∧ (m.lnk n).prev = some p) ∧ Links m (n :: B) := by
  have h := r.links
  have e : hd :: (l1 ++ l2 ++ [hd]) = A ++ p :: n :: B := by
    rw [List.append_assoc, e2, ← List.cons_append, e1, List.append_assoc]; rfl
  rw [e] at h
  exact (links_app m A p n B).mp h

theorem ring_join {m : Mem α} {hd : α} {l1 l2 A B : List α} {p n : α} (e1 : hd :: l1 = A ++ [p])
    (e2 : l2 ++ [hd] = n :: B) (h : Links m (A ++ [p]) ∧ ((m.lnk p).next = some n ∧ (m.lnk n).prev = some p) ∧ Links m (n :: B))
    (nd : (hd :: (l1 ++ l2)).Nodup) : Ring m hd (l1 ++ l2) := by
  have e : hd :: (l1 ++ l2 ++ [hd]) = A ++ p :: n :: B := by
    rw [List.append_assoc, e2, ← List.cons_append, e1, List.append_assoc]; rfl
  refine ⟨?_, nd⟩
  rw [e]
  exact (links_app m A p n B).mpr h

/-- Which parts the ends belong to. -/
structure Ends (hd : α) (l1 l2 A B : List α) (p n : α) : Prop where
  pA : p ∉ A
  nB : n ∉ B
  pmem : p ∈ hd :: l1
  nmem : n ∈ l2 ++ [hd]
  fwd1 : ∀ a, a ∈ (A ++ [p]).dropLast → a ≠ p ∧ a ∈ hd :: l1
  bwd1 : ∀ a, a ∈ (A ++ [p]).tail → a ≠ n ∧ a ∈ l1
  fwd2 : ∀ a, a ∈ (n :: B).dropLast → a ≠ p ∧ a ∈ l2
  bwd2 : ∀ a, a ∈ (n :: B).tail → a ≠ n ∧ a ∈ l2 ++ [hd]

theorem ends_of {hd : α} {l1 l2 A B : List α} {p n : α} (nd : (hd :: (l1 ++ l2)).Nodup) (e1 : hd :: l1 = A ++ [p])
    (e2 : l2 ++ [hd] = n :: B) : Ends hd l1 l2 A B p n := by
  have nd' := List.nodup_cons.mp nd
  have nda := List.nodup_append.mp nd'.2
  have h1 : hd ∉ l1 := fun h => nd'.1 (List.mem_append_left _ h)
  have h2 : hd ∉ l2 := fun h => nd'.1 (List.mem_append_right _ h)
  have n1 : (A ++ [p]).Nodup := by rw [← e1]; exact List.nodup_cons.mpr ⟨h1, nda.1⟩
  have n2 : (n :: B).Nodup := by
    rw [← e2]
    refine List.nodup_append.mpr ⟨nda.2.1, List.nodup_cons.mpr ⟨by simp, List.nodup_nil⟩, ?_⟩
    intro a ha b hb e
    rw [List.mem_singleton.mp hb] at e
    exact h2 (e ▸ ha)
  have pA : p ∉ A := fun h => (List.nodup_append.mp n1).2.2 p h p List.mem_cons_self rfl
  have nB : n ∉ B := (List.nodup_cons.mp n2).1
  have pmem : p ∈ hd :: l1 := by rw [e1]; exact List.mem_append_right _ List.mem_cons_self
  have nmem : n ∈ l2 ++ [hd] := by rw [e2]; exact List.mem_cons_self
  have p2 : p ∉ l2 := by
    rcases List.mem_cons.mp pmem with h | h
    · rw [h]; exact h2
    · exact fun h' => nda.2.2 p h p h' rfl
  have n1' : n ∉ l1 := by
    rcases List.mem_append.mp nmem with h | h
    · exact fun h' => nda.2.2 n h' n h rfl
    · rw [List.mem_singleton.mp h]; exact h1
  refine ⟨pA, nB, pmem, nmem, fun a ha => ?_, fun a ha => ?_, fun a ha => ?_, fun a ha => ?_⟩
  · rw [List.dropLast_concat] at ha
    refine ⟨fun e => pA (e ▸ ha), ?_⟩
    rw [e1]; exact List.mem_append_left _ ha
  · rw [← e1] at ha
    have ha : a ∈ l1 := ha
    exact ⟨fun e => n1' (e ▸ ha), ha⟩
  · rw [← e2, List.dropLast_concat] at ha
    exact ⟨fun e => p2 (e ▸ ha), ha⟩
  · have ha : a ∈ B := ha
    refine ⟨fun e => nB (e ▸ ha), ?_⟩
    rw [e2]; exact List.mem_cons_of_mem _ ha

/-- Putting a link between two neighbours. -/
theorem ring_insert {m : Mem α} {hd x : α} {l1 l2 A B : List α} {p n : α} (r : Ring m hd (l1 ++ l2)) (hx : x ∉ hd :: (l1 ++ l2))
    (e1 : hd :: l1 = A ++ [p]) (e2 : l2 ++ [hd] = n :: B) :
    Ring (m.insert x (some p) (some n)) hd (l1 ++ x :: l2) := by
  have en := ends_of r.nodup e1 e2
  obtain ⟨k1, k2, k3⟩ := ring_split r e1 e2
  have xh : x ≠ hd := fun e => hx (e ▸ List.mem_cons_self)
  have x1 : x ∉ l1 := fun h => hx (List.mem_cons_of_mem _ (List.mem_append_left _ h))
  have x2 : x ∉ l2 := fun h => hx (List.mem_cons_of_mem _ (List.mem_append_right _ h))
  have x1' : x ∉ hd :: l1 := fun h => (List.mem_cons.mp h).elim xh x1
  have x2' : x ∉ l2 ++ [hd] := fun h => (List.mem_append.mp h).elim x2 (fun h => xh (List.mem_singleton.mp h))
  have px : p ≠ x := fun e => x1' (e ▸ en.pmem)
  have nx : n ≠ x := fun e => x2' (e ▸ en.nmem)
  have nd : (hd :: (l1 ++ x :: l2)).Nodup := by
    have h := r.nodup
    have pm : (hd :: (l1 ++ x :: l2)).Perm (x :: hd :: (l1 ++ l2)) := by
      refine (List.Perm.cons hd List.perm_middle).trans (List.Perm.swap x hd _)
    exact pm.nodup_iff.mpr (List.nodup_cons.mpr ⟨hx, h⟩)
  have e2' : (x :: l2) ++ [hd] = x :: (n :: B) := by rw [List.cons_append, e2]
  refine ring_join e1 e2' ⟨?_, ⟨?_, ?_⟩, ?_⟩ nd
  · refine links_congr k1 (fun a ha => ?_) (fun a ha => ?_)
    · have h := en.fwd1 a ha
      have ax : a ≠ x := fun e => x1' (e ▸ h.2)
      rw [insert_next m x p n a px nx, if_neg h.1, if_neg ax]
    · have h := en.bwd1 a ha
      have ax : a ≠ x := fun e => x1 (e ▸ h.2)
      rw [insert_prev m x p n a px nx, if_neg h.1, if_neg ax]
  · rw [insert_next m x p n p px nx, if_pos rfl]
  · rw [insert_prev m x p n x px nx, if_neg (Ne.symm nx), if_pos rfl]
  · refine ⟨⟨?_, ?_⟩, links_congr k3 (fun a ha => ?_) (fun a ha => ?_)⟩
    · rw [insert_next m x p n x px nx, if_neg (Ne.symm px), if_pos rfl]
    · rw [insert_prev m x p n n px nx, if_pos rfl]
    · have h := en.fwd2 a ha
      have ax : a ≠ x := fun e => x2 (e ▸ h.2)
      rw [insert_next m x p n a px nx, if_neg h.1, if_neg ax]
    · have h := en.bwd2 a ha
      have ax : a ≠ x := fun e => x2' (e ▸ h.2)
      rw [insert_prev m x p n a px nx, if_neg h.1, if_neg ax]

/-- The pointers of a member. -/
theorem ring_at {m : Mem α} {hd x : α} {l1 l2 A B : List α} {p n : α} (r : Ring m hd (l1 ++ x :: l2))
    (e1 : hd :: l1 = A ++ [p]) (e2 : l2 ++ [hd] = n :: B) : m.lnk x = ⟨some p, some n⟩ := by
  have e2' : (x :: l2) ++ [hd] = x :: (n :: B) := by rw [List.cons_append, e2]
  obtain ⟨k1, k2, k3⟩ := ring_split r e1 e2'
  have h1 := k2.2
  have h2 := k3.1.1
  generalize m.lnk x = y at h1 h2
  cases y with
  | mk a b => cases h1; cases h2; rfl

/-- Taking a link out. -/
theorem ring_remove {m : Mem α} {hd x : α} {l1 l2 A B : List α} {p n : α} (r : Ring m hd (l1 ++ x :: l2))
    (e1 : hd :: l1 = A ++ [p]) (e2 : l2 ++ [hd] = n :: B) : Ring (m.remove x) hd (l1 ++ l2) := by
  have hl := ring_at r e1 e2
  have pm : (hd :: (l1 ++ x :: l2)).Perm (x :: hd :: (l1 ++ l2)) :=
    (List.Perm.cons hd List.perm_middle).trans (List.Perm.swap x hd _)
  have nd' := List.nodup_cons.mp (pm.nodup_iff.mp r.nodup)
  have hx := nd'.1
  have nd := nd'.2
  have en := ends_of nd e1 e2
  have e2' : (x :: l2) ++ [hd] = x :: (n :: B) := by rw [List.cons_append, e2]
  obtain ⟨k1, k2, k3⟩ := ring_split r e1 e2'
  have xh : x ≠ hd := fun e => hx (e ▸ List.mem_cons_self)
  have x1 : x ∉ l1 := fun h => hx (List.mem_cons_of_mem _ (List.mem_append_left _ h))
  have x2 : x ∉ l2 := fun h => hx (List.mem_cons_of_mem _ (List.mem_append_right _ h))
  have x1' : x ∉ hd :: l1 := fun h => (List.mem_cons.mp h).elim xh x1
  have x2' : x ∉ l2 ++ [hd] := fun h => (List.mem_append.mp h).elim x2 (fun h => xh (List.mem_singleton.mp h))
  have px : p ≠ x := fun e => x1' (e ▸ en.pmem)
  have nx : n ≠ x := fun e => x2' (e ▸ en.nmem)
  refine ring_join e1 e2 ⟨?_, ⟨?_, ?_⟩, ?_⟩ nd
  · refine links_congr k1 (fun a ha => ?_) (fun a ha => ?_)
    · have h := en.fwd1 a ha
      have ax : a ≠ x := fun e => x1' (e ▸ h.2)
      rw [remove_lnk m x p n a hl, if_neg ax]
      show (if a = p then some n else _) = _
      rw [if_neg h.1]
    · have h := en.bwd1 a ha
      have ax : a ≠ x := fun e => x1 (e ▸ h.2)
      rw [remove_lnk m x p n a hl, if_neg ax]
      show (if a = n then some p else _) = _
      rw [if_neg h.1]
  · rw [remove_lnk m x p n p hl, if_neg px]
    show (if p = p then some n else _) = _
    rw [if_pos rfl]
  · rw [remove_lnk m x p n n hl, if_neg nx]
    show (if n = n then some p else _) = _
    rw [if_pos rfl]
  · refine links_congr k3.2 (fun a ha => ?_) (fun a ha => ?_)
    · have h := en.fwd2 a ha
      have ax : a ≠ x := fun e => x2 (e ▸ h.2)
      rw [remove_lnk m x p n a hl, if_neg ax]
      show (if a = p then some n else _) = _
      rw [if_neg h.1]
    · have h := en.bwd2 a ha
      have ax : a ≠ x := fun e => x2' (e ▸ h.2)
      rw [remove_lnk m x p n a hl, if_neg ax]
      show (if a = n then some p else _) = _
      rw [if_neg h.1]

end Silofs.Lk
