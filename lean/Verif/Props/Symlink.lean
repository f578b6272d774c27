import Verif.Model.Symlink
import Verif.Props.XattrNode
/-
C32: readlink returns the target of the link.
-/
set_option linter.unusedSimpArgs false
set_option linter.unusedVariables false
namespace Silofs.Symlink
open Silofs.Xattr (Bytes bytesAt blit bytesAt_blit bytesAt_congr blit_in length_bytesAt)

/-! ### Specification -/

/-- Requests. -/
inductive Op where
  | symlink (alloc : Nat → Option Nat) (i : Nat) (v : Bytes)
  | unlink (i : Nat)

def step (s : St) : Op → St
  | .symlink alloc i v => (symlink alloc i v s).1
  | .unlink i => unlink i s

/-- Targets by inode number. -/
abbrev Targets := Nat → Option Bytes

/-- What each request should do. -/
def Op.spec (t : Targets) : Op → Targets
  | .symlink _ i v => if 0 < v.length ∧ v.length ≤ 4096 ∧ t i = none then fun k => if k = i then some v else t k else t
  | .unlink i => fun k => if k = i then none else t k

/-! ### Representation -/

/-- The parts of a link hold `rest`. -/
def PartsOk (node : Nat → Option (Nat → Nat)) (tail : Nat → Option Nat) : List Nat → Nat → Bytes → Prop
  | [], _, rest => rest = []
  | n :: ns, j, rest => ∃ a f, tail j = some a ∧ node a = some f ∧ n ≤ rest.length ∧
      bytesAt f 0 n = rest.take n ∧ PartsOk node tail ns (j + 1) (rest.drop n)

/-- A link holds a target. -/
def LinkOk (node : Nat → Option (Nat → Nat)) (l : Link) (v : Bytes) : Prop :=
  l.size = v.length ∧ bytesAt l.head 0 (min v.length headMax) = v.take headMax ∧
  ∃ ns, partLens nparts (v.length - min v.length headMax) = some ns ∧ PartsOk node l.tail ns 0 (v.drop headMax)

/-- Nodes are used once, and only by links. -/
structure Inv (s : St) : Prop where
  bound : ∀ i l j a, s.link i = some l → l.tail j = some a →
    j < nparts ∧ (∃ f, s.node a = some f) ∧ ∀ j', j' < j → l.tail j' ≠ none
  inj : ∀ i l j i' l' j' a, s.link i = some l → l.tail j = some a → s.link i' = some l' → l'.tail j' = some a →
    i = i' ∧ j = j'
  owned : ∀ a f, s.node a = some f → ∃ i l j, s.link i = some l ∧ l.tail j = some a

def Holds (s : St) (t : Targets) : Prop :=
  Inv s ∧ ∀ i, match s.link i, t i with
    | none, none => True
    | some l, some v => LinkOk s.node l v
    | _, _ => False

/-! ### Reading -/

theorem append_take (cap : Nat) (done x : Bytes) : append cap (done.take cap) x = (done ++ x).take cap := by
  unfold append
  rw [List.take_append, List.length_take]
  congr 1
  congr 1
  omega

theorem readParts_ok {io : Nat → Bool} {cap : Nat} {l : Link} {s : St} {ns : List Nat} : ∀ {j : Nat} {done rest r : Bytes},
    PartsOk s.node l.tail ns j rest → readParts io cap l s ns j (done.take cap) = some r →
    r = (done ++ rest).take cap := by
  induction ns with
  | nil =>
    intro j done rest r h e
    have h : rest = [] := h
    simp only [readParts, Option.some.injEq] at e
    rw [← e, h, List.append_nil]
  | cons n ns ih =>
    intro j done rest r h e
    obtain ⟨a, f, h1, h2, h3, h4, h5⟩ := h
    simp only [readParts, h1, h2] at e
    split at e
    · rw [h4, append_take] at e
      have := ih h5 e
      rw [this, List.append_assoc, List.take_append_drop]
    · cases e

theorem readParts_some {cap : Nat} {l : Link} {s : St} {ns : List Nat} : ∀ {j : Nat} {buf rest : Bytes},
    PartsOk s.node l.tail ns j rest → (readParts (fun _ => true) cap l s ns j buf).isSome := by
  induction ns with
  | nil => intro j buf rest h; rfl
  | cons n ns ih =>
    intro j buf rest h
    obtain ⟨a, f, h1, h2, h3, h4, h5⟩ := h
    simp only [readParts, h1, h2, if_true]
    exact ih h5

/-- A read that succeeds gives the target, cut to the buffer. -/
theorem LinkOk.read {io : Nat → Bool} {i cap : Nat} {s : St} {l : Link} {v r : Bytes} (hl : s.link i = some l)
    (h : LinkOk s.node l v) (e : readlink io i cap s = some r) : r = v.take cap := by
  obtain ⟨h1, h2, ns, h3, h4⟩ := h
  simp only [readlink, hl, h1, h3, h2] at e
  have e0 : append cap [] (v.take headMax) = (v.take headMax).take cap := by simp [append]
  rw [e0] at e
  have := readParts_ok h4 e
  rw [this, List.take_append_drop]

theorem LinkOk.read_some {i cap : Nat} {s : St} {l : Link} {v : Bytes} (hl : s.link i = some l)
    (h : LinkOk s.node l v) : (readlink (fun _ => true) i cap s).isSome := by
  obtain ⟨h1, h2, ns, h3, h4⟩ := h
  simp only [readlink, hl, h1, h3]
  exact readParts_some h4

/-! ### Storing -/

theorem partLens_spec {k : Nat} : ∀ {n : Nat} {ns : List Nat}, partLens k n = some ns → ns.length ≤ k ∧ ns.sum = n := by
  induction k with
  | zero =>
    intro n ns h
    unfold partLens at h
    split at h
    · rename_i e; cases h; exact ⟨Nat.le_refl 0, by rw [e]; rfl⟩
    · cases h
  | succ k ih =>
    intro n ns h
    unfold partLens at h
    split at h
    · rename_i e; cases h; exact ⟨Nat.zero_le _, by rw [e]; rfl⟩
    · simp only [Option.map_eq_some_iff] at h
      obtain ⟨ns', h1, h2⟩ := h
      obtain ⟨h3, h4⟩ := ih h1
      rw [← h2, List.length_cons, List.sum_cons, h4]
      omega

/-- Targets that are not too long have parts. -/
theorem partLens_some {n : Nat} (h : n ≤ targetMax) : ∃ ns, partLens nparts (n - min n headMax) = some ns := by
  unfold targetMax at h
  unfold nparts headMax
  rw [show (2 : Nat) = 1 + 1 from rfl]
  unfold partLens
  split
  · exact ⟨_, rfl⟩
  · have : n - min n 480 - min (n - min n 480) partMax = 0 := by unfold partMax; omega
    rw [this]
    unfold partLens
    exact ⟨_, rfl⟩

theorem PartsOk.mono {node node' : Nat → Option (Nat → Nat)} {tail tail' : Nat → Option Nat} {ns : List Nat} :
    ∀ {j : Nat} {rest : Bytes}, PartsOk node tail ns j rest →
    (∀ j' a f, tail j' = some a → node a = some f → tail' j' = some a ∧ node' a = some f) →
    PartsOk node' tail' ns j rest := by
  induction ns with
  | nil => intro j rest h _; exact h
  | cons n ns ih =>
    intro j rest h hm
    obtain ⟨a, f, h1, h2, h3, h4, h5⟩ := h
    obtain ⟨h6, h7⟩ := hm j a f h1 h2
    exact ⟨a, f, h6, h7, h3, h4, ih h5 hm⟩

theorem LinkOk.mono {node node' : Nat → Option (Nat → Nat)} {l : Link} {v : Bytes} (h : LinkOk node l v)
    (hm : ∀ j a f, l.tail j = some a → node a = some f → node' a = some f) : LinkOk node' l v := by
  obtain ⟨h1, h2, ns, h3, h4⟩ := h
  exact ⟨h1, h2, ns, h3, h4.mono (fun j a f ht hn => ⟨ht, hm j a f ht hn⟩)⟩

/-- What storing the parts does, whether or not it succeeds. -/
structure Assigned (s s' : St) (i j : Nat) (l l' : Link) : Prop where
  inv : Inv s'
  mine : s'.link i = some l'
  size : l'.size = l.size
  head : l'.head = l.head
  tail : ∀ j', j' < j → l'.tail j' = l.tail j'
  other : ∀ k, k ≠ i → s'.link k = s.link k
  node : ∀ a f, s.node a = some f → s'.node a = some f

theorem assignParts_ok {alloc : Nat → Option Nat} {i : Nat} {ns : List Nat} : ∀ {j : Nat} {v : Bytes} {s : St} {l : Link},
    Inv s → s.link i = some l → (∀ j', l.tail j' ≠ none ↔ j' < j) → j + ns.length ≤ nparts → ns.sum = v.length →
    ∃ l', Assigned s (assignParts alloc i ns j v s).1 i j l l' ∧
      ((assignParts alloc i ns j v s).2 = true → PartsOk (assignParts alloc i ns j v s).1.node l'.tail ns j v) := by
  induction ns with
  | nil =>
    intro j v s l hi hl ht hn hs
    refine ⟨l, ⟨hi, hl, rfl, rfl, fun _ _ => rfl, fun _ _ => rfl, fun _ _ h => h⟩, fun _ => ?_⟩
    exact List.eq_nil_of_length_eq_zero hs.symm
  | cons n ns ih =>
    intro j v s l hi hl ht hn hs
    have hstay : Assigned s s i j l l := ⟨hi, hl, rfl, rfl, fun _ _ => rfl, fun _ _ => rfl, fun _ _ h => h⟩
    rw [List.length_cons] at hn
    rw [List.sum_cons] at hs
    simp only [assignParts, hl]
    split
    · rename_i a l0 ha hl0
      cases hl0
      split
      · rename_i hfree
        generalize hs1 : (s.setNode a (some (blit (fun _ => 0) 0 (v.take n)))).setLink i
            (some { l with tail := fun j' => if j' = j then some a else l.tail j' }) = s1
        have hnode : ∀ x, s1.node x = if x = a then some (blit (fun _ => 0) 0 (v.take n)) else s.node x := by
          intro x; rw [← hs1]; rfl
        have hlink : ∀ k, s1.link k = if k = i then some { l with tail := fun j' => if j' = j then some a else l.tail j' }
            else s.link k := by
          intro k; rw [← hs1]; rfl
        -- nobody refers to a free node
        have hno : ∀ k m q, s.link k = some m → m.tail q ≠ some a := by
          intro k m q h1 h2
          obtain ⟨_, ⟨f, hf⟩, _⟩ := hi.bound k m q a h1 h2
          rw [hfree] at hf; cases hf
        have hinv : Inv s1 := by
          refine ⟨fun k m q x h1 h2 => ?_, fun k m q k' m' q' x h1 h2 h3 h4 => ?_, fun x f hx => ?_⟩
          · rw [hlink] at h1
            by_cases ek : k = i
            · rw [if_pos ek] at h1
              cases h1
              simp only at h2 ⊢
              by_cases eq : q = j
              · rw [if_pos eq] at h2
                cases h2
                refine ⟨by omega, ⟨_, by rw [hnode, if_pos rfl]⟩, fun j' hj' => ?_⟩
                rw [if_neg (by omega)]
                exact (ht j').2 (by omega)
              · rw [if_neg eq] at h2
                obtain ⟨b1, ⟨f, b2⟩, b3⟩ := hi.bound i l q x hl h2
                refine ⟨b1, ⟨f, ?_⟩, fun j' hj' => ?_⟩
                · rw [hnode, if_neg (fun e => hno i l q hl (by rw [h2, e]))]
                  exact b2
                · split
                  · simp
                  · exact b3 j' hj'
            · rw [if_neg ek] at h1
              obtain ⟨b1, ⟨f, b2⟩, b3⟩ := hi.bound k m q x h1 h2
              exact ⟨b1, ⟨f, by rw [hnode, if_neg (fun e => hno k m q h1 (by rw [h2, e]))]; exact b2⟩, b3⟩
          · rw [hlink] at h1 h3
            -- where the reference comes from
            have key : ∀ k m q, (if k = i then some { l with tail := fun j' => if j' = j then some a else l.tail j' }
                else s.link k) = some m → m.tail q = some x →
                (k = i ∧ q = j ∧ x = a) ∨ ∃ m0, s.link k = some m0 ∧ m0.tail q = some x := by
              intro k m q e1 e2
              by_cases ek : k = i
              · rw [if_pos ek] at e1
                cases e1
                simp only at e2
                by_cases eq : q = j
                · rw [if_pos eq] at e2
                  exact Or.inl ⟨ek, eq, (Option.some.inj e2).symm⟩
                · rw [if_neg eq] at e2
                  exact Or.inr ⟨l, by rw [ek]; exact hl, e2⟩
              · rw [if_neg ek] at e1
                exact Or.inr ⟨m, e1, e2⟩
            rcases key k m q h1 h2 with ⟨r1, r2, r3⟩ | ⟨m0, r1, r2⟩
            · rcases key k' m' q' h3 h4 with ⟨r4, r5, _⟩ | ⟨m1, r4, r5⟩
              · exact ⟨by rw [r1, r4], by rw [r2, r5]⟩
              · exact absurd (by rw [r5, r3]) (hno k' m1 q' r4)
            · rcases key k' m' q' h3 h4 with ⟨r4, r5, r6⟩ | ⟨m1, r4, r5⟩
              · exact absurd (by rw [r2, r6]) (hno k m0 q r1)
              · exact hi.inj k m0 q k' m1 q' x r1 r2 r4 r5
          · rw [hnode] at hx
            by_cases ex : x = a
            · exact ⟨i, { l with tail := fun j' => if j' = j then some a else l.tail j' }, j,
                by rw [hlink, if_pos rfl], by simp [ex]⟩
            · rw [if_neg ex] at hx
              obtain ⟨k, m, q, h1, h2⟩ := hi.owned x f hx
              by_cases ek : k = i
              · subst ek
                rw [hl] at h1
                cases h1
                refine ⟨k, { l with tail := fun j' => if j' = j then some a else l.tail j' }, q,
                  by rw [hlink, if_pos rfl], ?_⟩
                simp only
                rw [if_neg (fun e => by
                  have := (ht q).1 (by rw [h2]; simp)
                  omega)]
                exact h2
              · exact ⟨k, m, q, by rw [hlink, if_neg ek]; exact h1, h2⟩
        have hdr : ns.sum = (v.drop n).length := by rw [List.length_drop]; omega
        obtain ⟨l', h1, h2⟩ := ih (j := j + 1) (v := v.drop n) (s := s1)
          (l := { l with tail := fun j' => if j' = j then some a else l.tail j' }) hinv
          (by rw [hlink, if_pos rfl])
          (fun j' => by
            simp only
            split
            · rename_i e; simp [e]
            · rw [ht]; omega) (by omega) hdr
        have hlow : ∀ x f, s.node x = some f → s1.node x = some f := by
          intro x f hx
          rw [hnode, if_neg (fun e => by rw [e, hfree] at hx; cases hx)]
          exact hx
        refine ⟨l', ⟨h1.inv, h1.mine, h1.size, h1.head, fun j' hj' => ?_, fun k hk => ?_, fun x f hx => h1.node x f (hlow x f hx)⟩,
          fun hok => ?_⟩
        · rw [h1.tail j' (by omega)]
          simp only
          rw [if_neg (by omega)]
        · rw [h1.other k hk, hlink, if_neg hk]
        · have htj : l'.tail j = some a := by
            rw [h1.tail j (by omega)]
            simp only
            rw [if_pos trivial]
          refine ⟨a, _, htj, h1.node a _ (by rw [hnode, if_pos rfl]), by omega, ?_, h2 hok⟩
          have hlen : (v.take n).length = n := by rw [List.length_take]; omega
          have := bytesAt_blit (fun _ => 0) 0 (v.take n)
          rw [hlen] at this
          exact this
      · exact ⟨l, hstay, fun h => by cases h⟩
    · exact ⟨l, hstay, fun h => by cases h⟩

/-! ### Requests -/

/-- Whether the nodes for the target could be allocated. -/
def Stored (s : St) : Op → Prop
  | .symlink alloc i v => ∀ l, (symlink alloc i v s).1.link i = some l → l.size = v.length
  | .unlink _ => True

theorem holds_unlink {s : St} {t : Targets} {i : Nat} (h : Holds s t) :
    Holds (unlink i s) (fun k => if k = i then none else t k) := by
  obtain ⟨hi, hl⟩ := h
  unfold unlink
  have hii := hl i
  split
  · rename_i e
    refine ⟨hi, fun k => ?_⟩
    by_cases ek : k = i
    · subst ek; simp only [e, if_true]
    · simp only [if_neg ek]; exact hl k
  · rename_i l e
    -- nodes that remain
    have hdrop : ∀ (n j : Nat) (s0 : St), (dropParts l n j s0).link = s0.link ∧
        (∀ a, (∀ q, l.tail q ≠ some a) → (dropParts l n j s0).node a = s0.node a) ∧
        (∀ a, s0.node a = none → (dropParts l n j s0).node a = none) := by
      intro n
      induction n with
      | zero => intro j s0; exact ⟨rfl, fun _ _ => rfl, fun _ h => h⟩
      | succ n ih =>
        intro j s0
        simp only [dropParts]
        split
        · exact ⟨rfl, fun _ _ => rfl, fun _ h => h⟩
        · rename_i a ha
          obtain ⟨h1, h2, h3⟩ := ih (j + 1) (s0.setNode a none)
          refine ⟨h1, fun b hb => ?_, fun b hb => h3 b ?_⟩
          · rw [h2 b hb]
            simp only [St.setNode]
            rw [if_neg (fun e => hb j (by rw [ha, e]))]
          · simp only [St.setNode]
            split
            · rfl
            · exact hb
    -- nodes of the link are gone
    have hgone : ∀ (n j : Nat) (s0 : St) (q : Nat) (a : Nat), l.tail q = some a → j ≤ q → q < j + n →
        (dropParts l n j s0).node a = none := by
      intro n
      induction n with
      | zero => intro j s0 q a _ _ _; omega
      | succ n ih =>
        intro j s0 q a hq h1 h2
        obtain ⟨_, _, hb⟩ := hi.bound i l q a e hq
        simp only [dropParts]
        split
        · rename_i hn
          by_cases eq : j = q
          · subst eq; rw [hq] at hn; cases hn
          · exact absurd hn (hb j (by omega))
        · rename_i b hb'
          by_cases eq : j = q
          · subst eq
            rw [hq] at hb'
            cases hb'
            exact (hdrop n (j + 1) _).2.2 a (by simp [St.setNode])
          · exact ih (j + 1) _ q a hq (by omega) (by omega)
    obtain ⟨d1, d2, d3⟩ := hdrop nparts 0 s
    have hlink : ∀ k, ((dropParts l nparts 0 s).setLink i none).link k = if k = i then none else s.link k := by
      intro k; simp only [St.setLink, d1]
    -- nodes of other links are untouched
    have hkeep : ∀ k m q a, k ≠ i → s.link k = some m → m.tail q = some a →
        ((dropParts l nparts 0 s).setLink i none).node a = s.node a := by
      intro k m q a hk h1 h2
      exact d2 a (fun q' h3 => hk (hi.inj k m q i l q' a h1 h2 e h3).1)
    refine ⟨⟨fun k m q a h1 h2 => ?_, fun k m q k' m' q' a h1 h2 h3 h4 => ?_, fun a f ha => ?_⟩, fun k => ?_⟩
    · rw [hlink] at h1
      split at h1
      · cases h1
      · rename_i hk
        obtain ⟨b1, b2, b3⟩ := hi.bound k m q a h1 h2
        refine ⟨b1, ?_, b3⟩
        rw [hkeep k m q a hk h1 h2]; exact b2
    · rw [hlink] at h1 h3
      split at h1
      · cases h1
      · split at h3
        · cases h3
        · exact hi.inj k m q k' m' q' a h1 h2 h3 h4
    · have hs : s.node a = some f := by
        cases hsn : s.node a with
        | none => have := d3 a hsn; rw [show ((dropParts l nparts 0 s).setLink i none).node a = none from this] at ha; cases ha
        | some g =>
          by_cases ho : ∃ q, l.tail q = some a
          · obtain ⟨q, hq⟩ := ho
            have hb := (hi.bound i l q a e hq).1
            have := hgone nparts 0 s q a hq (Nat.zero_le q) (by omega)
            rw [show ((dropParts l nparts 0 s).setLink i none).node a = none from this] at ha
            cases ha
          · have := d2 a (fun q hq => ho ⟨q, hq⟩)
            rw [show ((dropParts l nparts 0 s).setLink i none).node a = s.node a from this, hsn] at ha
            exact ha
      obtain ⟨k, m, q, h1, h2⟩ := hi.owned a f hs
      by_cases hk : k = i
      · subst hk
        rw [e] at h1
        cases h1
        have hb := (hi.bound k l q a e h2).1
        have := hgone nparts 0 s q a h2 (Nat.zero_le q) (by omega)
        rw [show ((dropParts l nparts 0 s).setLink k none).node a = none from this] at ha
        cases ha
      · exact ⟨k, m, q, by rw [hlink, if_neg hk]; exact h1, h2⟩
    · rw [hlink]
      by_cases hk : k = i
      · simp only [if_pos hk]
      · simp only [if_neg hk]
        have := hl k
        split
        · trivial
        · rename_i m v h1 h2
          rw [h1, h2] at this
          exact LinkOk.mono this (fun q a f h3 h4 => by rw [hkeep k m q a hk h1 h3]; exact h4)
        · rename_i h1 h2
          split at this
          · rename_i e1 e2; exact (h1 e1 e2).elim
          · rename_i m v e1 e2; exact (h2 m v e1 e2).elim
          · exact this

/-- The target found in a link that was made: the whole one, or nothing if a node could not be had. -/
theorem holds_symlink {s : St} {t : Targets} {alloc : Nat → Option Nat} {i : Nat} {v : Bytes} (h : Holds s t) :
    ((symlink alloc i v s).2 ≠ none ∧ Holds (symlink alloc i v s).1 t) ∨
    ((symlink alloc i v s).2 = none ∧ t i = none ∧ 0 < v.length ∧ v.length ≤ targetMax ∧
      ∃ l, (symlink alloc i v s).1.link i = some l ∧
      ((l.size = v.length ∧ Holds (symlink alloc i v s).1 (fun k => if k = i then some v else t k)) ∨
       (l.size = 0 ∧ Holds (symlink alloc i v s).1 (fun k => if k = i then some [] else t k)))) := by
  obtain ⟨hi, hl⟩ := h
  unfold symlink
  split
  · exact Or.inl ⟨by simp, hi, hl⟩
  · rename_i hz
    split
    · exact Or.inl ⟨by simp, hi, hl⟩
    · rename_i hmax
      split
      · exact Or.inl ⟨by simp, hi, hl⟩
      · rename_i hnone
        refine Or.inr ⟨rfl, ?_, by omega, by omega, ?_⟩
        · have := hl i
          rw [hnone] at this
          cases hti : t i with
          | none => rfl
          | some w => rw [hti] at this; exact this.elim
        · obtain ⟨ns, hns⟩ := partLens_some (show v.length ≤ targetMax by omega)
          obtain ⟨hlen, hsum⟩ := partLens_spec hns
          have hmine : (s.setLink i (some freshLink)).link i = some freshLink := by simp [St.setLink]
          generalize hs0 : (s.setLink i (some freshLink)).setLink i
            (some { freshLink with head := blit freshLink.head 0 (v.take (min v.length headMax)) }) = s0
          have hlink0 : ∀ k, s0.link k = if k = i then
              some { freshLink with head := blit freshLink.head 0 (v.take (min v.length headMax)) } else s.link k := by
            intro k
            rw [← hs0]
            simp only [St.setLink]
            split
            · rfl
            · rfl
          have hnode0 : s0.node = s.node := by rw [← hs0]; rfl
          have hinv0 : Inv s0 := by
            refine ⟨fun k m q a h1 h2 => ?_, fun k m q k' m' q' a h1 h2 h3 h4 => ?_, fun a f ha => ?_⟩
            · rw [hlink0] at h1
              split at h1
              · cases h1; simp [freshLink] at h2
              · rw [hnode0]; exact hi.bound k m q a h1 h2
            · rw [hlink0] at h1 h3
              split at h1
              · cases h1; simp [freshLink] at h2
              · split at h3
                · cases h3; simp [freshLink] at h4
                · exact hi.inj k m q k' m' q' a h1 h2 h3 h4
            · rw [hnode0] at ha
              obtain ⟨k, m, q, h1, h2⟩ := hi.owned a f ha
              refine ⟨k, m, q, ?_, h2⟩
              rw [hlink0, if_neg (fun e => by rw [e, hnone] at h1; cases h1)]
              exact h1
          obtain ⟨l', ha, hp⟩ := assignParts_ok (alloc := alloc) (i := i) (ns := ns) (j := 0) (v := v.drop (min v.length headMax))
            (s := s0) (l := { freshLink with head := blit freshLink.head 0 (v.take (min v.length headMax)) }) hinv0
            (by rw [hlink0, if_pos rfl]) (fun j' => by simp [freshLink]) (by omega)
            (by rw [hsum, List.length_drop])
          -- the other links
          have hother : ∀ s' : St, s'.node = (assignParts alloc i ns 0 (v.drop (min v.length headMax)) s0).1.node →
              (∀ k, k ≠ i → s'.link k = s.link k) → ∀ k, k ≠ i →
              match s'.link k, t k with
              | none, none => True
              | some l, some v => LinkOk s'.node l v
              | _, _ => False := by
            intro s' e1 e2 k hk
            rw [e2 k hk]
            have := hl k
            split
            · trivial
            · rename_i m w h1 h2
              rw [h1, h2] at this
              refine LinkOk.mono this (fun q a f h3 h4 => ?_)
              rw [e1]
              exact ha.node a f (by rw [hnode0]; exact h4)
            · rename_i h1 h2
              split at this
              · rename_i e1 e2; exact (h1 e1 e2).elim
              · rename_i m v e1 e2; exact (h2 m v e1 e2).elim
              · exact this
          have hok : ∀ k, k ≠ i → (assignParts alloc i ns 0 (v.drop (min v.length headMax)) s0).1.link k = s.link k := by
            intro k hk
            rw [ha.other k hk, hlink0, if_neg hk]
          simp only [bindSymval, hns, hmine, hs0]
          split
          · rename_i s' hs'
            rw [hs'] at ha hp hother hok
            replace ha : Assigned s0 s' i 0 _ l' := ha
            refine ⟨l', ha.mine, Or.inr ⟨by rw [ha.size]; rfl, ha.inv, fun k => ?_⟩⟩
            by_cases hk : k = i
            · subst hk
              simp only [ha.mine, if_true]
              refine ⟨by rw [ha.size]; rfl, ?_, [], ?_, rfl⟩
              · simp [bytesAt]
              · unfold partLens; rfl
            · simp only [if_neg hk]
              exact hother s' rfl hok k hk
          · rename_i s' hs'
            rw [hs'] at ha hp hother hok
            replace ha : Assigned s0 s' i 0 _ l' := ha
            replace hp : PartsOk s'.node l'.tail ns 0 (v.drop (min v.length headMax)) := hp rfl
            have hlink : ∀ k, (s'.setLink i ((s'.link i).map fun l => { l with size := v.length })).link k =
                if k = i then some { l' with size := v.length } else s'.link k := by
              intro k
              simp only [St.setLink, ha.mine, Option.map_some]
            refine ⟨{ l' with size := v.length }, by rw [hlink, if_pos rfl], Or.inl ⟨rfl, ?_, fun k => ?_⟩⟩
            · refine ⟨fun k m q a h1 h2 => ?_, fun k m q k' m' q' a h1 h2 h3 h4 => ?_, fun a f haf => ?_⟩
              · rw [hlink] at h1
                split at h1
                · rename_i ek
                  cases h1
                  exact ha.inv.bound k l' q a (by rw [ek]; exact ha.mine) h2
                · exact ha.inv.bound k m q a h1 h2
              · have key : ∀ k m q, (s'.setLink i ((s'.link i).map fun l => { l with size := v.length })).link k = some m →
                    m.tail q = some a → ∃ m0, s'.link k = some m0 ∧ m0.tail q = some a := by
                  intro k m q e1 e2
                  rw [hlink] at e1
                  split at e1
                  · rename_i ek
                    cases e1
                    exact ⟨l', by rw [ek]; exact ha.mine, e2⟩
                  · exact ⟨m, e1, e2⟩
                obtain ⟨m0, r1, r2⟩ := key k m q h1 h2
                obtain ⟨m1, r3, r4⟩ := key k' m' q' h3 h4
                exact ha.inv.inj k m0 q k' m1 q' a r1 r2 r3 r4
              · obtain ⟨k, m, q, h1, h2⟩ := ha.inv.owned a f haf
                by_cases ek : k = i
                · rw [ek, ha.mine] at h1
                  cases h1
                  exact ⟨i, { l' with size := v.length }, q, by rw [hlink, if_pos rfl], h2⟩
                · exact ⟨k, m, q, by rw [hlink, if_neg ek]; exact h1, h2⟩
            · by_cases hk : k = i
              · subst hk
                rw [hlink]
                simp only [if_true]
                refine ⟨rfl, ?_, ns, hns, ?_⟩
                · show bytesAt l'.head 0 _ = _
                  rw [ha.head]
                  have hlen' : (v.take (min v.length headMax)).length = min v.length headMax := by
                    rw [List.length_take]; omega
                  have := bytesAt_blit freshLink.head 0 (v.take (min v.length headMax))
                  rw [hlen'] at this
                  rw [this]
                  rw [Nat.min_comm, List.take_eq_take_iff]
                  omega
                · have : v.drop headMax = v.drop (min v.length headMax) := by
                    by_cases hle : v.length ≤ headMax
                    · rw [List.drop_eq_nil_of_le hle, Nat.min_eq_left hle, List.drop_eq_nil_of_le (Nat.le_refl _)]
                    · rw [Nat.min_eq_right (by omega)]
                  rw [this]
                  exact hp
              · simp only [if_neg hk]
                exact hother (s'.setLink i ((s'.link i).map fun l => { l with size := v.length })) rfl
                  (fun k hk => by rw [hlink, if_neg hk]; exact hok k hk) k hk

/-- **C32** (one link).  After a symlink that stored its target, a readlink that succeeds returns the target,
cut to the buffer, and it succeeds unless a node can not be read. -/
theorem C32_readlink {s : St} {t : Targets} {i : Nat} {v : Bytes} (h : Holds s t) (ht : t i = some v) (cap : Nat) :
    (∀ io r, readlink io i cap s = some r → r = v.take cap) ∧ (readlink (fun _ => true) i cap s).isSome := by
  have := h.2 i
  rw [ht] at this
  cases hl : s.link i with
  | none => rw [hl] at this; exact this.elim
  | some l =>
    rw [hl] at this
    exact ⟨fun io r e => LinkOk.read hl this e, LinkOk.read_some hl this⟩

/-- The targets after a list of requests. -/
def run (t : Targets) (os : List Op) : Targets := os.foldl Op.spec t

def AllStored : St → List Op → Prop
  | _, [] => True
  | s, o :: os => Stored s o ∧ AllStored (step s o) os

/-- **C32** (histories, partial).  After any list of symlinks and unlinks every link has the target it was made
with, and exactly the nodes of existing links are in use, provided every symlink could allocate its nodes.
Without the proviso this is false: see `C32_symlink_violated`. -/
theorem C32_history_partial {os : List Op} : ∀ {s : St} {t : Targets}, Holds s t → AllStored s os →
    Holds (os.foldl step s) (run t os) := by
  induction os with
  | nil => intro s t h _; exact h
  | cons o os ih =>
    intro s t h hs
    refine ih ?_ hs.2
    cases o with
    | unlink i => exact holds_unlink h
    | symlink alloc i v =>
      have hst : Stored s (.symlink alloc i v) := hs.1
      show Holds (symlink alloc i v s).1 (if _ then _ else _)
      rcases holds_symlink (alloc := alloc) (i := i) (v := v) h with ⟨h1, h2⟩ | ⟨h1, h2, h3, h4, l, h5, h6⟩
      · split
        · rename_i hc
          exfalso
          apply h1
          unfold symlink
          rw [if_neg (by omega), if_neg (by unfold targetMax; omega)]
          have := h.2 i
          rw [hc.2.2] at this
          cases hli : s.link i with
          | none => rfl
          | some l => rw [hli] at this; exact this.elim
        · exact h2
      · rw [if_pos ⟨h3, h4, h2⟩]
        have hsz := hst l h5
        rcases h6 with ⟨_, h7⟩ | ⟨h6, _⟩
        · exact h7
        · omega

theorem fresh_holds : Holds fresh (fun _ => none) :=
  ⟨⟨fun _ _ _ _ h => by simp [fresh] at h, fun _ _ _ _ _ _ _ h => by simp [fresh] at h, fun _ _ h => by simp [fresh] at h⟩,
    fun _ => trivial⟩

/-- **C32** is false when a node can not be allocated: the symlink reports success, and the target is empty. -/
theorem C32_symlink_violated :
    (symlink (fun _ => none) 7 (List.replicate 481 1) fresh).2 = none ∧
    readlink (fun _ => true) 7 4096 (symlink (fun _ => none) 7 (List.replicate 481 1) fresh).1 = some [] := by
  decide +kernel

theorem stored_of {s : St} {alloc : Nat → Option Nat} {i : Nat} {v : Bytes}
    (h : ((symlink alloc i v s).1.link i).map (·.size) = some v.length) : Stored s (.symlink alloc i v) := by
  intro l hl
  rw [hl] at h
  exact Option.some.inj h

/-- The hypotheses of the history theorem are met by links with one part. -/
example : AllStored fresh [.symlink (fun j => some j) 7 (List.replicate 481 1), .unlink 7,
    .symlink (fun j => some (j + 1)) 8 (List.replicate 4096 2)] :=
  ⟨stored_of (by decide +kernel), trivial, stored_of (by decide +kernel), trivial⟩

end Silofs.Symlink
