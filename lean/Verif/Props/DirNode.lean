import Verif.Model.DirNode
import Verif.Props.DirBase
/-
C11: the byte-packed directory node implements the abstract node.
-/
set_option linter.unusedSimpArgs false
set_option linter.unusedVariables false
namespace Silofs.Dir

/-! ### Memory -/

theorem rd_length (m : Mem) (p n : Nat) : (rd m p n).length = n := by simp [rd]

theorem rd_get (m : Mem) (p n k : Nat) (h : k < n) : (rd m p n)[k]? = some (m (p + k)) := by
  simp [rd, h]

theorem rd_congr (m m' : Mem) (p p' n : Nat) (h : ∀ k, k < n → m (p + k) = m' (p' + k)) :
    rd m p n = rd m' p' n := by
  apply List.ext_getElem?
  intro k
  by_cases hk : k < n
  · rw [rd_get _ _ _ _ hk, rd_get _ _ _ _ hk, h k hk]
  · rw [List.getElem?_eq_none (by rw [rd_length]; omega), List.getElem?_eq_none (by rw [rd_length]; omega)]

theorem wr_out (m : Mem) (p : Nat) (l : List Nat) (a : Nat) (h : a < p ∨ p + l.length ≤ a) :
    wr m p l a = m a := by
  unfold wr; rw [if_neg (by omega)]

theorem wr_in (m : Mem) (p : Nat) (l : List Nat) (a : Nat) (h : p ≤ a) (h2 : a < p + l.length) :
    wr m p l a = l.getD (a - p) 0 := by
  unfold wr; rw [if_pos ⟨h, h2⟩]

theorem rd_wr_out (m : Mem) (q : Nat) (l : List Nat) (p n : Nat) (h : p + n ≤ q ∨ q + l.length ≤ p) :
    rd (wr m q l) p n = rd m p n := by
  apply rd_congr
  intro k hk
  exact wr_out _ _ _ _ (by omega)

theorem rd_wr_sub (m : Mem) (p : Nat) (l : List Nat) (k n : Nat) (h : k + n ≤ l.length) :
    rd (wr m p l) (p + k) n = (l.drop k).take n := by
  apply List.ext_getElem?
  intro j
  by_cases hj : j < n
  · rw [rd_get _ _ _ _ hj, wr_in _ _ _ _ (by omega) (by omega), List.getElem?_take_of_lt hj,
      List.getElem?_drop, List.getD_eq_getElem?_getD]
    have : p + k + j - p = k + j := by omega
    rw [this, List.getElem?_eq_getElem (by omega)]
    rfl
  · rw [List.getElem?_eq_none (by rw [rd_length]; omega), List.getElem?_eq_none (by simp; omega)]

theorem rd_wr_same (m : Mem) (p : Nat) (l : List Nat) : rd (wr m p l) p l.length = l := by
  have := rd_wr_sub m p l 0 l.length (by omega)
  simpa using this

theorem getDe_congr (m m' : Mem) (s : Nat) (h : ∀ a, 16 * s ≤ a → a < 16 * s + 16 → m a = m' a) :
    getDe m s = getDe m' s := by
  unfold getDe
  rw [rd_congr m m' (16 * s) (16 * s) 8 (fun k hk => h _ (by omega) (by omega)),
    rd_congr m m' (16 * s + 8) (16 * s + 8) 4 (fun k hk => h _ (by omega) (by omega)),
    rd_congr m m' (16 * s + 12) (16 * s + 12) 2 (fun k hk => h _ (by omega) (by omega)),
    rd_congr m m' (16 * s + 14) (16 * s + 14) 2 (fun k hk => h _ (by omega) (by omega))]

theorem putDe_len (e : De) :
    (leBytes 8 e.ino ++ leBytes 4 e.hd ++ leBytes 2 e.len ++ leBytes 2 e.pos).length = 16 := by
  simp [leBytes_length]

/-- Fields within their widths. -/
def De.Fit (e : De) : Prop :=
  e.ino < 18446744073709551616 ∧ e.hd < 4294967296 ∧ e.len < 65536 ∧ e.pos < 65536

theorem getDe_putDe (m : Mem) (s : Nat) (e : De) (h : e.Fit) : getDe (putDe m s e) s = e := by
  obtain ⟨h1, h2, h3, h4⟩ := h
  have hl := putDe_len e
  unfold getDe putDe
  have e0 := rd_wr_sub m (16 * s) (leBytes 8 e.ino ++ leBytes 4 e.hd ++ leBytes 2 e.len ++ leBytes 2 e.pos)
    0 8 (by omega)
  have e1 := rd_wr_sub m (16 * s) (leBytes 8 e.ino ++ leBytes 4 e.hd ++ leBytes 2 e.len ++ leBytes 2 e.pos)
    8 4 (by omega)
  have e2 := rd_wr_sub m (16 * s) (leBytes 8 e.ino ++ leBytes 4 e.hd ++ leBytes 2 e.len ++ leBytes 2 e.pos)
    12 2 (by omega)
  have e3 := rd_wr_sub m (16 * s) (leBytes 8 e.ino ++ leBytes 4 e.hd ++ leBytes 2 e.len ++ leBytes 2 e.pos)
    14 2 (by omega)
  rw [Nat.add_zero] at e0
  rw [e0, e1, e2, e3]
  have f0 : ((leBytes 8 e.ino ++ leBytes 4 e.hd ++ leBytes 2 e.len ++ leBytes 2 e.pos).drop 0).take 8
      = leBytes 8 e.ino := by simp [leBytes]
  have f1 : ((leBytes 8 e.ino ++ leBytes 4 e.hd ++ leBytes 2 e.len ++ leBytes 2 e.pos).drop 8).take 4
      = leBytes 4 e.hd := by simp [leBytes]
  have f2 : ((leBytes 8 e.ino ++ leBytes 4 e.hd ++ leBytes 2 e.len ++ leBytes 2 e.pos).drop 12).take 2
      = leBytes 2 e.len := by simp [leBytes]
  have f3 : ((leBytes 8 e.ino ++ leBytes 4 e.hd ++ leBytes 2 e.len ++ leBytes 2 e.pos).drop 14).take 2
      = leBytes 2 e.pos := by simp [leBytes]
  rw [f0, f1, f2, f3]
  simp only [leVal_leBytes]
  rw [Nat.mod_eq_of_lt (by simpa using h1), Nat.mod_eq_of_lt (by simpa using h2),
    Nat.mod_eq_of_lt (by simpa using h3), Nat.mod_eq_of_lt (by simpa using h4)]

theorem putDe_out (m : Mem) (s : Nat) (e : De) (a : Nat) (h : a < 16 * s ∨ 16 * s + 16 ≤ a) :
    putDe m s e a = m a := by
  unfold putDe
  exact wr_out _ _ _ _ (by rw [putDe_len]; exact h)

theorem getDe_putDe_ne (m : Mem) (s t : Nat) (e : De) (h : t ≠ s) : getDe (putDe m s e) t = getDe m t := by
  apply getDe_congr
  intro a h1 h2
  exact putDe_out _ _ _ _ (by omega)

theorem getDe_setPos (m : Mem) (s p : Nat) (h : p < 65536) :
    getDe (wr m (16 * s + 14) (leBytes 2 p)) s = { getDe m s with pos := p } := by
  have hl : (leBytes 2 p).length = 2 := leBytes_length _ _
  unfold getDe
  rw [rd_wr_out _ _ _ _ _ (by omega), rd_wr_out _ _ _ _ _ (by omega), rd_wr_out _ _ _ _ _ (by omega)]
  have := rd_wr_same m (16 * s + 14) (leBytes 2 p)
  rw [hl] at this
  rw [this, leVal_leBytes, Nat.mod_eq_of_lt (by simpa using h)]

theorem getDe_wr_out (m : Mem) (q : Nat) (l : List Nat) (t : Nat)
    (h : 16 * t + 16 ≤ q ∨ q + l.length ≤ 16 * t) : getDe (wr m q l) t = getDe m t := by
  apply getDe_congr
  intro a h1 h2
  exact wr_out _ _ _ _ (by omega)

/-! ### Representation -/

/-- Entry of the model as an on-disk entry with its name at `pos`. -/
def deOf (e : Ent) (pos : Nat) : De := ⟨e.ino, packHd e.hash e.dt, e.name.length, pos⟩

/-- An entry the file-system can store. -/
def Ent.Fit (e : Ent) : Prop :=
  0 < e.ino ∧ e.ino < 18446744073709551616 ∧ e.hash < 16777216 ∧ e.dt < 256 ∧
  0 < e.name.length ∧ e.name.length < 65536

/-- The bytes `b` represent the abstract node `n`; `pos s` is where the name of
slot `s` is stored. -/
structure Rep (b : BNode) (n : Node) (pos : Nat → Nat) : Prop where
  nde : b.nde = n.slots.length
  nnb : b.nnb = n.nnb
  wf : n.WF
  inact : ∀ s, n.slots[s]? = some none → (getDe b.mem s).active = false
  act : ∀ s e, n.slots[s]? = some (some e) → e.Fit ∧ getDe b.mem s = deOf e (pos s) ∧
    7680 - b.nnb ≤ pos s ∧ pos s + e.name.length ≤ 7680 ∧ rd b.mem (pos s) e.name.length = e.name
  disj : ∀ s t e f, n.slots[s]? = some (some e) → n.slots[t]? = some (some f) → s ≠ t →
    pos s + e.name.length ≤ pos t ∨ pos t + f.name.length ≤ pos s

theorem packHd_lt (h d : Nat) : packHd h d < 4294967296 := by
  unfold packHd; omega

theorem packHd_hash (h d : Nat) : packHd h d % 16777216 = h % 16777216 := by
  unfold packHd; omega

theorem deOf_active (e : Ent) (p : Nat) (h : e.Fit) : (deOf e p).active = true := by
  unfold De.active
  rw [Bool.and_eq_true]
  exact ⟨decide_eq_true h.1, decide_eq_true h.2.2.2.2.1⟩

theorem Rep.empty (pos : Nat → Nat) : Rep BNode.empty Node.empty pos where
  nde := rfl
  nnb := rfl
  wf := Node.empty_wf
  inact := by simp [Node.empty]
  act := by simp [Node.empty]
  disj := by simp [Node.empty]

theorem Rep.active_iff {b : BNode} {n : Node} {pos : Nat → Nat} (r : Rep b n pos) (s : Nat)
    (hs : s < n.slots.length) : (getDe b.mem s).active = (n.slots[s]).isSome := by
  cases h : n.slots[s] with
  | none =>
    have := r.inact s (by rw [List.getElem?_eq_getElem hs, h])
    rw [this]; rfl
  | some e =>
    have := r.act s e (by rw [List.getElem?_eq_getElem hs, h])
    rw [this.2.1, deOf_active _ _ this.1]; rfl

/-! ### Search -/

theorem bsearch_rep {b : BNode} {n : Node} {pos : Nat → Nat} (r : Rep b n pos) (hash : Nat) (name : Name)
    (f k : Nat) (l : List (Option Ent)) (hl : n.slots.drop k = l) (hf : f = l.length) :
    bsearchFrom b.mem hash name f k = some ((searchFrom hash name k l).map (·.1)) := by
  induction l generalizing f k with
  | nil => subst hf; simp [bsearchFrom, searchFrom]
  | cons x l ih =>
    have hk : n.slots[k]? = some x := by
      have := congrArg List.head? hl
      simpa [List.head?_drop] using this
    have hl' : n.slots.drop (k + 1) = l := by
      have := congrArg List.tail hl
      simpa [List.tail_drop] using this
    subst hf
    simp only [List.length_cons, bsearchFrom]
    cases x with
    | none =>
      have := r.inact k hk
      simp only [this, Bool.false_and]
      rw [if_neg (by simp), searchFrom]
      exact ih _ _ hl' rfl
    | some e =>
      obtain ⟨hfit, hde, hp1, hp2, hrd⟩ := r.act k e hk
      have hbeg : 0 < pos k := by
        have hw := r.wf.2
        have hnn := r.nnb
        have hlen : 0 < n.slots.length := by
          have := List.getElem?_eq_some_iff.1 hk
          obtain ⟨h, _⟩ := this; omega
        unfold Node.used at hw
        omega
      have hact : (getDe b.mem k).active = true := by rw [hde]; exact deOf_active _ _ hfit
      have hEh : (getDe b.mem k).hd % 16777216 = e.hash := by
        rw [hde]
        show packHd e.hash e.dt % 16777216 = _
        rw [packHd_hash, Nat.mod_eq_of_lt hfit.2.2.1]
      have hEl : (getDe b.mem k).len = e.name.length := by rw [hde]; rfl
      have hEp : (getDe b.mem k).pos = pos k := by rw [hde]; rfl
      rw [searchFrom]
      unfold Ent.matches
      by_cases c1 : e.hash = hash % 16777216
      · by_cases c2 : e.name.length = name.length
        · have hrd' : rd b.mem (getDe b.mem k).pos name.length = e.name := by rw [hEp, ← c2]; exact hrd
          rw [if_pos (by rw [hact, hEh, hEl, c1, c2]; simp),
            if_pos (by unfold nameAtOk; simp only [Bool.and_eq_true, decide_eq_true_eq]; omega), hrd']
          by_cases c3 : e.name = name
          · rw [if_pos (by rw [c3]; simp), if_pos (by rw [c1, c3]; simp)]; rfl
          · rw [if_neg (by simp [c3]), if_neg (by simp [c3])]
            exact ih _ _ hl' rfl
        · rw [if_neg (by rw [hEl]; simp [c2]), if_neg (by simp; intro _ h; exact c2 (by rw [h]))]
          exact ih _ _ hl' rfl
      · rw [if_neg (by rw [hEh]; simp [c1]), if_neg (by simp [c1])]
        exact ih _ _ hl' rfl

/-! ### Insert -/

theorem insertSlot_rep {b : BNode} {n : Node} {pos : Nat → Nat} (r : Rep b n pos)
    (f k : Nat) (l : List (Option Ent)) (hl : n.slots.drop k = l) (hf : f = l.length) :
    insertSlot b.mem f k = k + freeSlot l := by
  induction l generalizing f k with
  | nil => subst hf; simp [insertSlot, freeSlot]
  | cons x l ih =>
    have hk : n.slots[k]? = some x := by
      have := congrArg List.head? hl
      simpa [List.head?_drop] using this
    have hl' : n.slots.drop (k + 1) = l := by
      have := congrArg List.tail hl
      simpa [List.tail_drop] using this
    subst hf
    simp only [List.length_cons, insertSlot]
    cases x with
    | none => rw [r.inact k hk, freeSlot]; simp
    | some e =>
      obtain ⟨hfit, hde, _⟩ := r.act k e hk
      rw [hde, deOf_active _ _ hfit, if_pos rfl, ih _ _ hl' rfl, freeSlot]; omega

theorem putFirst_none (e : Ent) (l : List (Option Ent)) (s : Nat)
    (h : (putFirst e l)[s]? = some none) : l[s]? = some none ∧ s ≠ freeSlot l := by
  induction l generalizing s with
  | nil => cases s <;> simp [putFirst] at h
  | cons x l ih =>
    cases x with
    | none => cases s <;> simp_all [putFirst, freeSlot]
    | some y =>
      cases s with
      | zero => simp [putFirst] at h
      | succ s =>
        simp only [putFirst, List.getElem?_cons_succ, freeSlot] at h ⊢
        have := ih s h
        exact ⟨this.1, by omega⟩

theorem putFirst_get' (e : Ent) (l : List (Option Ent)) (s : Nat) (x : Ent) :
    (putFirst e l)[s]? = some (some x) ↔ l[s]? = some (some x) ∨ (s = freeSlot l ∧ x = e) := by
  rw [putFirst_get]
  constructor
  · rintro (h | h)
    · exact Or.inr h
    · exact Or.inl h.2
  · rintro (h | h)
    · refine Or.inr ⟨?_, h⟩
      rintro rfl
      exact freeSlot_free _ _ h
    · exact Or.inl h

theorem insert_rep {b : BNode} {n : Node} {pos : Nat → Nat} (r : Rep b n pos) (hash : Nat) (name : Name)
    (ino dt : Nat) (hfit : (⟨hash % 16777216, name, ino, dt⟩ : Ent).Fit)
    (hm : n.mayInsert name.length = true) :
    ∃ b' pos', b.insert hash name ino dt = some b' ∧ Rep b' (n.insert hash name ino dt) pos' := by
  unfold Node.mayInsert at hm
  simp only [decide_eq_true_eq] at hm
  have hu : n.used = n.nnb + n.slots.length * 16 := rfl
  have hnde := r.nde
  have hnnb := r.nnb
  have hs := insertSlot_rep r b.nde 0 n.slots (by simp) r.nde
  rw [Nat.zero_add] at hs
  have hsl := freeSlot_le n.slots
  obtain ⟨f1, f2, f3, f4, f5, f6⟩ := hfit
  simp only at f1 f2 f3 f4 f5 f6
  have hwf := Node.insert_wf n hash name ino dt r.wf (by simp [Node.mayInsert, hm])
  generalize hS : freeSlot n.slots = S at *
  have hP : ∃ P, P = 7680 - (b.nnb + name.length) := ⟨_, rfl⟩
  obtain ⟨P, hP⟩ := hP
  have hdefit : (⟨ino, packHd hash dt, name.length, P⟩ : De).Fit :=
    ⟨f2, packHd_lt _ _, f6, by simp only; omega⟩
  have hget := getDe_putDe b.mem S _ hdefit
  unfold BNode.insert
  rw [if_pos (by omega)]
  simp only [hs, ← hP]
  rw [if_pos (by omega)]
  simp only [hget]
  rw [if_pos (by simp [nameAtOk]; omega)]
  refine ⟨_, fun s => if s = S then P else pos s, rfl, ?_⟩
  have hrdold : ∀ p k, 7680 - b.nnb ≤ p → rd (wr (putDe b.mem S ⟨ino, packHd hash dt, name.length, P⟩) P name) p k
      = rd b.mem p k := by
    intro p k hp
    rw [rd_wr_out _ _ _ _ _ (by omega)]
    apply rd_congr
    intro j hj
    exact putDe_out _ _ _ _ (by omega)
  have hde : ∀ t, t ≠ S → t < n.slots.length →
      getDe (wr (putDe b.mem S ⟨ino, packHd hash dt, name.length, P⟩) P name) t = getDe b.mem t := by
    intro t ht htl
    rw [getDe_wr_out _ _ _ _ (by omega), getDe_putDe_ne _ _ _ _ ht]
  have hlen := putFirst_length ⟨hash % 16777216, name, ino, dt⟩ n.slots
  have hgetS := putFirst_get' ⟨hash % 16777216, name, ino, dt⟩ n.slots
  constructor
  · simp only [Node.insert, hlen, hS]
    split <;> split <;> omega
  · simp [Node.insert, hnnb]
  · exact hwf
  · intro s h
    simp only [Node.insert] at h
    have := putFirst_none _ _ _ h
    rw [hS] at this
    have hsl' : s < n.slots.length := (List.getElem?_eq_some_iff.1 this.1).1
    simp only
    rw [hde s this.2 hsl']
    exact r.inact s this.1
  · intro s e h
    simp only [Node.insert] at h
    have h' := (hgetS s e).1 h
    rw [hS] at h'
    simp only
    rcases h' with h' | ⟨rfl, rfl⟩
    · have hsl' : s < n.slots.length := (List.getElem?_eq_some_iff.1 h').1
      have hne : s ≠ S := by
        rintro rfl
        rw [← hS] at h'
        exact freeSlot_free _ _ h'
      obtain ⟨g1, g2, g3, g4, g5⟩ := r.act s e h'
      rw [if_neg hne, hde s hne hsl']
      refine ⟨g1, g2, by omega, g4, ?_⟩
      rw [hrdold _ _ g3, g5]
    · rw [if_pos rfl]
      refine ⟨⟨f1, f2, f3, f4, f5, f6⟩, ?_, by omega, by simp only; omega, ?_⟩
      · rw [getDe_wr_out _ _ _ _ (by omega), hget, deOf]
        simp only [packHd, Nat.mod_mod]
      · exact rd_wr_same _ _ _
  · intro s t e f he hf hne
    simp only [Node.insert] at he hf
    have he' := (hgetS s e).1 he
    have hf' := (hgetS t f).1 hf
    rw [hS] at he' hf'
    have key : ∀ s e, n.slots[s]? = some (some e) → s ≠ S ∧ P + name.length ≤ pos s := by
      intro s e h
      have hne : s ≠ S := by
        rintro rfl
        rw [← hS] at h
        exact freeSlot_free _ _ h
      obtain ⟨g1, g2, g3, g4, g5⟩ := r.act s e h
      exact ⟨hne, by omega⟩
    rcases he' with he' | ⟨rfl, rfl⟩
    · have k1 := key s e he'
      rw [if_neg k1.1]
      rcases hf' with hf' | ⟨rfl, rfl⟩
      · rw [if_neg (key t f hf').1]
        exact r.disj s t e f he' hf' hne
      · rw [if_pos rfl]
        right; exact k1.2
    · rcases hf' with hf' | ⟨rfl, rfl⟩
      · have k1 := key t f hf'
        rw [if_pos rfl, if_neg k1.1]
        left; exact k1.2
      · exact absurd rfl hne

/-! ### Remove -/

theorem fixup_spec (ref len : Nat) (f k : Nat) (m : Mem)
    (hb : ∀ s, k ≤ s → s < k + f → (getDe m s).pos + len < 65536 ∨ ¬ (getDe m s).pos < ref) :
    (∀ a, 16 * (k + f) ≤ a ∨ a < 16 * k → fixup m ref len f k a = m a) ∧
    (∀ s, k ≤ s → s < k + f → getDe (fixup m ref len f k) s =
      if (getDe m s).active = true ∧ (getDe m s).pos < ref
      then { getDe m s with pos := (getDe m s).pos + len } else getDe m s) := by
  induction f generalizing k m with
  | zero => exact ⟨fun a _ => rfl, fun s h1 h2 => by omega⟩
  | succ f ih =>
    rw [fixup]
    by_cases hc : (getDe m k).active = true ∧ (getDe m k).pos < ref
    · have hfit : (getDe m k).pos + len < 65536 := by
        rcases hb k (by omega) (by omega) with h | h
        · exact h
        · exact absurd hc.2 h
      simp only
      rw [if_pos (by simp [hc])]
      have hne : ∀ s, s ≠ k → getDe (wr m (16 * k + 14) (leBytes 2 ((getDe m k).pos + len))) s = getDe m s := by
        intro s hs
        exact getDe_wr_out _ _ _ _ (by rw [leBytes_length]; omega)
      have h := ih (k + 1) (wr m (16 * k + 14) (leBytes 2 ((getDe m k).pos + len)))
        (fun s h1 h2 => by rw [hne s (by omega)]; exact hb s (by omega) (by omega))
      constructor
      · intro a ha
        rw [h.1 a (by omega), wr_out _ _ _ _ (by rw [leBytes_length]; omega)]
      · intro s h1 h2
        by_cases hs : s = k
        · subst hs
          have hk : getDe (fixup (wr m (16 * s + 14) (leBytes 2 ((getDe m s).pos + len))) ref len f (s + 1)) s
              = getDe (wr m (16 * s + 14) (leBytes 2 ((getDe m s).pos + len))) s := by
            apply getDe_congr
            intro a h3 h4
            exact h.1 a (by omega)
          rw [hk, getDe_setPos _ _ _ hfit, if_pos hc]
        · rw [h.2 s (by omega) (by omega), hne s hs]
    · simp only
      rw [if_neg (by simpa using hc)]
      have h := ih (k + 1) m (fun s h1 h2 => hb s (by omega) (by omega))
      constructor
      · intro a ha
        exact h.1 a (by omega)
      · intro s h1 h2
        by_cases hs : s = k
        · subst hs
          have hk : getDe (fixup m ref len f (s + 1)) s = getDe m s := by
            apply getDe_congr
            intro a h3 h4
            exact h.1 a (by omega)
          rw [hk, if_neg hc]
        · exact h.2 s (by omega) (by omega)

/-- Trimming by activity of the bytes is trimming of the abstract table. -/
theorem trimNde_eq (m : Mem) (l : List (Option Ent))
    (h : ∀ s (hs : s < l.length), (getDe m s).active = (l[s]).isSome) :
    trimNde m l.length = (trimEnd l).length ∧ trimEnd l = l.take (trimNde m l.length) := by
  -- induction from the end
  have hcat : ∀ (l : List (Option Ent)) (x : Option Ent),
      trimEnd (l ++ [x]) = if x.isSome then l ++ [x] else trimEnd l := by
    intro l x
    induction l with
    | nil => cases x <;> simp [trimEnd]
    | cons y l ih =>
      rw [List.cons_append, trimEnd, ih]
      cases x with
      | none => simp [trimEnd]
      | some e => simp
  induction hl : l.length generalizing l with
  | zero =>
    have : l = [] := List.eq_nil_of_length_eq_zero hl
    subst this
    simp [trimNde, trimEnd]
  | succ k ih =>
    have hne : l ≠ [] := by intro h'; simp [h'] at hl
    have hdec := List.dropLast_concat_getLast hne
    have hk : l.dropLast.length = k := by simp [hl]
    have hlast : (getDe m k).active = (l.getLast hne).isSome := by
      rw [h k (by omega), List.getLast_eq_getElem]
      simp [hl]
    rw [trimNde]
    rw [← hdec, hcat]
    rw [hlast]
    cases hx : (l.getLast hne).isSome with
    | true =>
      simp only [if_true]
      constructor
      · simp; omega
      · rw [List.take_of_length_le (by simp; omega)]
    | false =>
      have h2 := ih l.dropLast (fun s hs => by
        rw [h s (by rw [List.length_dropLast] at hs; omega), List.getElem_dropLast]) hk
      have hle : trimNde m k ≤ l.dropLast.length := by
        rw [h2.1]; exact trimEnd_length _
      simp only [if_neg (by decide : ¬ (false = true))]
      refine ⟨h2.1, ?_⟩
      rw [List.take_append_of_le_length hle]
      exact h2.2

theorem remove_rep {b : BNode} {n : Node} {pos : Nat → Nat} (r : Rep b n pos) (s : Nat) (e : Ent)
    (hs : n.slots[s]? = some (some e)) :
    ∃ b' pos', b.remove s = some b' ∧ Rep b' (n.remove s e) pos' := by
  obtain ⟨hfit, hde, hp1, hp2, hrd⟩ := r.act s e hs
  have hsl : s < n.slots.length := (List.getElem?_eq_some_iff.1 hs).1
  have hnde := r.nde
  have hnnb := r.nnb
  have hused : n.nnb + n.slots.length * 16 ≤ 7680 := r.wf.2
  have hlen0 : 0 < e.name.length := hfit.2.2.2.2.1
  have hwf := Node.remove_wf n s e r.wf hs
  -- names above the removed one stay, those below move up by its length
  have hother : ∀ t x, t ≠ s → n.slots[t]? = some (some x) →
      (pos t < pos s ∧ pos t + x.name.length ≤ pos s) ∨ (pos s + e.name.length ≤ pos t) := by
    intro t x ht hx
    have := (r.act t x hx).1.2.2.2.2.1
    rcases r.disj s t e x hs hx (Ne.symm ht) with h | h
    · right; exact h
    · left; omega
  -- memory after punching
  have hpunch : ∃ m1 p, punch b (pos s) e.name.length = some (m1, p) ∧
      (∀ a, a < 7680 - b.nnb → m1 a = b.mem a) ∧
      (∀ a, pos s + e.name.length ≤ a → m1 a = b.mem a) ∧
      (∀ a, 7680 - b.nnb ≤ a → a < pos s → m1 (a + e.name.length) = b.mem a) ∧
      (p = false → pos s = 7680 - b.nnb) := by
    unfold punch
    simp only
    rw [if_pos (by simp [nameAtOk]; omega)]
    by_cases hb : 7680 - b.nnb < pos s
    · rw [if_pos hb, if_pos hp2]
      by_cases hmv : pos s - (7680 - b.nnb) ≤ e.name.length
      · rw [if_pos hmv, if_pos (by omega)]
        refine ⟨_, _, rfl, ?_, ?_, ?_, by simp⟩
        · intro a ha; exact wr_out _ _ _ _ (by omega)
        · intro a ha; exact wr_out _ _ _ _ (by rw [rd_length]; omega)
        · intro a h1 h2
          rw [wr_in _ _ _ _ (by omega) (by rw [rd_length]; omega), List.getD_eq_getElem?_getD,
            rd_get _ _ _ _ (by omega)]
          simp only [Option.getD_some]
          congr 1; omega
      · rw [if_neg hmv]
        refine ⟨_, _, rfl, ?_, ?_, ?_, by simp⟩
        · intro a ha; exact wr_out _ _ _ _ (by omega)
        · intro a ha; exact wr_out _ _ _ _ (by rw [rd_length]; omega)
        · intro a h1 h2
          rw [wr_in _ _ _ _ (by omega) (by rw [rd_length]; omega), List.getD_eq_getElem?_getD,
            rd_get _ _ _ _ (by omega)]
          simp only [Option.getD_some]
          congr 1; omega
    · rw [if_neg hb]
      exact ⟨_, _, rfl, fun _ _ => rfl, fun _ _ => rfl, fun a h1 h2 => by omega, fun _ => by omega⟩
  obtain ⟨m1, p, hpe, hlo, hhi, hmv, hpf⟩ := hpunch
  unfold BNode.remove
  simp only [hde]
  simp only [deOf]
  rw [hpe]
  simp only
  -- entry table after deactivation
  have htab : ∀ t, t < n.slots.length → t ≠ s → getDe (putDe m1 s ⟨0, 0, 0, 0⟩) t = getDe b.mem t := by
    intro t ht hne
    rw [getDe_putDe_ne _ _ _ _ hne]
    apply getDe_congr
    intro a h1 h2
    exact hlo a (by omega)
  have hself : getDe (putDe m1 s ⟨0, 0, 0, 0⟩) s = ⟨0, 0, 0, 0⟩ :=
    getDe_putDe _ _ _ (by unfold De.Fit; simp)
  have hrd0 : ∀ a, 16 * n.slots.length ≤ a → putDe m1 s ⟨0, 0, 0, 0⟩ a = m1 a := by
    intro a ha; exact putDe_out _ _ _ _ (by omega)
  generalize hm2 : putDe m1 s ⟨0, 0, 0, 0⟩ = m2 at *
  -- the new positions
  let np : Nat → Nat := fun t => if pos t < pos s then pos t + e.name.length else pos t
  have hm3 : ∃ m3, m3 = (if p = true then fixup m2 (pos s) e.name.length b.nde 0 else m2) ∧
      (∀ a, 16 * n.slots.length ≤ a → m3 a = m2 a) ∧
      getDe m3 s = ⟨0, 0, 0, 0⟩ ∧
      (∀ t, t ≠ s → n.slots[t]? = some none → (getDe m3 t).active = false) ∧
      (∀ t x, t ≠ s → n.slots[t]? = some (some x) → getDe m3 t = deOf x (np t)) := by
    refine ⟨_, rfl, ?_⟩
    cases p with
    | true =>
      simp only [if_true]
      have hbnd : ∀ t, 0 ≤ t → t < 0 + b.nde → (getDe m2 t).pos + e.name.length < 65536 ∨
          ¬ (getDe m2 t).pos < pos s := by
        intro t _ _
        by_cases hh : (getDe m2 t).pos < pos s
        · left; omega
        · right; exact hh
      have hfx := fixup_spec (pos s) e.name.length b.nde 0 m2 hbnd
      refine ⟨fun a ha => hfx.1 a (by omega), ?_, ?_, ?_⟩
      · rw [hfx.2 s (by omega) (by omega), hself]
        rw [if_neg (by simp [De.active])]
      · intro t hne ht
        have htl : t < n.slots.length := (List.getElem?_eq_some_iff.1 ht).1
        rw [hfx.2 t (by omega) (by omega), htab t htl hne, r.inact t ht]
        simp [r.inact t ht]
      · intro t x hne ht
        have htl : t < n.slots.length := (List.getElem?_eq_some_iff.1 ht).1
        obtain ⟨g1, g2, _⟩ := r.act t x ht
        rw [hfx.2 t (by omega) (by omega), htab t htl hne, g2, deOf_active _ _ g1]
        by_cases hlt : pos t < pos s
        · rw [if_pos ⟨rfl, hlt⟩]; simp [deOf, np, hlt]
        · rw [if_neg (by simp [deOf]; omega)]; simp [deOf, np, hlt]
    | false =>
      have hps := hpf rfl
      refine ⟨fun a _ => rfl, hself, ?_, ?_⟩
      · intro t hne ht
        have htl : t < n.slots.length := (List.getElem?_eq_some_iff.1 ht).1
        show (getDe m2 t).active = false
        rw [htab t htl hne]; exact r.inact t ht
      · intro t x hne ht
        have htl : t < n.slots.length := (List.getElem?_eq_some_iff.1 ht).1
        obtain ⟨g1, g2, g3, _⟩ := r.act t x ht
        show getDe m2 t = _
        rw [htab t htl hne, g2]
        have : ¬ pos t < pos s := by omega
        simp [np, this]
  obtain ⟨m3, hm3e, h3a, h3b, h3c, h3d⟩ := hm3
  rw [← hm3e]
  -- slots after deactivation
  have hset : ∀ (t : Nat) (x : Option Ent), (n.slots.set s none)[t]? = some x →
      (t = s ∧ x = none) ∨ (t ≠ s ∧ n.slots[t]? = some x) := by
    intro t x h
    rw [List.getElem?_set] at h
    by_cases hts : s = t
    · rw [if_pos hts] at h
      rw [if_pos hsl] at h
      left; exact ⟨hts.symm, by simpa using h.symm⟩
    · rw [if_neg hts] at h
      right; exact ⟨fun h' => hts h'.symm, h⟩
  have htr := trimNde_eq m3 (n.slots.set s none) (by
    intro t ht
    rw [List.length_set] at ht
    have hx : (n.slots.set s none)[t]? = some ((n.slots.set s none)[t]'(by simpa using ht)) :=
      List.getElem?_eq_getElem _
    rcases hset t _ hx with ⟨rfl, h⟩ | ⟨hne, h⟩
    · rw [h, h3b]; rfl
    · cases hy : (n.slots.set s none)[t]'(by simpa using ht) with
      | none => rw [hy] at h; rw [h3c t hne h]; rfl
      | some x =>
        rw [hy] at h
        rw [h3d t x hne h, deOf_active _ _ (r.act t x h).1]; rfl)
  rw [List.length_set, ← hnde] at htr
  have hpre : ∀ (t : Nat) (x : Option Ent), (trimEnd (n.slots.set s none))[t]? = some x → (n.slots.set s none)[t]? = some x := by
    intro t x h
    rw [htr.2, List.getElem?_take] at h
    split at h
    · exact h
    · simp at h
  have hact' : ∀ (t : Nat) (x : Ent), (trimEnd (n.slots.set s none))[t]? = some (some x) →
      t ≠ s ∧ n.slots[t]? = some (some x) := by
    intro t x h
    rcases hset t _ (hpre t _ h) with ⟨_, h'⟩ | h'
    · simp at h'
    · exact h'
  refine ⟨_, np, rfl, ?_⟩
  constructor
  · simp only [Node.remove]; exact htr.1
  · simp [Node.remove, hnnb]
  · exact hwf
  · intro t h
    simp only [Node.remove] at h
    rcases hset t _ (hpre t _ h) with ⟨rfl, _⟩ | ⟨hne, h'⟩
    · simp only; rw [h3b]; rfl
    · exact h3c t hne h'
  · intro t x h
    simp only [Node.remove] at h
    obtain ⟨hne, hx⟩ := hact' t x h
    obtain ⟨g1, g2, g3, g4, g5⟩ := r.act t x hx
    have ho := hother t x hne hx
    refine ⟨g1, h3d t x hne hx, ?_, ?_, ?_⟩
    · simp only [np]; split <;> omega
    · simp only [np]; split <;> omega
    · simp only [np]
      split
      · rename_i hlt
        rw [← g5, rd_length]
        apply rd_congr
        intro k hk
        rw [h3a _ (by omega), hrd0 _ (by omega)]
        have := hmv (pos t + k) (by omega) (by omega)
        rw [← this]; congr 1; omega
      · rename_i hlt
        rw [← g5, rd_length]
        apply rd_congr
        intro k hk
        rw [h3a _ (by omega), hrd0 _ (by omega), hhi _ (by omega)]
  · intro t u x y hx hy hne
    simp only [Node.remove] at hx hy
    obtain ⟨hne1, hx'⟩ := hact' t x hx
    obtain ⟨hne2, hy'⟩ := hact' u y hy
    have o1 := hother t x hne1 hx'
    have o2 := hother u y hne2 hy'
    have := r.disj t u x y hx' hy' hne
    simp only [np]
    split <;> split <;> omega

/-! ### C11 -/

/-- What callers do with a node: insert a name that fits (`dirc_add_to_dnode`
checks `dtn_may_insert` first), remove the entry found for a name. -/
inductive NOp where
  | insert (hash : Nat) (name : Name) (ino dt : Nat)
  | remove (hash : Nat) (name : Name)

/-- Argument ranges of an insert: valid inode number, type of 8 bits, name of
acceptable length. -/
def NOp.Fit : NOp → Prop
  | .insert _ name ino dt => 0 < ino ∧ ino < 18446744073709551616 ∧ dt < 256 ∧ 0 < name.length ∧ name.length ≤ 511
  | .remove _ _ => True

/-- One operation on the bytes. -/
def BNode.step (b : BNode) : NOp → Option BNode
  | .insert h nm ino dt => if b.mayInsert nm.length then b.insert h nm ino dt else some b
  | .remove h nm => match b.search h nm with
    | none => none
    | some none => some b
    | some (some s) => b.remove s

/-- The same operation on the abstract node. -/
def Node.step (n : Node) : NOp → Node
  | .insert h nm ino dt => if n.mayInsert nm.length then n.insert h nm ino dt else n
  | .remove h nm => match n.search h nm with
    | none => n
    | some (s, e) => n.remove s e

def BNode.run (b : BNode) : List NOp → Option BNode
  | [] => some b
  | o :: os => match b.step o with
    | none => none
    | some b' => BNode.run b' os

def Node.run (n : Node) : List NOp → Node
  | [] => n
  | o :: os => (n.step o).run os

theorem step_rep {b : BNode} {n : Node} {pos : Nat → Nat} (r : Rep b n pos) (o : NOp) (ho : o.Fit) :
    ∃ b' pos', b.step o = some b' ∧ Rep b' (n.step o) pos' := by
  cases o with
  | insert h nm ino dt =>
    have hmi : b.mayInsert nm.length = n.mayInsert nm.length := by
      unfold BNode.mayInsert Node.mayInsert Node.used
      rw [r.nnb, r.nde]
    simp only [BNode.step, Node.step, hmi]
    split
    · rename_i hm
      obtain ⟨h1, h2, h3, h4, h5⟩ := ho
      exact insert_rep r h nm ino dt ⟨h1, h2, Nat.mod_lt _ (by decide), h3, h4, by simp only; omega⟩ hm
    · exact ⟨b, pos, rfl, r⟩
  | remove h nm =>
    have hse := bsearch_rep r h nm b.nde 0 n.slots (by simp) r.nde
    simp only [BNode.step, Node.step, BNode.search, Node.search, hse]
    cases hx : searchFrom h nm 0 n.slots with
    | none => exact ⟨b, pos, rfl, r⟩
    | some v =>
      obtain ⟨s, e⟩ := v
      have hg := searchFrom_sound h nm n.slots 0 s e hx
      simp only [Option.map_some]
      exact remove_rep r s e (by simpa using hg.2.1)

theorem run_rep {b : BNode} {n : Node} {pos : Nat → Nat} (r : Rep b n pos) (os : List NOp)
    (ho : ∀ o ∈ os, o.Fit) : ∃ b' pos', b.run os = some b' ∧ Rep b' (n.run os) pos' := by
  induction os generalizing b n pos with
  | nil => exact ⟨b, pos, rfl, r⟩
  | cons o os ih =>
    obtain ⟨b1, p1, h1, r1⟩ := step_rep r o (ho o (by simp))
    obtain ⟨b2, p2, h2, r2⟩ := ih r1 (fun x hx => ho x (by simp [hx]))
    refine ⟨b2, p2, ?_, r2⟩
    simp only [BNode.run, h1]
    exact h2

/-- C11.  Whatever is inserted into and removed from a fresh directory node,
with arbitrary name lengths, no access leaves the buffer, no expectation fails
and no copy overlaps; the entry table and the names never overlap; the name of
every active entry lies inside the name area, names of different entries do not
overlap, and the table and the names are exactly those of the abstract node, in
which a removal touches one slot only (`C11_remove_frame`). -/
theorem C11_bytes (os : List NOp) (ho : ∀ o ∈ os, o.Fit) :
    ∃ (b : BNode) (pos : Nat → Nat), BNode.empty.run os = some b ∧
      16 * b.nde ≤ 7680 - b.nnb ∧ b.nnb ≤ 7680 ∧ b.nde = (Node.empty.run os).slots.length ∧
      (∀ s, s < b.nde → (getDe b.mem s).active = true →
        ∃ e, (Node.empty.run os).slots[s]? = some (some e) ∧ (getDe b.mem s).pos = pos s ∧
          (getDe b.mem s).ino = e.ino ∧ (getDe b.mem s).hd = e.dt * 16777216 + e.hash ∧
          7680 - b.nnb ≤ pos s ∧ pos s + (getDe b.mem s).len ≤ 7680 ∧
          rd b.mem (pos s) (getDe b.mem s).len = e.name) ∧
      (∀ s e, (Node.empty.run os).slots[s]? = some (some e) → (getDe b.mem s).active = true) ∧
      (∀ s t, s < b.nde → t < b.nde → s ≠ t → (getDe b.mem s).active = true →
        (getDe b.mem t).active = true →
        pos s + (getDe b.mem s).len ≤ pos t ∨ pos t + (getDe b.mem t).len ≤ pos s) := by
  obtain ⟨b, pos, hb, r⟩ := run_rep (Rep.empty (fun _ => 0)) os ho
  have hu : (Node.empty.run os).nnb + (Node.empty.run os).slots.length * 16 ≤ 7680 := r.wf.2
  have hnde := r.nde
  have hnnb := r.nnb
  have hget : ∀ s, s < b.nde → (getDe b.mem s).active = true →
      ∃ e, (Node.empty.run os).slots[s]? = some (some e) := by
    intro s hs ha
    rw [hnde] at hs
    rw [r.active_iff s hs] at ha
    obtain ⟨e, he⟩ := Option.isSome_iff_exists.1 ha
    exact ⟨e, by rw [List.getElem?_eq_getElem hs, he]⟩
  refine ⟨b, pos, hb, by omega, by omega, hnde, ?_, ?_, ?_⟩
  · intro s hs ha
    obtain ⟨e, he⟩ := hget s hs ha
    obtain ⟨g1, g2, g3, g4, g5⟩ := r.act s e he
    refine ⟨e, he, ?_⟩
    rw [g2]
    refine ⟨rfl, rfl, ?_, g3, g4, g5⟩
    simp only [deOf, packHd]
    rw [Nat.mod_eq_of_lt g1.2.2.2.1, Nat.mod_eq_of_lt g1.2.2.1]
  · intro s e he
    obtain ⟨g1, g2, _⟩ := r.act s e he
    rw [g2]; exact deOf_active _ _ g1
  · intro s t hs ht hne ha hb'
    obtain ⟨e, he⟩ := hget s hs ha
    obtain ⟨f, hf⟩ := hget t ht hb'
    have := r.disj s t e f he hf hne
    rw [(r.act s e he).2.1, (r.act t f hf).2.1]
    exact this

/-- Searching the bytes finds exactly the slot of the abstract node. -/
theorem C11_search (os : List NOp) (ho : ∀ o ∈ os, o.Fit) (hash : Nat) (name : Name) :
    ∃ b, BNode.empty.run os = some b ∧
      b.search hash name = some (((Node.empty.run os).search hash name).map (·.1)) := by
  obtain ⟨b, pos, hb, r⟩ := run_rep (Rep.empty (fun _ => 0)) os ho
  exact ⟨b, hb, bsearch_rep r hash name b.nde 0 _ (by simp) r.nde⟩

/-- A removal changes no other slot: every other entry keeps slot, inode, type
and name. -/
theorem C11_remove_frame (n : Node) (hash : Nat) (name : Name) (s : Nat) (e : Ent)
    (hs : n.search hash name = some (s, e)) (t : Nat) (x : Ent) :
    (n.step (.remove hash name)).slots[t]? = some (some x) ↔ n.slots[t]? = some (some x) ∧ t ≠ s := by
  simp only [Node.step, hs]
  rw [Node.remove_get n s e t x, and_comm]

/-- An insert that fits adds exactly one entry, in a slot that was free. -/
theorem C11_insert_frame (n : Node) (hash : Nat) (name : Name) (ino dt : Nat)
    (hm : n.mayInsert name.length = true) :
    ∃ s : Nat, (∀ x : Ent, n.slots[s]? ≠ some (some x)) ∧
      ∀ (t : Nat) (x : Ent), (n.step (.insert hash name ino dt)).slots[t]? = some (some x) ↔
        n.slots[t]? = some (some x) ∨ (t = s ∧ x = ⟨hash % 16777216, name, ino, dt⟩) := by
  refine ⟨freeSlot n.slots, freeSlot_free _, ?_⟩
  intro t x
  simp only [Node.step, hm, if_true]
  exact putFirst_get' _ _ _ _

/-- Non-vacuity: three inserts, a removal in the middle that moves bytes, and a
reuse of the slot. -/
example :
    (((BNode.empty.run [.insert 1 [97, 98] 5 8, .insert 2 [99, 100, 101] 6 4, .insert 3 [102] 7 8,
      .remove 2 [99, 100, 101], .insert 4 [103, 104] 9 8]).map fun b =>
        ([b.nde, b.nnb] ++ rd b.mem 7675 5, [b.search 4 [103, 104], b.search 3 [102], b.search 2 [99, 100, 101]]))
      = some ([3, 5, 103, 104, 102, 97, 98], [some (some 1), some (some 2), some none])) := by
  decide +kernel

end Silofs.Dir
