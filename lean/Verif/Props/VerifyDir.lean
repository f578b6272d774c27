import Verif.Model.Verify
import Verif.Props.DirNode
import Verif.Props.Dir
/-
C43, directories.  Whatever is stored is accepted when loaded again; what is accepted keeps later operations
within the object (false: `C43_dir_safe_violated`).
-/
set_option linter.unusedSimpArgs false
set_option linter.unusedVariables false
namespace Silofs.Dir

/-! ### What is stored is accepted -/

/-- Bytes of names are fine. -/
def Good (b : BNode) : Prop := ∀ a, 7680 - b.nnb ≤ a → a < 7680 → chrOk (b.mem a) = true

/-- Arguments of an insert, as the callers give them: inode numbers are not zero, types are those of objects
and names are those of the kernel, without zero and slash. -/
def NOp.Valid : NOp → Prop
  | .insert _ name ino dt => 0 < ino ∧ ino < 18446744073709551616 ∧ dt ∈ [1, 2, 4, 6, 8, 10, 12] ∧ 0 < name.length ∧
      name.length ≤ 255 ∧ ∀ c ∈ name, c ≠ 0 ∧ c ≠ 47 ∧ c < 256
  | .remove _ _ => True

theorem fileType_ok {dt : Nat} (h : dt ∈ [1, 2, 4, 6, 8, 10, 12]) : dtOk dt = true := by
  unfold dtOk
  simp only [List.mem_cons, List.not_mem_nil, or_false] at h
  simp only [Bool.or_eq_true, beq_iff_eq]
  omega

theorem nameByte_ok {c : Nat} (h : c ≠ 0 ∧ c ≠ 47 ∧ c < 256) : chrOk c = true := by
  unfold chrOk
  simp [h.1, h.2.1]

theorem dtOk_lt {dt : Nat} (h : dtOk dt = true) : dt < 256 := by
  unfold dtOk at h
  simp only [Bool.or_eq_true, beq_iff_eq] at h
  omega

theorem NOp.Valid.fit {o : NOp} (h : o.Valid) : o.Fit := by
  cases o with
  | insert hh nm ino dt =>
    obtain ⟨a, b, c, d, e, f⟩ := h
    exact ⟨a, b, dtOk_lt (fileType_ok c), d, by omega⟩
  | remove hh nm => trivial

theorem fixup_out (ref len : Nat) (f : Nat) : ∀ (k : Nat) (m : Mem) (a : Nat), 16 * (k + f) ≤ a →
    fixup m ref len f k a = m a := by
  induction f with
  | zero => intro k m a _; rfl
  | succ f ih =>
    intro k m a ha
    rw [fixup]
    by_cases hc : ((getDe m k).active && decide ((getDe m k).pos < ref)) = true
    · simp only [hc, if_true]
      rw [ih _ _ _ (by omega)]
      exact wr_out _ _ _ _ (Or.inr (by rw [leBytes_length]; omega))
    · simp only [hc, if_false]
      exact ih _ _ _ (by omega)

theorem insert_good {b b' : BNode} {n : Node} {pos : Nat → Nat} (r : Rep b n pos) (g : Good b) (hash : Nat)
    (name : Name) (ino dt : Nat) (hfit : (⟨hash % 16777216, name, ino, dt⟩ : Ent).Fit)
    (hn : ∀ c ∈ name, chrOk c = true) (hm : n.mayInsert name.length = true)
    (h : b.insert hash name ino dt = some b') : Good b' := by
  unfold Node.mayInsert at hm
  simp only [decide_eq_true_eq] at hm
  have hu : n.used = n.nnb + n.slots.length * 16 := rfl
  have hnde := r.nde
  have hnnb := r.nnb
  have hs := insertSlot_rep r b.nde 0 n.slots (by simp) r.nde
  rw [Nat.zero_add] at hs
  have hsl := freeSlot_le n.slots
  obtain ⟨f1, f2, f3, f4, f5, f6⟩ := hfit
  simp only at f1 f2 f3 f4 f5 f6
  generalize hS : freeSlot n.slots = S at *
  have hP : ∃ P, P = 7680 - (b.nnb + name.length) := ⟨_, rfl⟩
  obtain ⟨P, hP⟩ := hP
  have hdefit : (⟨ino, packHd hash dt, name.length, P⟩ : De).Fit :=
    ⟨f2, packHd_lt _ _, f6, by simp only; omega⟩
  have hget := getDe_putDe b.mem S _ hdefit
  unfold BNode.insert at h
  rw [if_pos (by omega)] at h
  simp only [hs, ← hP] at h
  rw [if_pos (by omega)] at h
  simp only [hget] at h
  rw [if_pos (by simp [nameAtOk]; omega)] at h
  obtain rfl := Option.some.inj h
  intro a h1 h2
  simp only at h1 ⊢
  by_cases ha : a < P + name.length
  · rw [wr_in _ _ _ _ (by omega) ha]
    refine hn _ ?_
    rw [List.getD_eq_getElem?_getD, List.getElem?_eq_getElem (by omega)]
    exact List.getElem_mem _
  · rw [wr_out _ _ _ _ (by omega), putDe_out _ _ _ _ (by omega)]
    exact g a (by omega) h2

theorem remove_good {b b' : BNode} {n : Node} {pos : Nat → Nat} (r : Rep b n pos) (g : Good b) (s : Nat) (e : Ent)
    (hs : n.slots[s]? = some (some e)) (h : b.remove s = some b') : Good b' := by
  obtain ⟨hfit, hde, hp1, hp2, hrd⟩ := r.act s e hs
  have hsl : s < n.slots.length := (List.getElem?_eq_some_iff.1 hs).1
  have hnde := r.nde
  have hnnb := r.nnb
  have hused : n.nnb + n.slots.length * 16 ≤ 7680 := r.wf.2
  have hlen0 : 0 < e.name.length := hfit.2.2.2.2.1
  -- bytes after punching
  have hpunch : ∃ m1 p, punch b (pos s) e.name.length = some (m1, p) ∧
      (∀ a, 7680 - b.nnb + e.name.length ≤ a → a < 7680 → chrOk (m1 a) = true) := by
    unfold punch
    simp only
    rw [if_pos (by simp [nameAtOk]; omega)]
    by_cases hb : 7680 - b.nnb < pos s
    · rw [if_pos hb, if_pos hp2]
      have key : ∀ dst, dst = 7680 - b.nnb + e.name.length → ∀ a, 7680 - b.nnb + e.name.length ≤ a → a < 7680 →
          chrOk (wr b.mem dst (rd b.mem (7680 - b.nnb) (pos s - (7680 - b.nnb))) a) = true := by
        intro dst hd a h1 h2
        by_cases ha : a < pos s + e.name.length
        · rw [wr_in _ _ _ _ (by omega) (by rw [rd_length]; omega), List.getD_eq_getElem?_getD,
            rd_get _ _ _ _ (by omega)]
          exact g _ (by omega) (by omega)
        · rw [wr_out _ _ _ _ (by rw [rd_length]; omega)]
          exact g _ (by omega) h2
      by_cases hmv : pos s - (7680 - b.nnb) ≤ e.name.length
      · rw [if_pos hmv, if_pos (by omega)]
        exact ⟨_, _, rfl, key _ (by omega)⟩
      · rw [if_neg hmv]
        exact ⟨_, _, rfl, key _ (by omega)⟩
    · rw [if_neg hb]
      exact ⟨_, _, rfl, fun a h1 h2 => g a (by omega) h2⟩
  obtain ⟨m1, p, hpe, hgood⟩ := hpunch
  unfold BNode.remove at h
  simp only [hde] at h
  simp only [deOf] at h
  rw [hpe] at h
  simp only at h
  obtain rfl := Option.some.inj h
  intro a h1 h2
  simp only at h1 ⊢
  have hput : putDe m1 s ⟨0, 0, 0, 0⟩ a = m1 a := putDe_out _ _ _ _ (by omega)
  cases p with
  | true =>
    rw [if_pos rfl, fixup_out _ _ _ _ _ _ (by omega), hput]
    exact hgood a (by omega) h2
  | false =>
    rw [if_neg (by decide), hput]
    exact hgood a (by omega) h2

/-- Types and name lengths of the entries of a node. -/
def Typed (n : Node) : Prop := ∀ (s : Nat) (e : Ent), n.slots[s]? = some (some e) → dtOk e.dt = true ∧ e.name.length ≤ 255

theorem step_all {b : BNode} {n : Node} {pos : Nat → Nat} (r : Rep b n pos) (g : Good b) (t : Typed n) (o : NOp)
    (ho : o.Valid) : ∃ b' pos', b.step o = some b' ∧ Rep b' (n.step o) pos' ∧ Good b' ∧ Typed (n.step o) := by
  obtain ⟨b', pos', h1, h2⟩ := step_rep r o ho.fit
  refine ⟨b', pos', h1, h2, ?_⟩
  cases o with
  | insert h nm ino dt =>
    have hmi : b.mayInsert nm.length = n.mayInsert nm.length := by
      unfold BNode.mayInsert Node.mayInsert Node.used
      rw [r.nnb, r.nde]
    simp only [BNode.step, Node.step, hmi] at h1 ⊢
    obtain ⟨v1, v2, v3', v4, v5, v6'⟩ := ho
    have v3 := fileType_ok v3'
    have v6 : ∀ c ∈ nm, chrOk c = true := fun c hc => nameByte_ok (v6' c hc)
    by_cases hm : n.mayInsert nm.length = true
    · rw [if_pos hm] at h1 ⊢
      refine ⟨insert_good r g h nm ino dt ⟨v1, v2, Nat.mod_lt _ (by decide), dtOk_lt v3, v4, by simp only; omega⟩
        v6 hm h1, ?_⟩
      intro s e he
      simp only [Node.insert] at he
      rcases (putFirst_get' _ _ _ _).1 he with h' | ⟨_, rfl⟩
      · exact t s e h'
      · exact ⟨v3, v5⟩
    · rw [if_neg hm] at h1 ⊢
      obtain rfl := Option.some.inj h1
      exact ⟨g, t⟩
  | remove h nm =>
    have hse := bsearch_rep r h nm b.nde 0 n.slots (by simp) r.nde
    simp only [BNode.step, Node.step, BNode.search, Node.search, hse] at h1 ⊢
    cases hx : searchFrom h nm 0 n.slots with
    | none =>
      rw [hx] at h1
      obtain rfl := Option.some.inj h1
      exact ⟨g, t⟩
    | some v =>
      obtain ⟨s, e⟩ := v
      rw [hx] at h1
      have hg := searchFrom_sound h nm n.slots 0 s e hx
      refine ⟨remove_good r g s e (by simpa using hg.2.1) h1, ?_⟩
      intro s' e' he'
      exact t s' e' ((Node.remove_get n s e s' e').1 he').2

theorem run_all {b : BNode} {n : Node} {pos : Nat → Nat} (r : Rep b n pos) (g : Good b) (t : Typed n)
    (os : List NOp) (ho : ∀ o ∈ os, o.Valid) :
    ∃ b' pos', b.run os = some b' ∧ Rep b' (n.run os) pos' ∧ Good b' ∧ Typed (n.run os) := by
  induction os generalizing b n pos with
  | nil => exact ⟨b, pos, rfl, r, g, t⟩
  | cons o os ih =>
    obtain ⟨b1, p1, h1, r1, g1, t1⟩ := step_all r g t o (ho o (by simp))
    obtain ⟨b2, p2, h2, r2⟩ := ih r1 g1 t1 (fun x hx => ho x (by simp [hx]))
    refine ⟨b2, p2, ?_, r2⟩
    simp only [BNode.run, h1]
    exact h2

theorem verifyDes_ok {m : Mem} {nde : Nat} (hn : 16 * nde ≤ 7680)
    (hv : ∀ s, s < nde → (getDe m s).active = true → (getDe m s).valid = true) :
    ∀ f k, k + f = nde → verifyDes m f k = some true := by
  intro f
  induction f with
  | zero => intro k _; rfl
  | succ f ih =>
    intro k hk
    rw [verifyDes, if_pos (by omega)]
    cases ha : (getDe m k).active with
    | false => simp only [Bool.false_and, Bool.false_eq_true, if_false]; exact ih _ (by omega)
    | true =>
      rw [hv k (by omega) ha]
      simp only [Bool.not_true, Bool.and_false, Bool.false_eq_true, if_false]
      exact ih _ (by omega)

theorem packHd_dt (h d : Nat) (hd : d < 256) : packHd h d / 16777216 % 256 = d := by
  unfold packHd; omega

/-- **C43** (directory nodes are accepted).  Whatever is inserted into and removed from a fresh directory node,
the node is accepted when it is loaded again. -/
theorem C43_dir_accepts (os : List NOp) (ho : ∀ o ∈ os, o.Valid) (ino index : Nat) (parent : Int) (hi : 0 < ino)
    (hp : parent = -1 ∨ 0 ≤ parent) (hx : indexValid index = true) :
    ∃ b, BNode.empty.run os = some b ∧ b.verify ino parent index = some true := by
  obtain ⟨b, pos, hb, r, g, t⟩ := run_all (Rep.empty (fun _ => 0)) (fun a h1 h2 => by
    have : 7680 ≤ a := h1
    omega) (by intro s e h; simp [Node.empty] at h) os ho
  refine ⟨b, hb, ?_⟩
  have hw : (Node.empty.run os).nnb + (Node.empty.run os).slots.length * 16 ≤ 7680 := r.wf.2
  have hnde := r.nde
  have hnnb := r.nnb
  unfold indexValid INDEX_MAX at hx
  simp only [Bool.and_eq_true, decide_eq_true_eq] at hx
  unfold BNode.verify
  rw [if_neg (by omega), if_neg (by omega), if_neg (by omega),
    verifyDes_ok (m := b.mem) (nde := b.nde) (by omega) ?_ b.nde 0 (by omega)]
  · simp only
    unfold BNode.verifyNames
    have hlt : b.nnb < 7680 := by
      rcases Nat.lt_or_ge b.nnb 7680 with h | h
      · exact h
      · exfalso
        -- no entries, so no names
        have h0 : (Node.empty.run os).slots = [] := List.length_eq_zero_iff.1 (by omega)
        have := r.wf.1
        rw [h0] at this
        simp [nameBytes] at this
        omega
    rw [if_pos (by simp [nameAtOk]; omega)]
    congr 1
    rw [List.all_eq_true]
    intro c hc
    unfold rd at hc
    rw [List.mem_map] at hc
    obtain ⟨k, hk, rfl⟩ := hc
    rw [List.mem_range] at hk
    exact g _ (by omega) (by omega)
  · intro s hs ha
    rw [r.active_iff s (by omega)] at ha
    obtain ⟨e, he⟩ := Option.isSome_iff_exists.1 ha
    have he' : (Node.empty.run os).slots[s]? = some (some e) := by
      rw [List.getElem?_eq_getElem (by omega), he]
    obtain ⟨hfit, hde, hp1, hp2, hrd⟩ := r.act s e he'
    obtain ⟨ht, ht5⟩ := t s e he'
    obtain ⟨q1, q2, q3, q4, q5, q6⟩ := hfit
    rw [hde]
    unfold De.valid deOf
    simp only [Bool.and_eq_true, decide_eq_true_eq]
    have hdt := packHd_dt e.hash e.dt (dtOk_lt ht)
    refine ⟨⟨⟨⟨⟨q1, ?_⟩, q5⟩, by omega⟩, by omega⟩, by omega⟩
    rw [hdt]; exact ht

/-- A node with two names, one removed again, is such a node. -/
example : ∀ o ∈ [NOp.insert 77 [97, 98] 5 8, .insert 78 [99] 6 4, .remove 77 [97, 98]], o.Valid := by
  intro o ho
  simp only [List.mem_cons, List.not_mem_nil, or_false] at ho
  rcases ho with rfl | rfl | rfl
  · exact ⟨by decide, by decide, by decide, by decide, by decide, by decide⟩
  · exact ⟨by decide, by decide, by decide, by decide, by decide, by decide⟩
  · trivial

/-- The callers see to it that no byte of a name is a slash; a node with such a name would be refused as a whole. -/
example : ((BNode.empty.run [.insert 77 [97] 5 8, .insert 78 [98, 47] 6 8]).bind fun b => b.verify 3 (-1) 1) =
    some false := by decide +kernel

/-! ### What is accepted is safe, where entries end within the node -/

theorem verifyDes_spec {m : Mem} : ∀ f k, verifyDes m f k = some true →
    (0 < f → 16 * (k + f) ≤ 7680) ∧ ∀ s, k ≤ s → s < k + f → (getDe m s).active = true → (getDe m s).valid = true := by
  intro f
  induction f with
  | zero => intro k _; exact ⟨by omega, by intro s h1 h2; omega⟩
  | succ f ih =>
    intro k h
    rw [verifyDes] at h
    by_cases hk : 16 * k + 16 ≤ 7680
    · rw [if_pos hk] at h
      by_cases hc : ((getDe m k).active && !(getDe m k).valid) = true
      · rw [if_pos hc] at h; cases h
      · rw [if_neg hc] at h
        obtain ⟨h1, h2⟩ := ih _ h
        refine ⟨?_, ?_⟩
        · intro _
          cases f with
          | zero => omega
          | succ f => have := h1 (by omega); omega
        · intro s s1 s2 ha
          by_cases hs : s = k
          · subst hs
            rw [ha] at hc
            simpa using hc
          · exact h2 s (by omega) (by omega) ha
    · rw [if_neg hk] at h; cases h

theorem verify_spec {b : BNode} {ino index : Nat} {parent : Int} (h : b.verify ino parent index = some true) :
    16 * b.nde ≤ 7680 ∧ (∀ s, s < b.nde → (getDe b.mem s).active = true → (getDe b.mem s).valid = true) ∧
    b.nnb < 7680 := by
  unfold BNode.verify at h
  split at h
  · cases h
  split at h
  · cases h
  split at h
  · cases h
  cases hd : verifyDes b.mem b.nde 0 with
  | none => rw [hd] at h; cases h
  | some v =>
    rw [hd] at h
    cases v with
    | false => cases h
    | true =>
      simp only at h
      obtain ⟨h1, h2⟩ := verifyDes_spec _ _ hd
      unfold BNode.verifyNames at h
      have hn : nameAtOk (7680 - b.nnb) = true := by
        by_cases hn : nameAtOk (7680 - b.nnb) = true
        · exact hn
        · rw [if_neg hn] at h; cases h
      unfold nameAtOk at hn
      simp only [Bool.and_eq_true, decide_eq_true_eq] at hn
      refine ⟨?_, fun s hs ha => h2 s (by omega) (by omega) ha, by omega⟩
      rcases Nat.eq_zero_or_pos b.nde with h0 | h0
      · omega
      · have := h1 h0; omega

theorem bsearch_safe {m : Mem} {nde : Nat} (hash : Nat) (name : Name)
    (hv : ∀ s, s < nde → (getDe m s).active = true → 0 < (getDe m s).pos ∧ (getDe m s).pos + (getDe m s).len ≤ 7680) :
    ∀ f k, k + f = nde → ∃ r, bsearchFrom m hash name f k = some r ∧
      ∀ s, r = some s → s < nde ∧ (getDe m s).active = true := by
  intro f
  induction f with
  | zero => intro k _; exact ⟨none, rfl, by intro s h; cases h⟩
  | succ f ih =>
    intro k hk
    rw [bsearchFrom]
    by_cases hc : ((getDe m k).active && (getDe m k).hd % 16777216 == hash % 16777216 &&
        (getDe m k).len == name.length) = true
    · rw [if_pos hc]
      simp only [Bool.and_eq_true, beq_iff_eq] at hc
      have := hv k (by omega) hc.1.1
      rw [if_pos (by simp only [nameAtOk, Bool.and_eq_true, decide_eq_true_eq]; omega)]
      by_cases he : (rd m (getDe m k).pos name.length == name) = true
      · rw [if_pos he]
        refine ⟨_, rfl, ?_⟩
        intro s hs
        cases hs
        exact ⟨by omega, hc.1.1⟩
      · rw [if_neg he]
        exact ih _ (by omega)
    · rw [if_neg hc]
      exact ih _ (by omega)

theorem insertSlot_le (m : Mem) : ∀ f k, insertSlot m f k ≤ k + f := by
  intro f
  induction f with
  | zero => intro k; exact Nat.le_refl _
  | succ f ih =>
    intro k
    rw [insertSlot]
    split
    · have := ih (k + 1); omega
    · omega

/-- **C43** (partial: only when the name of every active entry ends within the node, which is not verified, see
`C43_dir_safe_violated`).  Whatever the bytes of a directory node are, if it passes verification then a lookup,
an insertion and a removal of any name stay within it. -/
theorem C43_dir_safe_partial (b : BNode) (ino index : Nat) (parent : Int)
    (h : b.verify ino parent index = some true)
    (hend : ∀ s, s < b.nde → (getDe b.mem s).active = true → (getDe b.mem s).pos + (getDe b.mem s).len ≤ 7680) :
    (∀ hash name, b.search hash name ≠ none) ∧ ∀ o : NOp, o.Fit → b.step o ≠ none := by
  obtain ⟨h1, h2, h3⟩ := verify_spec h
  have hv : ∀ s, s < b.nde → (getDe b.mem s).active = true →
      0 < (getDe b.mem s).pos ∧ (getDe b.mem s).pos + (getDe b.mem s).len ≤ 7680 := by
    intro s hs ha
    have := h2 s hs ha
    unfold De.valid at this
    simp only [Bool.and_eq_true, decide_eq_true_eq] at this
    exact ⟨this.1.2, hend s hs ha⟩
  have hse : ∀ hash name, ∃ r, b.search hash name = some r ∧
      ∀ s, r = some s → s < b.nde ∧ (getDe b.mem s).active = true :=
    fun hash name => bsearch_safe hash name hv b.nde 0 (by omega)
  refine ⟨?_, ?_⟩
  · intro hash name
    obtain ⟨r, hr, _⟩ := hse hash name
    rw [hr]; intro hc; cases hc
  · intro o ho
    cases o with
    | insert hh nm ino' dt =>
      obtain ⟨v1, v2, v3, v4, v5⟩ := ho
      rw [BNode.step]
      by_cases hm : b.mayInsert nm.length = true
      · rw [if_pos hm]
        unfold BNode.mayInsert at hm
        simp only [decide_eq_true_eq] at hm
        have hS := insertSlot_le b.mem b.nde 0
        generalize hSe : insertSlot b.mem b.nde 0 = S at hS
        have hP : ∃ P, P = 7680 - (b.nnb + nm.length) := ⟨_, rfl⟩
        obtain ⟨P, hP⟩ := hP
        have hdefit : (⟨ino', packHd hh dt, nm.length, P⟩ : De).Fit :=
          ⟨v2, packHd_lt _ _, by simp only; omega, by simp only; omega⟩
        have hget := getDe_putDe b.mem S _ hdefit
        unfold BNode.insert
        rw [if_pos (by omega)]
        simp only [hSe, ← hP]
        rw [if_pos (by omega)]
        simp only [hget]
        rw [if_pos (by simp only [nameAtOk, Bool.and_eq_true, decide_eq_true_eq]; omega)]
        intro hc; cases hc
      · rw [if_neg hm]; intro hc; cases hc
    | remove hh nm =>
      rw [BNode.step]
      obtain ⟨r, hr, hra⟩ := hse hh nm
      rw [hr]
      cases r with
      | none => intro hc; cases hc
      | some s =>
        obtain ⟨hs, ha⟩ := hra s rfl
        obtain ⟨p1, p2⟩ := hv s hs ha
        simp only
        unfold BNode.remove
        simp only
        cases hp : punch b (getDe b.mem s).pos (getDe b.mem s).len with
        | some v => intro hc; cases hc
        | none =>
          exfalso
          unfold punch at hp
          simp only at hp
          rw [if_pos (by simp only [nameAtOk, Bool.and_eq_true, decide_eq_true_eq]; omega)] at hp
          split at hp
          · split at hp
            · rw [if_pos (by omega)] at hp; cases hp
            · cases hp
          · cases hp

/-- A node with two names passes. -/
example : ∃ b, BNode.empty.run [.insert 77 [97, 98] 5 8, .insert 78 [99] 6 4] = some b ∧
    b.verify 3 (-1) 1 = some true ∧
    ∀ s, s < b.nde → (getDe b.mem s).active = true → (getDe b.mem s).pos + (getDe b.mem s).len ≤ 7680 := by
  refine ⟨((BNode.empty.run [.insert 77 [97, 98] 5 8, .insert 78 [99] 6 4]).getD BNode.empty), rfl,
    by decide +kernel, ?_⟩
  intro s hs
  have : s < 2 := hs
  rcases (by omega : s = 0 ∨ s = 1) with rfl | rfl
  · decide +kernel
  · decide +kernel

/-- A node with one entry, whose name of 255 bytes begins at the last byte. -/
def badNode : BNode := ⟨wr (putDe (fun _ => 0) 0 ⟨5, packHd 77 8, 255, 7679⟩) 7679 [97], 1, 1⟩

/-- The claim that what is accepted keeps lookups within the node is false of the code: where a name ends is not
verified. -/
theorem C43_dir_safe_violated :
    badNode.verify 3 (-1) 1 = some true ∧ badNode.search 77 (List.replicate 255 97) = none := by
  decide +kernel

/-- Neither is the number of entries verified before they are read: a node of 481 entries makes verification
itself read beyond the table. -/
theorem C43_dir_count_violated : BNode.verify ⟨fun _ => 0, 481, 0⟩ 3 (-1) 1 = none := by decide +kernel

/-! ### Inode of a directory -/

theorem addAt_last (o : Orc) (hash : Nat) (name : Name) (ino dt : Nat) : ∀ k i (n : Node) (d : Dir),
    d.last ≤ 16777216 → d.ndents < 480 * 16777216 →
    (addAt o hash name ino dt k i n d).2.last ≤ 16777216 ∧
      (addAt o hash name ino dt k i n d).2.ndents ≤ 480 * 16777216 := by
  intro k
  induction k with
  | zero =>
    intro i n d h1 h2
    rw [addAt]
    split
    · exact ⟨h1, h2⟩
    · exact ⟨h1, Nat.le_of_lt h2⟩
  | succ k ih =>
    intro i n d h1 h2
    rw [addAt]
    split
    · exact ⟨h1, h2⟩
    · simp only
      split
      · split
        · exact ⟨h1, Nat.le_of_lt h2⟩
        · exact ih _ _ _ h1 h2
      · split
        · exact ⟨h1, Nat.le_of_lt h2⟩
        · rename_i hv
          split
          · exact ⟨h1, Nat.le_of_lt h2⟩
          · refine ih _ _ _ ?_ h2
            simp only [bumpLast]
            split
            · cases hx : validDepth (child i (hashOrd hash (4 - k))) with
              | false => exact absurd hx hv
              | true =>
                unfold validDepth indexValid INDEX_MAX at hx
                simp only [Bool.and_eq_true, decide_eq_true_eq] at hx
                exact hx.1.2
            · exact h1

theorem step_last (d : Dir) (o : Orc) (op : Op) (h1 : d.last ≤ 16777216) (h2 : d.ndents ≤ 480 * 16777216) :
    (step d o op).2.last ≤ 16777216 ∧ (step d o op).2.ndents ≤ 480 * 16777216 := by
  cases op with
  | add name ino dt =>
    show (d.add o name ino dt).2.last ≤ _ ∧ (d.add o name ino dt).2.ndents ≤ _
    unfold Dir.add
    split <;> try exact ⟨h1, h2⟩
    by_cases hc : 480 * 16777216 ≤ d.ndents
    · rw [if_pos hc]; exact ⟨h1, h2⟩
    · rw [if_neg hc]
      unfold Dir.addDentry
      split
      · split
        · exact ⟨h1, h2⟩
        · split
          · exact ⟨h1, h2⟩
          · exact addAt_last _ _ _ _ _ _ _ _ _ h1 (by omega)
      · split
        · exact ⟨h1, h2⟩
        · exact addAt_last _ _ _ _ _ _ _ _ _ (by show (1 : Nat) ≤ _; omega) (by show d.ndents < _; omega)
  | remove name =>
    show (d.remove o name).2.last ≤ _ ∧ (d.remove o name).2.ndents ≤ _
    unfold Dir.remove
    split <;> try exact ⟨h1, h2⟩
    split
    · exact ⟨h1, h2⟩
    · split
      · exact ⟨h1, h2⟩
      · split
        · split
          · exact ⟨h1, Nat.zero_le _⟩
          · exact ⟨Nat.zero_le _, Nat.zero_le _⟩
        · refine ⟨h1, ?_⟩
          show d.ndents - 1 ≤ _
          omega

theorem run_last (ops : List (Op × Orc)) : ∀ d : Dir, d.last ≤ 16777216 → d.ndents ≤ 480 * 16777216 →
    (run d ops).2.last ≤ 16777216 ∧ (run d ops).2.ndents ≤ 480 * 16777216 := by
  induction ops with
  | nil => intro d h1 h2; exact ⟨h1, h2⟩
  | cons x ops ih =>
    intro d h1 h2
    obtain ⟨a, b⟩ := step_last d x.2 x.1 h1 h2
    exact ih _ a b

/-- **C43** (inodes of directories are accepted).  Whatever is added to and removed from a directory, its inode
passes the checks for directories when loaded again, unless dropping an emptied tree fails. -/
theorem C43_dir_inode (hash : Name → Nat) (ops : List (Op × Orc)) (hd : ∀ x ∈ ops, x.2.drop = false) :
    let d := (run (Dir.fresh hash) ops).2
    Silofs.Ns.verifyDirInode d.ndents (d.nodes 1).isSome d.last = true := by
  obtain ⟨hv, _, _⟩ := run_spec (Inv.fresh hash) (Repr.fresh hash) ops hd
  obtain ⟨h1, h2⟩ := run_last ops (Dir.fresh hash) (Nat.zero_le _) (Nat.zero_le _)
  show Silofs.Ns.verifyDirInode (run (Dir.fresh hash) ops).2.ndents
    ((run (Dir.fresh hash) ops).2.nodes 1).isSome (run (Dir.fresh hash) ops).2.last = true
  generalize (run (Dir.fresh hash) ops).2 = d at *
  unfold Silofs.Ns.verifyDirInode Silofs.Ns.DIR_ENTRIES_MAX
  rw [Bool.and_eq_true]
  refine ⟨?_, decide_eq_true (by omega)⟩
  cases hr : d.nodes 1 with
  | none =>
    simp only [Option.isSome_none, Bool.false_eq_true, if_false]
    exact decide_eq_true (hv.lastz hr)
  | some r =>
    simp only [Option.isSome_some, if_true]
    have := hv.range 1 r hr
    exact decide_eq_true ⟨by omega, h1⟩

/-- Two names added, one removed. -/
example : ∀ x ∈ [(Op.add [97] 5 8, Orc.good (fun _ => 0)), (.add [98] 6 8, Orc.good (fun _ => 0)),
    (.remove [97], Orc.good (fun _ => 0))], x.2.drop = false := by
  intro x hx
  simp only [List.mem_cons, List.not_mem_nil, or_false] at hx
  rcases hx with rfl | rfl | rfl <;> rfl

end Silofs.Dir
