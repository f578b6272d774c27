import Verif.Model.Xattr
/-
C31: a node of 8-byte units represents a list of entries.
-/
set_option linter.unusedSimpArgs false
set_option linter.unusedVariables false
namespace Silofs.Xattr

abbrev Entry := Bytes × Bytes

/-- Units an entry takes. -/
def Entry.units (e : Entry) : Nat := Xattr.units e.1.length e.2.length

theorem length_bytesAt (buf : Nat → Nat) (o n : Nat) : (bytesAt buf o n).length = n := by
  simp [bytesAt]

theorem bytesAt_congr {buf buf' : Nat → Nat} {o o' n : Nat} (h : ∀ i, i < n → buf' (o' + i) = buf (o + i)) :
    bytesAt buf' o' n = bytesAt buf o n := by
  unfold bytesAt
  apply List.map_congr_left
  intro i hi
  exact h i (List.mem_range.1 hi)

theorem up8_le (n : Nat) : n ≤ up8 n := by unfold up8; omega

theorem up8_div (n m : Nat) : 8 * units n m = 8 + up8 n + up8 m := by
  unfold units up8; omega

/-- An entry is stored at a unit. -/
def Ent (buf : Nat → Nat) (u : Nat) (e : Entry) : Prop := nameOf buf u = e.1 ∧ valueOf buf u = e.2

theorem Ent.nameLen {buf : Nat → Nat} {u : Nat} {e : Entry} (h : Ent buf u e) : nameLen buf u = e.1.length := by
  rw [← h.1]; simp [nameOf, length_bytesAt]

theorem Ent.valSize {buf : Nat → Nat} {u : Nat} {e : Entry} (h : Ent buf u e) : valSize buf u = e.2.length := by
  rw [← h.2]; simp [valueOf, length_bytesAt]

theorem Ent.units {buf : Nat → Nat} {u : Nat} {e : Entry} (h : Ent buf u e) : entUnits buf u = e.units := by
  unfold entUnits Entry.units; rw [h.nameLen, h.valSize]

theorem units_pos (e : Entry) : 1 ≤ e.units := by unfold Entry.units units; omega

/-- The bytes of an entry determine it, wherever they are. -/
theorem Ent.move {buf buf' : Nat → Nat} {u u' : Nat} {e : Entry} (h : Ent buf u e)
    (hb : ∀ i, i < 8 * e.units → buf' (8 * u' + i) = buf (8 * u + i)) : Ent buf' u' e := by
  have hu : 8 * e.units = 8 + up8 e.1.length + up8 e.2.length := up8_div _ _
  have hn : Xattr.nameLen buf' u' = e.1.length := by
    rw [← h.nameLen]
    unfold Xattr.nameLen
    have h0 := hb 0 (by omega)
    have h1 := hb 1 (by omega)
    rw [Nat.add_zero, Nat.add_zero] at h0
    rw [h0, h1]
  have hv : Xattr.valSize buf' u' = e.2.length := by
    rw [← h.valSize]
    unfold Xattr.valSize
    rw [hb 4 (by omega), hb 5 (by omega), hb 6 (by omega), hb 7 (by omega)]
  have l1 := up8_le e.1.length
  have l2 := up8_le e.2.length
  refine ⟨?_, ?_⟩
  · have e1 := h.1
    unfold nameOf at e1 ⊢
    rw [hn]
    rw [h.nameLen] at e1
    refine (bytesAt_congr (fun i hi => ?_)).trans e1
    have := hb (8 + i) (by omega)
    rw [Nat.add_assoc, this, Nat.add_assoc]
  · have e1 := h.2
    unfold valueOf at e1 ⊢
    rw [hn, hv]
    rw [h.nameLen, h.valSize] at e1
    refine (bytesAt_congr (fun i hi => ?_)).trans e1
    have := hb (8 + up8 e.1.length + i) (by omega)
    have a1 : 8 * u' + 8 + up8 e.1.length + i = 8 * u' + (8 + up8 e.1.length + i) := by omega
    have a2 : 8 * u + 8 + up8 e.1.length + i = 8 * u + (8 + up8 e.1.length + i) := by omega
    rw [a1, a2, this]

/-- The units `[u, tip)` are a list of entries. -/
def Rep (buf : Nat → Nat) : Nat → List Entry → Nat → Prop
  | u, [], tip => u = tip
  | u, e :: es, tip => Ent buf u e ∧ Rep buf (u + e.units) es tip

theorem Rep.le {buf : Nat → Nat} {es : List Entry} : ∀ {u tip : Nat}, Rep buf u es tip → u ≤ tip := by
  induction es with
  | nil => intro u tip h; exact Nat.le_of_eq h
  | cons e es ih => intro u tip h; have := ih h.2; omega

theorem Rep.move {buf buf' : Nat → Nat} {es : List Entry} : ∀ {u u' tip : Nat}, Rep buf u es tip →
    (∀ i, i < 8 * (tip - u) → buf' (8 * u' + i) = buf (8 * u + i)) → Rep buf' u' es (u' + (tip - u)) := by
  induction es with
  | nil => intro u u' tip h _; have : u = tip := h; show u' = _; omega
  | cons e es ih =>
    intro u u' tip h hb
    have hle := h.2.le
    refine ⟨h.1.move (fun i hi => hb i (by omega)), ?_⟩
    have := ih (u' := u' + e.units) h.2 (fun i hi => by
      have := hb (8 * e.units + i) (by omega)
      rw [show 8 * (u' + e.units) + i = 8 * u' + (8 * e.units + i) by omega, this]
      congr 1; omega)
    rw [show u' + (tip - u) = u' + e.units + (tip - (u + e.units)) by omega]
    exact this

theorem Rep.congr {buf buf' : Nat → Nat} {es : List Entry} {u tip : Nat} (h : Rep buf u es tip)
    (hb : ∀ x, 8 * u ≤ x → x < 8 * tip → buf' x = buf x) : Rep buf' u es tip := by
  have hle := h.le
  have := h.move (u' := u) (buf' := buf') (fun i hi => hb _ (by omega) (by omega))
  rwa [show u + (tip - u) = tip by omega] at this

theorem Rep.append {buf : Nat → Nat} {es fs : List Entry} : ∀ {u m tip : Nat}, Rep buf u es m → Rep buf m fs tip →
    Rep buf u (es ++ fs) tip := by
  induction es with
  | nil => intro u m tip h1 h2; have : u = m := h1; subst this; exact h2
  | cons e es ih => intro u m tip h1 h2; exact ⟨h1.1, ih h1.2 h2⟩

theorem hasName_iff {buf : Nat → Nat} {u : Nat} {e : Entry} (h : Ent buf u e) (name : Bytes) :
    hasName buf u name = true ↔ e.1 = name := by
  unfold hasName
  rw [Bool.and_eq_true, beq_iff_eq, beq_iff_eq]
  have h1 := h.1
  unfold nameOf at h1
  constructor
  · rintro ⟨a, b⟩
    rw [← h1, ← b, a]
  · intro a
    have hl := h.nameLen
    rw [a] at hl h1
    rw [hl] at h1
    exact ⟨hl.symm, h1⟩

/-- **C31** (node): searching the units finds the first entry of the name. -/
theorem Rep.search {buf : Nat → Nat} {es : List Entry} (name : Bytes) : ∀ {u tip : Nat}, Rep buf u es tip →
    match Xattr.search buf name u tip with
    | none => ∀ e ∈ es, e.1 ≠ name
    | some w => ∃ es1 e es2, es = es1 ++ e :: es2 ∧ e.1 = name ∧ (∀ x ∈ es1, x.1 ≠ name) ∧
        Rep buf u es1 w ∧ Ent buf w e ∧ Rep buf (w + e.units) es2 tip := by
  induction es with
  | nil =>
    intro u tip h
    have : u = tip := h
    unfold Xattr.search
    rw [if_neg (by omega)]
    simp
  | cons e es ih =>
    intro u tip h
    have hle := h.2.le
    have hp := units_pos e
    unfold Xattr.search
    rw [if_pos (by omega)]
    by_cases hn : e.1 = name
    · rw [if_pos ((hasName_iff h.1 name).2 hn)]
      exact ⟨[], e, es, rfl, hn, by simp, rfl, h.1, h.2⟩
    · rw [if_neg (fun x => hn ((hasName_iff h.1 name).1 x)), h.1.units]
      have := ih h.2
      cases hs : Xattr.search buf name (u + e.units) tip with
      | none =>
        rw [hs] at this
        intro x hx
        rcases List.mem_cons.1 hx with rfl | hx
        · exact hn
        · exact this x hx
      | some w =>
        rw [hs] at this
        obtain ⟨es1, e', es2, h1, h2, h3, h4, h5, h6⟩ := this
        refine ⟨e :: es1, e', es2, by rw [h1]; rfl, h2, ?_, ⟨h.1, h4⟩, h5, h6⟩
        intro x hx
        rcases List.mem_cons.1 hx with rfl | hx
        · exact hn
        · exact h3 x hx

/-- Names listed from a node. -/
theorem Rep.names {buf : Nat → Nat} {es : List Entry} : ∀ {u tip : Nat}, Rep buf u es tip →
    Xattr.names buf u tip = es.map (·.1) := by
  induction es with
  | nil =>
    intro u tip h
    have : u = tip := h
    unfold Xattr.names
    rw [if_neg (by omega)]; rfl
  | cons e es ih =>
    intro u tip h
    have hle := h.2.le
    have hp := units_pos e
    unfold Xattr.names
    rw [if_pos (by omega), h.1.units, ih h.2, h.1.1]; rfl

/-! ### Writing an entry -/

theorem blit_in {buf : Nat → Nat} {o : Nat} {bs : Bytes} {i : Nat} (h : i < bs.length) :
    blit buf o bs (o + i) = bs[i] := by
  unfold blit
  rw [if_pos ⟨by omega, by omega⟩]
  rw [show o + i - o = i by omega, List.getD_eq_getElem?_getD, List.getElem?_eq_getElem h]
  rfl

theorem blit_out {buf : Nat → Nat} {o : Nat} {bs : Bytes} {x : Nat} (h : x < o ∨ o + bs.length ≤ x) :
    blit buf o bs x = buf x := by
  unfold blit
  rw [if_neg (by omega)]

theorem bytesAt_blit (buf : Nat → Nat) (o : Nat) (bs : Bytes) : bytesAt (blit buf o bs) o bs.length = bs := by
  apply List.ext_getElem
  · exact length_bytesAt _ _ _
  · intro i h1 h2
    simp only [bytesAt, List.getElem_map, List.getElem_range]
    exact blit_in h2

theorem assign_low {buf : Nat → Nat} {u : Nat} {name value : Bytes} {x : Nat} (h : x < 8 * u) :
    assign buf u name value x = buf x := by
  unfold assign
  rw [blit_out (by omega), blit_out (by omega), blit_out (by omega), blit_out (by omega)]

/-- The stored entry reads back. -/
theorem assign_ent (buf : Nat → Nat) (u : Nat) (name value : Bytes) (hn : name.length < 65536)
    (hv : value.length < 4294967296) : Ent (assign buf u name value) u (name, value) := by
  -- name the intermediate buffers
  generalize hb1 : blit buf (8 * u) [name.length % 256, name.length / 256 % 256] = b1
  generalize hb2 : blit b1 (8 * u + 4)
    [value.length % 256, value.length / 256 % 256, value.length / 65536 % 256, value.length / 16777216 % 256] = b2
  generalize hb3 : blit b2 (8 * u + 8) name = b3
  have n3 : Xattr.nameLen b3 u = name.length := by
    unfold Xattr.nameLen
    rw [← hb3, blit_out (by omega), blit_out (by omega), ← hb2, blit_out (by omega), blit_out (by omega), ← hb1]
    have h0 := blit_in (buf := buf) (o := 8 * u) (bs := [name.length % 256, name.length / 256 % 256]) (i := 0) (by simp)
    have h1 := blit_in (buf := buf) (o := 8 * u) (bs := [name.length % 256, name.length / 256 % 256]) (i := 1) (by simp)
    rw [Nat.add_zero] at h0
    rw [h0, h1]
    simp only [List.getElem_cons_zero, List.getElem_cons_succ]
    omega
  have v3 : Xattr.valSize b3 u = value.length := by
    unfold Xattr.valSize
    rw [← hb3, blit_out (by omega), blit_out (by omega), blit_out (by omega), blit_out (by omega), ← hb2]
    generalize hl : [value.length % 256, value.length / 256 % 256, value.length / 65536 % 256, value.length / 16777216 % 256] = l
    have hlen : l.length = 4 := by rw [← hl]; rfl
    have h0 := blit_in (buf := b1) (o := 8 * u + 4) (bs := l) (i := 0) (by omega)
    have h1 := blit_in (buf := b1) (o := 8 * u + 4) (bs := l) (i := 1) (by omega)
    have h2 := blit_in (buf := b1) (o := 8 * u + 4) (bs := l) (i := 2) (by omega)
    have h3 := blit_in (buf := b1) (o := 8 * u + 4) (bs := l) (i := 3) (by omega)
    rw [Nat.add_zero] at h0
    rw [h0, h1, h2, h3]
    subst hl
    simp only [List.getElem_cons_zero, List.getElem_cons_succ]
    omega
  have ha : assign buf u name value = blit b3 (8 * u + 8 + up8 name.length) value := by
    unfold assign
    simp only
    rw [hb1, hb2, hb3, n3]
  have hup := up8_le name.length
  have na : Xattr.nameLen (assign buf u name value) u = name.length := by
    rw [← n3]
    unfold Xattr.nameLen
    rw [ha, blit_out (by omega), blit_out (by omega)]
  have va : Xattr.valSize (assign buf u name value) u = value.length := by
    rw [← v3]
    unfold Xattr.valSize
    rw [ha, blit_out (by omega), blit_out (by omega), blit_out (by omega), blit_out (by omega)]
  refine ⟨?_, ?_⟩
  · unfold nameOf
    rw [na]
    show _ = name
    have := bytesAt_blit b2 (8 * u + 8) name
    rw [hb3] at this
    rw [← this]
    rw [this]
    refine bytesAt_congr (fun i hi => ?_) |>.trans this
    rw [ha, blit_out (by omega)]
  · unfold valueOf
    rw [na, va, ha]
    exact bytesAt_blit _ _ _

/-! ### Nodes -/

/-- A node holds a list of entries. -/
def Node.Rep (n : Node) (es : List Entry) : Prop := Xattr.Rep n.buf 0 es n.nents

/-- Sizes of a stored entry. -/
def Entry.Ok (e : Entry) : Prop := e.1.length ≤ nameMax ∧ e.2.length ≤ valueMax

theorem emptyNode_rep : emptyNode.Rep [] := rfl

theorem Node.Rep.total {n : Node} {es : List Entry} (h : n.Rep es) : n.nents = (es.map Entry.units).sum := by
  have : ∀ {es : List Entry} {u tip : Nat}, Xattr.Rep n.buf u es tip → tip = u + (es.map Entry.units).sum := by
    intro es
    induction es with
    | nil => intro u tip h; have : u = tip := h; simp [this]
    | cons e es ih =>
      intro u tip h
      have := ih h.2
      simp only [List.map_cons, List.sum_cons]
      omega
  have := this h
  omega

theorem units_name_le {n : Node} {es : List Entry} (h : n.Rep es) {e : Entry} (he : e ∈ es) :
    units e.1.length 0 ≤ n.nents := by
  rw [h.total]
  have h1 : units e.1.length 0 ≤ e.units := by unfold Entry.units units up8; omega
  have h2 : ∀ {l : List Entry}, e ∈ l → e.units ≤ (l.map Entry.units).sum := by
    intro l
    induction l with
    | nil => intro h; cases h
    | cons a l ih =>
      intro h
      simp only [List.map_cons, List.sum_cons]
      rcases List.mem_cons.1 h with rfl | h
      · omega
      · have := ih h; omega
  have := h2 he
  omega

theorem Node.Rep.search {n : Node} {es : List Entry} (h : n.Rep es) (name : Bytes) :
    match n.search name with
    | none => ∀ e ∈ es, e.1 ≠ name
    | some w => ∃ es1 e es2, es = es1 ++ e :: es2 ∧ e.1 = name ∧ (∀ x ∈ es1, x.1 ≠ name) ∧
        Xattr.Rep n.buf 0 es1 w ∧ Ent n.buf w e ∧ Xattr.Rep n.buf (w + e.units) es2 n.nents := by
  unfold Node.search
  by_cases hc : units name.length 0 ≤ n.nents
  · rw [if_pos hc]
    exact Xattr.Rep.search name h
  · rw [if_neg hc]
    intro e he hn
    have := units_name_le h he
    rw [hn] at this
    exact hc this

/-- **C31** (node): insertion appends, and fails only when the node is full. -/
theorem Node.Rep.insert {n : Node} {es : List Entry} (h : n.Rep es) {name value : Bytes}
    (hn : name.length ≤ nameMax) (hv : value.length ≤ valueMax) :
    match n.insert name value with
    | none => nentsMax < n.nents + Entry.units (name, value)
    | some n' => n'.Rep (es ++ [(name, value)]) ∧ (n.nents ≤ nentsMax → n'.nents ≤ nentsMax) := by
  have hn' : name.length < 65536 := by unfold nameMax at hn; omega
  have hv' : value.length < 4294967296 := by unfold valueMax at hv; omega
  unfold Node.insert
  by_cases hc : nentsMax - n.nents < units name.length value.length
  · rw [if_pos hc]
    show nentsMax < n.nents + units name.length value.length
    omega
  · rw [if_neg hc]
    have he := assign_ent n.buf n.nents name value hn' hv'
    have hu := he.units
    simp only
    rw [hu]
    refine ⟨?_, ?_⟩
    · show Xattr.Rep (assign n.buf n.nents name value) 0 (es ++ [(name, value)]) (n.nents + _)
      exact (Xattr.Rep.congr h (fun x _ hx => assign_low hx)).append ⟨he, rfl⟩
    · intro hle
      show n.nents + units name.length value.length ≤ nentsMax
      omega

/-- **C31** (node): removal takes out exactly the entry. -/
theorem Node.Rep.remove {n : Node} {es1 es2 : List Entry} {e : Entry} {w : Nat} 
    (h1 : Xattr.Rep n.buf 0 es1 w) (h2 : Ent n.buf w e) (h3 : Xattr.Rep n.buf (w + e.units) es2 n.nents) :
    (n.remove w).Rep (es1 ++ es2) ∧ (n.remove w).nents ≤ n.nents := by
  have hle := h3.le
  have hu := h2.units
  refine ⟨?_, by simp only [Node.remove]; omega⟩
  show Xattr.Rep (squeeze n.buf w n.nents) 0 (es1 ++ es2) (n.nents - entUnits n.buf w)
  rw [hu]
  refine (h1.congr (fun x _ hx => ?_)).append ?_
  · unfold squeeze
    rw [if_neg (by omega), if_neg (by omega)]
  · have := h3.move (u' := w) (buf' := squeeze n.buf w n.nents) (fun i hi => ?_)
    · rw [show n.nents - e.units = w + (n.nents - (w + e.units)) by omega]
      exact this
    · unfold squeeze
      rw [hu, if_pos (by omega)]
      congr 1; omega

theorem Ent.value {buf : Nat → Nat} {w : Nat} {e : Entry} (h : Ent buf w e) : valueOf buf w = e.2 := h.2

end Silofs.Xattr
