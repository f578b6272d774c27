import Verif.Props.LcacheMaint
/-
Every request to the in-memory cache keeps its invariant and has the effect the specification gives.
-/
set_option linter.unusedSimpArgs false
namespace Silofs.Lcache

/-- The current content of a key in one map. -/
def curOf (h : HQ) (st : Nat → Nat) (k : Nat) : Nat :=
  match h.find k with
  | some i => (h.heap i).data
  | none => st k

/-- Objects without unsaved changes hold what storage holds. -/
def Clean (h : HQ) (st : Nat → Nat) : Prop :=
  ∀ i, h.live i = true → (h.heap i).mapped = true → (h.heap i).inq = false → (h.heap i).data = st (h.heap i).key

theorem cur_some {h : HQ} (o : Ok h) (st : Nat → Nat) {i k : Nat} (hl : h.live i = true)
    (hm : (h.heap i).mapped = true) (hk : (h.heap i).key = k) : curOf h st k = (h.heap i).data := by
  unfold curOf; rw [(find_some o).mpr ⟨hl, hm, hk⟩]

theorem cur_none {h : HQ} (o : Ok h) (st : Nat → Nat) {k : Nat}
    (hn : ∀ i, h.live i = true → (h.heap i).mapped = true → (h.heap i).key ≠ k) : curOf h st k = st k := by
  unfold curOf; rw [(find_none o).mpr hn]

/-- The content of a key depends on the elements of that key. -/
theorem cur_at {h h' : HQ} (o : Ok h) (o' : Ok h') (st : Nat → Nat) (k : Nat)
    (hf : ∀ j, h.live j = true → (h.heap j).mapped = true → (h.heap j).key = k →
      h'.live j = true ∧ (h'.heap j).mapped = true ∧ (h'.heap j).key = k ∧ (h'.heap j).data = (h.heap j).data)
    (hb : ∀ j, h'.live j = true → (h'.heap j).mapped = true → (h'.heap j).key = k →
      h.live j = true ∧ (h.heap j).mapped = true ∧ (h.heap j).key = k) :
    curOf h' st k = curOf h st k := by
  cases hx : h.find k with
  | some i =>
    obtain ⟨a, b, c⟩ := (find_some o).mp hx
    obtain ⟨a', b', c', d'⟩ := hf i a b c
    rw [cur_some o st a b c, cur_some o' st a' b' c', d']
  | none =>
    have hn := (find_none o).mp hx
    rw [cur_none o st hn, cur_none o' st]
    intro j a b c
    obtain ⟨a', b', c'⟩ := hb j a b c
    exact hn j a' b' c'

theorem cur_maint {h h' : HQ} (o : Ok h) (m : Maint h h') {st : Nat → Nat} (cl : Clean h st) (k : Nat) :
    curOf h' st k = curOf h st k := by
  cases hx : h.find k with
  | none =>
    have hn := (find_none o).mp hx
    rw [cur_none o st hn, cur_none m.ok st]
    intro j a b c
    rw [(m.heap j a).mapped] at b
    rw [(m.heap j a).key] at c
    exact hn j (m.live j a) b c
  | some i =>
    obtain ⟨a, b, c⟩ := (find_some o).mp hx
    rw [cur_some o st a b c]
    cases hl : h'.live i with
    | true =>
      rw [cur_some m.ok st hl (by rw [(m.heap i hl).mapped]; exact b) (by rw [(m.heap i hl).key]; exact c),
        (m.heap i hl).data]
    | false =>
      have he := evictable_iff.mp (m.gone i a hl)
      rw [cl i a b he.2.2.1, c, cur_none m.ok st]
      intro j a' b' c'
      rw [(m.heap j a').mapped] at b'
      rw [(m.heap j a').key] at c'
      have := o.uniq j i (m.live j a') a b' b (c'.trans c.symm)
      rw [this, hl] at a'; cases a'

theorem clean_maint {h h' : HQ} (m : Maint h h') {st : Nat → Nat} (cl : Clean h st) : Clean h' st := by
  intro i hl
  have s := m.heap i hl
  rw [s.mapped, s.inq, s.data, s.key]
  exact cl i (m.live i hl)

/-! ### New elements -/

theorem create_heap (h : HQ) (k size : Nat) (b : Bool) (d : Nat) :
    ((h.create k size b d).heap h.next) =
      ⟨k, size, b, d, 0, false, 0, true, false, false, h.classOf b, 0, 0⟩ ∧
    (∀ j, j ≠ h.next → (h.create k size b d).heap j = h.heap j) := by
  unfold HQ.create HQ.storeIn
  refine ⟨?_, fun j hj => ?_⟩
  · simp
  · simp [hj]

theorem create_live (h : HQ) (k size : Nat) (b : Bool) (d : Nat) (j : Nat) :
    (h.create k size b d).live j = true ↔ j = h.next ∨ h.live j = true := by
  show (if j = h.next then true else h.live j) = true ↔ _
  by_cases hj : j = h.next
  · simp [hj]
  · simp [hj]

theorem ok_create {h : HQ} (o : Ok h) (k size : Nat) (b : Bool) (d : Nat) (hf : h.find k = none) :
    Ok (h.create k size b d) := by
  obtain ⟨hN, hO⟩ := create_heap h k size b d
  have hlive := create_live h k size b d
  have hn : h.live h.next = false := by
    cases hc : h.live h.next with
    | false => rfl
    | true => exact absurd (o.lt _ hc) (Nat.lt_irrefl _)
  have hne : ∀ j, h.live j = true → j ≠ h.next := fun j hj he => by rw [he, hn] at hj; cases hj
  have hnone := (find_none o).mp hf
  have hnl : h.next ∉ h.lru := fun hm => by have := (o.llive _).mp hm; rw [hn] at this; cases this
  have htb : ∀ s, (h.create k size b d).htbl s = if s = h.slot k then h.next :: h.htbl s else h.htbl s := by
    intro s
    show (if s = h.slot (if h.next = h.next then _ else h.heap h.next).key then _ else _) = _
    rw [if_pos rfl]
  have hnt : ∀ s, h.next ∉ h.htbl s := fun s hm => by have := ((o.tmem _ _).mp hm).1; rw [hn] at this; cases this
  have hslot : ∀ x, (h.create k size b d).slot x = h.slot x := fun _ => rfl
  have hnq : ∀ q, h.next ∉ h.dq q := fun q hm => by have := ((o.qmem _ _).mp hm).1; rw [hn] at this; cases this
  refine ⟨?_, ?_, ?_, ?_, ?_, ?_, ?_, o.qnodup, ?_, ?_, ?_, ?_, ?_, o.crash⟩
  · exact List.nodup_cons.mpr ⟨hnl, o.lnodup⟩
  · intro i
    rw [hlive]
    show i ∈ h.next :: h.lru ↔ _
    rw [List.mem_cons, o.llive]
  · intro i hi
    rcases (hlive i).mp hi with hi | hi
    · rw [hi]; exact Nat.lt_succ_self _
    · exact Nat.lt_succ_of_lt (o.lt i hi)
  · intro s
    rw [htb]
    split
    · exact List.nodup_cons.mpr ⟨hnt s, o.tnodup s⟩
    · exact o.tnodup s
  · intro s i
    rw [htb, hlive, hslot]
    by_cases hi : i = h.next
    · rw [hi, hN]
      constructor
      · intro hm
        refine ⟨Or.inl rfl, rfl, ?_⟩
        by_cases hs : s = h.slot k
        · exact hs.symm
        · rw [if_neg hs] at hm; exact absurd hm (hnt s)
      · rintro ⟨_, _, hs⟩
        rw [if_pos hs.symm]; exact List.mem_cons_self
    · rw [hO i hi]
      by_cases hs : s = h.slot k
      · rw [if_pos hs, List.mem_cons, o.tmem]; simp [hi]
      · rw [if_neg hs, o.tmem]; simp [hi]
  · intro i j hi hj
    rcases (hlive i).mp hi with hi' | hi'
    · rcases (hlive j).mp hj with hj' | hj'
      · exact fun _ _ _ => hi'.trans hj'.symm
      · rw [hi', hN, hO j (hne j hj')]
        exact fun _ b c => absurd c.symm (hnone j hj' b)
    · rcases (hlive j).mp hj with hj' | hj'
      · rw [hj', hN, hO i (hne i hi')]
        exact fun a _ c => absurd c (hnone i hi' a)
      · rw [hO i (hne i hi'), hO j (hne j hj')]; exact o.uniq i j hi' hj'
  · show h.size + 1 = ((h.next :: h.lru).filter fun i => ((h.create k size b d).heap i).mapped).length
    rw [List.filter_cons, hN, o.size]
    have : h.lru.filter (fun i => ((h.create k size b d).heap i).mapped) = h.lru.filter (fun i => (h.heap i).mapped) := by
      apply List.filter_congr
      intro j hj
      rw [hO j (hne j ((o.llive j).mp hj))]
    rw [this]
    rfl
  · intro q i
    rw [hlive]
    show i ∈ h.dq q ↔ _
    by_cases hi : i = h.next
    · rw [hi, hN]
      constructor
      · intro hm; exact absurd hm (hnq q)
      · rintro ⟨_, a, _⟩; cases a
    · rw [hO i hi, o.qmem]; simp [hi]
  · intro q
    show h.accum q = ((h.dq q).map fun i => ((h.create k size b d).heap i).size).sum
    have : ((h.dq q).map fun i => ((h.create k size b d).heap i).size) = (h.dq q).map fun i => (h.heap i).size := by
      apply List.map_congr_left
      intro j hj
      rw [hO j (hne j ((o.qmem q j).mp hj).1)]
    rw [this]; exact o.accum q
  · intro i hi
    rcases (hlive i).mp hi with hi' | hi'
    · rw [hi', hN]; exact fun _ => rfl
    · rw [hO i (hne i hi')]; exact o.dm i hi'
  · intro i hi
    rcases (hlive i).mp hi with hi' | hi'
    · rw [hi', hN]; exact fun a => by cases a
    · rw [hO i (hne i hi')]; exact o.fm i hi'
  · intro i w hi
    rcases (hlive i).mp hi with hi' | hi'
    · rw [hi', hN]; exact fun a => by cases a
    · rw [hO i (hne i hi')]
      intro a c
      have := o.owner i w hi' a c
      exact ⟨(hlive w).mpr (Or.inr this.1), by rw [hO w (hne w this.1)]; exact this.2⟩

/-! ### Changes -/

theorem ok_dirtify {h : HQ} (o : Ok h) {i : Nat} (owner : Option Nat) (hl : h.live i = true)
    (hm : (h.heap i).mapped = true)
    (hw : match owner with
      | some w => h.live w = true ∧ (h.heap w).isInode = true
      | none => ∀ w, (h.heap i).dq = .own w → h.live w = true ∧ (h.heap w).isInode = true) :
    Ok (h.dirtify i owner) := by
  unfold HQ.dirtify
  by_cases hq : (h.heap i).inq = true
  · rw [if_pos hq]; exact o
  · rw [if_neg hq]
    cases owner with
    | none => exact ok_enqueue o hl hm hw
    | some w =>
      have hq' : (h.heap i).inq = false := by simpa using hq
      have o1 : Ok (h.setDq i (.own w)) := by
        have o2 := ok_upd o i (fun e => { e with dq := .own w }) rfl rfl rfl rfl (o.fm i hl) rfl
          (fun hc => absurd hc hq)
        unfold HQ.setDq
        have hc : (h.crash || (h.heap i).inq) = (h.upd i fun e => { e with dq := .own w }).crash := by
          rw [hq', Bool.or_false]; rfl
        rw [hc]; exact o2
      have hi : (h.setDq i (.own w)).heap i = { h.heap i with dq := .own w } := if_pos rfl
      refine ok_enqueue o1 hl (by rw [hi]; exact hm) ?_
      intro x hx
      rw [hi] at hx
      cases hx
      refine ⟨hw.1, ?_⟩
      show (if w = i then { h.heap w with dq := Dq.own w } else h.heap w).isInode = true
      split <;> exact hw.2

/-- What dirtify does to elements. -/
theorem dirtify_heap (h : HQ) (i j : Nat) (owner : Option Nat) :
    ((h.dirtify i owner).heap j).key = (h.heap j).key ∧ ((h.dirtify i owner).heap j).size = (h.heap j).size ∧
    ((h.dirtify i owner).heap j).isInode = (h.heap j).isInode ∧ ((h.dirtify i owner).heap j).data = (h.heap j).data ∧
    ((h.dirtify i owner).heap j).refcnt = (h.heap j).refcnt ∧ ((h.dirtify i owner).heap j).pinned = (h.heap j).pinned ∧
    ((h.dirtify i owner).heap j).nopen = (h.heap j).nopen ∧ ((h.dirtify i owner).heap j).mapped = (h.heap j).mapped ∧
    ((h.dirtify i owner).heap j).inq = (if j = i then true else (h.heap j).inq) ∧ (h.dirtify i owner).live = h.live ∧
    (h.dirtify i owner).vkind = h.vkind := by
  unfold HQ.dirtify
  by_cases hq : (h.heap i).inq = true
  · rw [if_pos hq]
    refine ⟨rfl, rfl, rfl, rfl, rfl, rfl, rfl, rfl, ?_, rfl, rfl⟩
    by_cases hj : j = i
    · rw [if_pos hj, hj]; exact hq
    · rw [if_neg hj]
  · rw [if_neg hq]
    cases owner with
    | none =>
      unfold HQ.enqueue
      rw [if_neg hq]
      dsimp only
      by_cases hj : j = i
      · simp [hj]
      · simp [hj]
    | some w =>
      have hq2 : ¬ ((h.setDq i (.own w)).heap i).inq = true := by
        show ¬ (if i = i then { h.heap i with dq := Dq.own w } else h.heap i).inq = true
        rw [if_pos rfl]; exact hq
      unfold HQ.enqueue
      dsimp only
      rw [if_neg hq2]
      unfold HQ.setDq HQ.upd
      dsimp only
      by_cases hj : j = i
      · simp [hj]
      · simp [hj]

end Silofs.Lcache
