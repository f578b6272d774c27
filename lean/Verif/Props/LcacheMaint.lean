import Verif.Props.LcacheInv
/-
Making room: eviction, relaxing and dropping take away only elements which nobody uses, and change
nothing about the others but the order of lists.
-/
set_option linter.unusedSimpArgs false
namespace Silofs.Lcache

/-- From `h` to `h'` some unused elements have gone; everything else is as it was. -/
structure Maint (h h' : HQ) : Prop where
  ok : Ok h'
  vkind : h'.vkind = h.vkind
  next : h'.next = h.next
  dq : h'.dq = h.dq
  accum : h'.accum = h.accum
  live : ∀ i, h'.live i = true → h.live i = true
  heap : ∀ i, h'.live i = true → Same (h.heap i) (h'.heap i)
  gone : ∀ i, h.live i = true → h'.live i = false → h.evictable i = true

theorem Maint.refl {h : HQ} (o : Ok h) : Maint h h :=
  ⟨o, rfl, rfl, rfl, rfl, fun _ a => a, fun _ _ => Same.refl _, fun i a b => by rw [a] at b; cases b⟩

theorem evictable_same {h h' : HQ} {i : Nat} (s : Same (h.heap i) (h'.heap i)) (d : h'.dq = h.dq) :
    h'.evictable i = h.evictable i := by
  unfold HQ.evictable; rw [s.isInode, s.nopen, s.pinned, s.inq, s.refcnt, d]

theorem Maint.trans {a b c : HQ} (h : Maint a b) (g : Maint b c) : Maint a c where
  ok := g.ok
  vkind := g.vkind.trans h.vkind
  next := g.next.trans h.next
  dq := g.dq.trans h.dq
  accum := g.accum.trans h.accum
  live i hi := h.live i (g.live i hi)
  heap i hi := (h.heap i (g.live i hi)).trans (g.heap i hi)
  gone i hi hn := by
    cases hb : b.live i with
    | false => exact h.gone i hi hb
    | true => rw [← evictable_same (h.heap i hb) h.dq]; exact g.gone i hb hn

theorem Reord.maint {h h' : HQ} (r : Reord h h') (o : Ok h) : Maint h h' :=
  ⟨r.ok o, r.vkind, r.next, r.dq, r.accum, fun i hi => by rw [r.live] at hi; exact hi, fun i _ => r.heap i,
   fun i a b => by rw [r.live, a] at b; cases b⟩

theorem evictable_iff {h : HQ} {i : Nat} : h.evictable i = true ↔
    ((h.heap i).isInode = true → (h.heap i).nopen = 0 ∧ h.dq (.own i) = []) ∧ (h.heap i).pinned = false ∧
    (h.heap i).inq = false ∧ (h.heap i).refcnt = 0 := by
  unfold HQ.evictable
  by_cases hi : (h.heap i).isInode = true
  · rw [if_pos hi]
    simp only [Bool.and_eq_true, decide_eq_true_eq, List.isEmpty_iff, Bool.not_eq_true', hi, true_implies]
  · rw [if_neg hi]
    have hi' : (h.heap i).isInode = false := by simpa using hi
    simp [hi']

/-- In use is the opposite of evictable. -/
theorem inUse_iff {h : HQ} {i : Nat} : h.InUse i ↔ h.evictable i = false := by
  have e : (∃ j, j ∈ h.dq (.own i)) ↔ h.dq (.own i) ≠ [] := by
    cases h.dq (.own i) with
    | nil => simp
    | cons a l => simp
  have hb : h.evictable i = false ↔ ¬ h.evictable i = true := by simp
  rw [hb, evictable_iff]
  unfold HQ.InUse
  rw [e]
  by_cases h1 : (h.heap i).isInode = true <;> by_cases h2 : (h.heap i).pinned = true <;>
    by_cases h3 : (h.heap i).inq = true <;> by_cases h4 : (h.heap i).refcnt = 0 <;>
    by_cases h5 : (h.heap i).nopen = 0 <;> by_cases h6 : h.dq (.own i) = [] <;> simp [*] <;> omega

/-- An inode's queue is empty if it is no inode. -/
theorem own_nil {h : HQ} (o : Ok h) {i : Nat} (hi : (h.heap i).isInode = false) : h.dq (.own i) = [] := by
  cases hq : h.dq (.own i) with
  | nil => rfl
  | cons a l =>
    have hm : a ∈ h.dq (.own i) := by rw [hq]; exact List.mem_cons_self
    have h1 := (o.qmem _ _).mp hm
    have := (o.owner a i h1.1 h1.2.1 h1.2.2).2
    rw [hi] at this; cases this

theorem removeFree_facts (h : HQ) (i : Nat) :
    ((h.remove i).free i).vkind = h.vkind ∧ ((h.remove i).free i).next = h.next ∧
    ((h.remove i).free i).dq = h.dq ∧ ((h.remove i).free i).accum = h.accum ∧
    (∀ j, ((h.remove i).free i).live j = if j = i then false else h.live j) ∧
    (∀ j, j ≠ i → ((h.remove i).free i).heap j = h.heap j) := by
  obtain ⟨e1, e2, e3, e4, e5, e6, e7, e8, e9⟩ := unmap_rest h i
  refine ⟨e6, e2, e3, e5, ?_, ?_⟩
  · intro j
    show (if j = i then false else (h.unmap i).live j) = _
    rw [e1]
  · intro j hj
    show (h.unmap i).heap j = _
    rw [unmap_heap, if_neg hj]

theorem undirtify_id {h : HQ} {i : Nat} (hq : (h.heap i).inq = false) : h.undirtify i = h := by
  unfold HQ.undirtify; rw [if_neg (by rw [hq]; decide)]

/-- What removal of a vnode sets on the element which is then free. -/
theorem upd_free_ok {h : HQ} {i : Nat} (f : Elem → Elem) (hd : h.live i = true)
    (hr : (f (h.heap i)).refcnt = (h.heap i).refcnt) (hq : (f (h.heap i)).inq = (h.heap i).inq)
    (o : Ok (h.free i)) : Ok ((h.upd i f).free i) := by
  have hlv : ∀ j, (h.free i).live j = true → j ≠ i := by
    intro j hj he
    have : (if j = i then false else h.live j) = true := hj
    rw [if_pos he] at this; cases this
  have hh : ∀ j, (h.free i).live j = true → ((h.upd i f).free i).heap j = (h.free i).heap j := by
    intro j hj
    show (if j = i then f (h.heap j) else h.heap j) = h.heap j
    rw [if_neg (hlv j hj)]
  have hcr : ((h.upd i f).free i).crash = (h.free i).crash := by
    show (h.crash || (!h.live i || (decide (((h.upd i f).heap i).refcnt ≠ 0) || (((h.upd i f).heap i).inq ||
      !(h.dq (.own i)).isEmpty)))) = _
    have e : (h.upd i f).heap i = f (h.heap i) := if_pos rfl
    rw [e, hr, hq]; rfl
  refine ⟨o.lnodup, o.llive, o.lt, o.tnodup, ?_, ?_, ?_, o.qnodup, ?_, ?_, ?_, ?_, ?_, ?_⟩
  · intro s j
    rw [show j ∈ ((h.upd i f).free i).htbl s ↔ j ∈ (h.free i).htbl s from Iff.rfl, o.tmem]
    show (h.free i).live j = true ∧ _ ↔ (h.free i).live j = true ∧ _
    constructor
    · rintro ⟨a, b⟩; rw [hh j a]; exact ⟨a, b⟩
    · rintro ⟨a, b⟩; rw [hh j a] at b; exact ⟨a, b⟩
  · intro a b h1 h2
    rw [hh a h1, hh b h2]; exact o.uniq a b h1 h2
  · have : ((h.upd i f).free i).lru.filter (fun j => (((h.upd i f).free i).heap j).mapped) =
        (h.free i).lru.filter (fun j => ((h.free i).heap j).mapped) := by
      apply List.filter_congr
      intro j hj
      rw [hh j ((o.llive j).mp hj)]
    rw [this]; exact o.size
  · intro q j
    rw [show j ∈ ((h.upd i f).free i).dq q ↔ j ∈ (h.free i).dq q from Iff.rfl, o.qmem]
    show (h.free i).live j = true ∧ _ ↔ (h.free i).live j = true ∧ _
    constructor
    · rintro ⟨a, b⟩; rw [hh j a]; exact ⟨a, b⟩
    · rintro ⟨a, b⟩; rw [hh j a] at b; exact ⟨a, b⟩
  · intro q
    have : ((((h.upd i f).free i).dq q).map fun j => (((h.upd i f).free i).heap j).size) =
        ((h.free i).dq q).map fun j => ((h.free i).heap j).size := by
      apply List.map_congr_left
      intro j hj
      rw [hh j ((o.qmem q j).mp hj).1]
    rw [this]; exact o.accum q
  · intro j hj; rw [hh j hj]; exact o.dm j hj
  · intro j hj; rw [hh j hj]; exact o.fm j hj
  · intro j w hj; rw [hh j hj]
    intro a b
    have := o.owner j w hj a b
    rw [hh w this.1]; exact this
  · rw [hcr]; exact o.crash

/-- Eviction of an element nobody needs. -/
theorem evict_spec {h : HQ} (o : Ok h) {i : Nat} (hl : h.live i = true) (hq : (h.heap i).inq = false)
    (hr : (h.heap i).refcnt = 0) (hown : h.dq (.own i) = []) :
    Ok (h.evict i) ∧ (h.evict i).vkind = h.vkind ∧ (h.evict i).next = h.next ∧
    (h.evict i).dq = h.dq ∧ (h.evict i).accum = h.accum ∧
    (∀ j, (h.evict i).live j = if j = i then false else h.live j) ∧
    (∀ j, j ≠ i → (h.evict i).heap j = h.heap j) ∧ (h.evict i).lru = h.lru.erase i := by
  have o1 := ok_removeFree o hl hq hr hown
  obtain ⟨f1, f2, f3, f4, f5, f6⟩ := removeFree_facts h i
  obtain ⟨e1, e2, e3, e4, e5, e6, e7, e8, e9⟩ := unmap_rest h i
  have hlru : (h.remove i).lru = h.lru.erase i := by
    show (h.unmap i).lru.erase i = _
    rw [e4]
  unfold HQ.evict
  by_cases hv : h.vkind = true
  · rw [if_pos hv]
    refine ⟨upd_free_ok _ ?_ rfl rfl o1, f1, f2, f3, f4, f5, ?_, hlru⟩
    · show (h.unmap i).live i = true
      rw [e1]; exact hl
    · intro j hj
      show (if j = i then _ else (h.remove i).heap j) = _
      rw [if_neg hj]
      exact f6 j hj
  · rw [if_neg hv, undirtify_id hq]
    exact ⟨o1, f1, f2, f3, f4, f5, f6, hlru⟩

theorem maint_evict {h : HQ} (o : Ok h) {i : Nat} (hl : h.live i = true) (he : h.evictable i = true) :
    Maint h (h.evict i) := by
  obtain ⟨a, b, c, d⟩ := evictable_iff.mp he
  have hown : h.dq (.own i) = [] := by
    cases hi : (h.heap i).isInode with
    | true => exact (a hi).2
    | false => exact own_nil o hi
  obtain ⟨g1, g2, g3, g4, g5, g6, g7, _⟩ := evict_spec o hl c d hown
  refine ⟨g1, g2, g3, g4, g5, ?_, ?_, ?_⟩
  · intro j hj
    rw [g6] at hj
    by_cases hji : j = i
    · rw [if_pos hji] at hj; cases hj
    · rw [if_neg hji] at hj; exact hj
  · intro j hj
    rw [g6] at hj
    by_cases hji : j = i
    · rw [if_pos hji] at hj; cases hj
    · rw [g7 j hji]; exact Same.refl _
  · intro j hj hn
    rw [g6] at hn
    by_cases hji : j = i
    · rw [hji]; exact he
    · rw [if_neg hji, hj] at hn; cases hn

theorem maint_evictOrRelru {h : HQ} (o : Ok h) {i : Nat} (hl : h.live i = true) : Maint h (h.evictOrRelru i) := by
  unfold HQ.evictOrRelru
  by_cases he : h.evictable i = true
  · rw [if_pos he]; exact maint_evict o hl he
  · rw [if_neg he]; exact (reord_promote true o hl).maint o

theorem maint_shrinkLoop (now : Bool) : ∀ (n i ev : Nat) (h : HQ), Ok h → Maint h (HQ.shrinkLoop now n i ev h).2
  | 0, _, _, h, o => Maint.refl o
  | n + 1, i, ev, h, o => by
    unfold HQ.shrinkLoop
    cases hx : h.lru.getLast? with
    | none => exact Maint.refl o
    | some x =>
      have hl : h.live x = true := (o.llive x).mp (List.mem_of_getLast? hx)
      have m := maint_evictOrRelru o hl
      dsimp only
      by_cases he : h.evictable x = true
      · rw [if_pos he]; exact m.trans (maint_shrinkLoop now n _ _ _ m.ok)
      · rw [if_neg he]
        by_cases hs : (if h.vkind then !now && (decide (i ≠ 0) || decide (ev ≠ 0)) else !now) = true
        · rw [if_pos hs]; exact m
        · rw [if_neg hs]; exact m.trans (maint_shrinkLoop now n _ _ _ m.ok)

theorem maint_shrink {h : HQ} (o : Ok h) (cnt : Nat) (now : Bool) : Maint h (h.shrink cnt now).2 :=
  maint_shrinkLoop now _ _ _ h o

theorem prevOf_mem : ∀ (l : List Nat) (i j : Nat), prevOf l i = some j → j ∈ l
  | [], _, _, h => by simp [prevOf] at h
  | [_], _, _, h => by simp [prevOf] at h
  | a :: b :: l, i, j, h => by
    unfold prevOf at h
    split at h
    · cases h; exact List.mem_cons_self
    · exact List.mem_cons_of_mem _ (prevOf_mem (b :: l) i j h)

/-! ### Both maps -/

/-- Both maps together. -/
structure MaintS (s s' : St) : Prop where
  v : Maint s.v s'.v
  u : Maint s.u s'.u

structure OkS (s : St) : Prop where
  v : Ok s.v
  u : Ok s.u

theorem MaintS.refl {s : St} (o : OkS s) : MaintS s s := ⟨Maint.refl o.v, Maint.refl o.u⟩
theorem MaintS.trans {a b c : St} (h : MaintS a b) (g : MaintS b c) : MaintS a c := ⟨h.v.trans g.v, h.u.trans g.u⟩
theorem MaintS.ok {a b : St} (h : MaintS a b) : OkS b := ⟨h.v.ok, h.u.ok⟩

theorem findEvictable_some {h : HQ} (o : Ok h) {i : Nat} (hf : h.findEvictable = some i) :
    h.live i = true ∧ h.evictable i = true := by
  unfold HQ.findEvictable at hf
  have h1 := List.mem_of_find?_eq_some hf
  have h2 := List.find?_some hf
  have h3 := List.mem_of_mem_take h1
  rw [List.mem_reverse] at h3
  exact ⟨(o.llive i).mp h3, h2⟩

theorem maint_evictSome {s : St} (o : OkS s) : MaintS s s.evictSome := by
  unfold St.evictSome
  cases hv : s.v.findEvictable with
  | none =>
    cases hu : s.u.findEvictable with
    | none => exact ⟨maint_shrink o.v _ _, maint_shrink o.u _ _⟩
    | some j =>
      have := findEvictable_some o.u hu
      exact ⟨Maint.refl o.v, maint_evict o.u this.1 this.2⟩
  | some i =>
    have hi := findEvictable_some o.v hv
    cases hu : s.u.findEvictable with
    | none => exact ⟨maint_evict o.v hi.1 hi.2, Maint.refl o.u⟩
    | some j =>
      have := findEvictable_some o.u hu
      exact ⟨maint_evict o.v hi.1 hi.2, maint_evict o.u this.1 this.2⟩

theorem maint_require {s : St} (o : OkS s) (fails : Nat) : MaintS s (s.require fails).2 := by
  have m1 := maint_evictSome o
  have m2 := maint_evictSome m1.ok
  have m3 := maint_evictSome m2.ok
  have m4 := maint_evictSome m3.ok
  unfold St.require
  split
  · exact MaintS.refl o
  · exact m1
  · exact m1.trans m2
  · exact (m1.trans m2).trans m3
  · exact ((m1.trans m2).trans m3).trans m4

theorem maint_relaxLoop (now : Bool) (cnt : Nat) : ∀ (n i : Nat) (s : St) (total : Nat), OkS s →
    MaintS s (St.relaxLoop now cnt n i s total).1
  | 0, _, s, _, o => MaintS.refl o
  | n + 1, i, s, total, o => by
    have mv := maint_shrink o.v (i + 1) now
    have mu := maint_shrink o.u cnt now
    have m1 : MaintS s ⟨(s.v.shrink (i + 1) now).2, (s.u.shrink cnt now).2⟩ := ⟨mv, mu⟩
    have m2 : MaintS s ⟨(s.v.shrink (i + 1) now).2, s.u⟩ := ⟨mv, Maint.refl o.u⟩
    unfold St.relaxLoop
    split
    · split
      · exact m1
      · exact m1.trans (maint_relaxLoop now cnt n _ _ _ m1.ok)
    · exact m2.trans (maint_relaxLoop now cnt n _ _ _ m2.ok)

theorem maint_relaxOverpop {s : St} (o : OkS s) : MaintS s s.relaxOverpop := by
  refine ⟨?_, ?_⟩
  · show Maint s.v (if s.v.overpop > 0 then _ else s.v)
    split
    · exact maint_shrink o.v _ _
    · exact Maint.refl o.v
  · show Maint s.u (if s.u.overpop > 0 then _ else s.u)
    split
    · exact maint_shrink o.u _ _
    · exact Maint.refl o.u

theorem maint_relax {s : St} (o : OkS s) (pct : Nat) (f : RFlags) : MaintS s (s.relax pct f) := by
  have m := maint_relaxLoop f.now (if f.now ∨ calcNiter pct f > 1 then 2 else 1) (calcNiter pct f) 0 s 0 o
  exact m.trans (maint_relaxOverpop m.ok)

/-! ### Dropping everything -/

/-- The LRU queue after an element was evicted or moved to the front. -/
theorem evictOrRelru_lru {h : HQ} (o : Ok h) {i : Nat} (hl : h.live i = true) :
    (h.evictable i = true ∧ (h.evictOrRelru i).lru = h.lru.erase i) ∨
    (h.evictable i = false ∧ (h.evictOrRelru i).lru = i :: h.lru.erase i) ∨
    (h.evictable i = false ∧ h.lru.head? = some i ∧ (h.evictOrRelru i).lru = h.lru) := by
  unfold HQ.evictOrRelru
  by_cases he : h.evictable i = true
  · rw [if_pos he]
    obtain ⟨a, b, c, d⟩ := evictable_iff.mp he
    have hown : h.dq (.own i) = [] := by
      cases hi : (h.heap i).isInode with
      | true => exact (a hi).2
      | false => exact own_nil o hi
    exact Or.inl ⟨he, (evict_spec o hl c d hown).2.2.2.2.2.2.2⟩
  · rw [if_neg he]
    have he' : h.evictable i = false := by simpa using he
    have hp : (h.promote i true).lru = (h.promoteLru i true).lru := by
      unfold HQ.promote
      split
      · unfold HQ.promoteHlnk; split <;> rfl
      · rfl
    rw [hp]
    unfold HQ.promoteLru
    by_cases hf : h.lru.head? = some i
    · rw [if_neg (fun hc => hc.1 hf)]; exact Or.inr (Or.inr ⟨he', hf, rfl⟩)
    · rw [if_pos ⟨hf, Or.inl rfl⟩]; exact Or.inr (Or.inl ⟨he', rfl⟩)

theorem prevOf_last : ∀ (a : List Nat) (i : Nat), i ∉ a → prevOf (a ++ [i]) i = a.getLast?
  | [], i, _ => by simp [prevOf]
  | [x], i, _ => by simp [prevOf]
  | x :: y :: a, i, hn => by
    have h1 : y ≠ i := fun h => hn (by rw [h]; simp)
    show prevOf (x :: y :: (a ++ [i])) i = _
    unfold prevOf
    rw [if_neg h1]
    have := prevOf_last (y :: a) i (fun h => hn (List.mem_cons_of_mem _ h))
    rw [show y :: (a ++ [i]) = (y :: a) ++ [i] from rfl, this]
    simp

theorem erase_last {a : List Nat} {i : Nat} (h : i ∉ a) : (a ++ [i]).erase i = a := by
  rw [List.erase_append_right _ h]; simp

/-- The walk from the back: what is in front has been looked at and is in use. -/
theorem riterEvict_spec : ∀ (n : Nat) (h : HQ) (itr : Option Nat) (a rest : List Nat), Ok h → h.lru = a ++ rest →
    n = rest.length → (rest ≠ [] → itr = rest.getLast?) → (∀ x, x ∈ a → h.evictable x = false) →
    Maint h (HQ.riterEvict n itr h) ∧
      ∀ x, (HQ.riterEvict n itr h).live x = true → (HQ.riterEvict n itr h).evictable x = false
  | 0, h, itr, a, rest, o, hlru, hn, _, ha => by
    have hr : rest = [] := List.eq_nil_of_length_eq_zero hn.symm
    have e : HQ.riterEvict 0 itr h = h := by cases itr <;> rfl
    rw [e]
    refine ⟨Maint.refl o, fun x hx => ha x ?_⟩
    have := (o.llive x).mpr hx
    rw [hlru, hr, List.append_nil] at this
    exact this
  | n + 1, h, itr, a, rest, o, hlru, hn, hit, ha => by
    have hne : rest ≠ [] := fun h0 => by rw [h0] at hn; cases hn
    have hsplit : ∃ r i, rest = r ++ [i] := ⟨rest.dropLast, rest.getLast hne, (List.dropLast_concat_getLast hne).symm⟩
    obtain ⟨r, i, hri⟩ := hsplit
    have hit' : itr = some i := by rw [hit hne, hri]; simp
    have hlru2 : h.lru = (a ++ r) ++ [i] := by rw [hlru, hri, List.append_assoc]
    have hni : i ∉ a ++ r := by
      have := o.lnodup
      rw [hlru2, List.nodup_append] at this
      intro hm
      exact this.2.2 i hm i (by simp) rfl
    have hl : h.live i = true := (o.llive i).mp (by rw [hlru2]; simp)
    have hlen : n = r.length := by rw [hri] at hn; simp at hn; exact hn
    have m := maint_evictOrRelru o hl
    have hprev : prevOf h.lru i = (a ++ r).getLast? := by rw [hlru2]; exact prevOf_last _ _ hni
    have hit2 : r ≠ [] → prevOf h.lru i = r.getLast? := by
      intro hr
      rw [hprev, List.getLast?_append]
      cases hg : r.getLast? with
      | none => exact absurd (List.getLast?_eq_none_iff.mp hg) hr
      | some x => rfl
    have hev : ∀ x, (h.evictOrRelru i).live x = true → (h.evictOrRelru i).evictable x = h.evictable x :=
      fun x hx => evictable_same (m.heap x hx) m.dq
    have herase : h.lru.erase i = a ++ r := by rw [hlru2]; exact erase_last hni
    have key : ∃ a', (h.evictOrRelru i).lru = a' ++ r ∧ ∀ x, x ∈ a' → h.evictable x = false := by
      rcases evictOrRelru_lru o hl with ⟨_, g⟩ | ⟨he, g⟩ | ⟨he, hf, g⟩
      · exact ⟨a, by rw [g, herase], ha⟩
      · refine ⟨i :: a, by rw [g, herase]; rfl, ?_⟩
        intro x hx
        rcases List.mem_cons.mp hx with hx | hx
        · rw [hx]; exact he
        · exact ha x hx
      · have har : a ++ r = [] := by
          cases hc : a ++ r with
          | nil => rfl
          | cons y l =>
            rw [hlru2, hc] at hf
            have : y = i := by simpa using hf
            exact absurd (by rw [hc, this]; simp) hni
        have hr : r = [] := (List.append_eq_nil_iff.mp har).2
        refine ⟨[i], by rw [g, hlru2, har, hr]; rfl, ?_⟩
        intro x hx
        rw [List.mem_singleton] at hx
        rw [hx]; exact he
    obtain ⟨a', hl', ha'⟩ := key
    have ih := riterEvict_spec n (h.evictOrRelru i) (prevOf h.lru i) a' r m.ok hl' hlen hit2 (by
      intro x hx
      rw [hev x ((m.ok.llive x).mp (by rw [hl']; exact List.mem_append_left _ hx))]
      exact ha' x hx)
    rw [hit']
    exact ⟨m.trans ih.1, ih.2⟩

theorem dropEvictable_spec {h : HQ} (o : Ok h) :
    Maint h h.dropEvictable ∧ ∀ x, h.dropEvictable.live x = true → h.dropEvictable.evictable x = false :=
  riterEvict_spec _ h _ [] h.lru o rfl rfl (fun _ => rfl) (fun x hx => by cases hx)

theorem maint_dropOnce {s : St} (o : OkS s) : MaintS s s.dropOnce :=
  ⟨(dropEvictable_spec o.v).1, (dropEvictable_spec o.u).1⟩

theorem maint_dropLoop : ∀ (n pre : Nat) (s : St), OkS s → MaintS s (s.dropLoop n pre)
  | 0, _, s, o => MaintS.refl o
  | n + 1, pre, s, o => by
    show MaintS s (if s.v.size + s.u.size = pre then s else St.dropLoop n (s.v.size + s.u.size) s.dropOnce)
    split
    · exact MaintS.refl o
    · exact (maint_dropOnce o).trans (maint_dropLoop n _ _ (maint_dropOnce o).ok)

theorem maint_drop {s : St} (o : OkS s) : MaintS s s.drop := maint_dropLoop 10 0 s o

/-- Everything that can go has gone. -/
def AllUsed (h : HQ) : Prop := ∀ x, h.live x = true → h.evictable x = false

theorem allUsed_maint {h h' : HQ} (a : AllUsed h) (m : Maint h h') : AllUsed h' := by
  intro x hx
  rw [evictable_same (m.heap x hx) m.dq]
  exact a x (m.live x hx)

theorem drop_all {s : St} (o : OkS s) (hs : s.v.size + s.u.size ≠ 0) : AllUsed s.drop.v ∧ AllUsed s.drop.u := by
  have e : s.drop = St.dropLoop 9 (s.v.size + s.u.size) s.dropOnce := by
    show (if s.v.size + s.u.size = 0 then s else _) = _
    rw [if_neg hs]
  rw [e]
  have m := maint_dropLoop 9 (s.v.size + s.u.size) s.dropOnce (maint_dropOnce o).ok
  exact ⟨allUsed_maint (dropEvictable_spec o.v).2 m.v, allUsed_maint (dropEvictable_spec o.u).2 m.u⟩

end Silofs.Lcache
