import Verif.Spec.Lcache
/-
Invariant of the in-memory cache: hash table, LRU queue, queues of changed objects and their counters
tell the same; every primitive keeps it.
-/
set_option linter.unusedSimpArgs false
namespace Silofs.Lcache

structure Ok (h : HQ) : Prop where
  lnodup : h.lru.Nodup
  llive : ∀ i, i ∈ h.lru ↔ h.live i = true
  lt : ∀ i, h.live i = true → i < h.next
  tnodup : ∀ s, (h.htbl s).Nodup
  tmem : ∀ s i, i ∈ h.htbl s ↔ h.live i = true ∧ (h.heap i).mapped = true ∧ h.slot (h.heap i).key = s
  uniq : ∀ i j, h.live i = true → h.live j = true → (h.heap i).mapped = true →
    (h.heap j).mapped = true → (h.heap i).key = (h.heap j).key → i = j
  size : h.size = (h.lru.filter fun i => (h.heap i).mapped).length
  qnodup : ∀ q, (h.dq q).Nodup
  qmem : ∀ q i, i ∈ h.dq q ↔ h.live i = true ∧ (h.heap i).inq = true ∧ (h.heap i).dq = q
  accum : ∀ q, h.accum q = ((h.dq q).map fun i => (h.heap i).size).sum
  dm : ∀ i, h.live i = true → (h.heap i).inq = true → (h.heap i).mapped = true
  fm : ∀ i, h.live i = true → (h.heap i).forgot = true → (h.heap i).mapped = false
  owner : ∀ i o, h.live i = true → (h.heap i).inq = true → (h.heap i).dq = .own o →
    h.live o = true ∧ (h.heap o).isInode = true
  crash : h.crash = false

/-- Two elements which differ at most in their counts of hits. -/
structure Same (e e' : Elem) : Prop where
  key : e'.key = e.key
  size : e'.size = e.size
  isInode : e'.isInode = e.isInode
  data : e'.data = e.data
  refcnt : e'.refcnt = e.refcnt
  pinned : e'.pinned = e.pinned
  nopen : e'.nopen = e.nopen
  mapped : e'.mapped = e.mapped
  forgot : e'.forgot = e.forgot
  inq : e'.inq = e.inq
  dq : e'.dq = e.dq

theorem Same.refl (e : Elem) : Same e e := ⟨rfl, rfl, rfl, rfl, rfl, rfl, rfl, rfl, rfl, rfl, rfl⟩

theorem Same.trans {a b c : Elem} (h : Same a b) (g : Same b c) : Same a c :=
  ⟨g.key.trans h.key, g.size.trans h.size, g.isInode.trans h.isInode, g.data.trans h.data,
   g.refcnt.trans h.refcnt, g.pinned.trans h.pinned, g.nopen.trans h.nopen, g.mapped.trans h.mapped,
   g.forgot.trans h.forgot, g.inq.trans h.inq, g.dq.trans h.dq⟩

/-- Nothing but the order of lists and the counts of hits differs. -/
structure Reord (h h' : HQ) : Prop where
  vkind : h'.vkind = h.vkind
  hash : h'.hash = h.hash
  nslots : h'.nslots = h.nslots
  heap : ∀ i, Same (h.heap i) (h'.heap i)
  live : h'.live = h.live
  next : h'.next = h.next
  htbl : ∀ s, (h'.htbl s).Perm (h.htbl s)
  size : h'.size = h.size
  lru : h'.lru.Perm h.lru
  dq : h'.dq = h.dq
  accum : h'.accum = h.accum
  crash : h'.crash = h.crash

theorem Reord.refl (h : HQ) : Reord h h :=
  ⟨rfl, rfl, rfl, fun _ => Same.refl _, rfl, rfl, fun _ => List.Perm.refl _, rfl, List.Perm.refl _, rfl, rfl, rfl⟩

theorem Reord.trans {a b c : HQ} (h : Reord a b) (g : Reord b c) : Reord a c :=
  ⟨g.vkind.trans h.vkind, g.hash.trans h.hash, g.nslots.trans h.nslots, fun i => (h.heap i).trans (g.heap i),
   g.live.trans h.live, g.next.trans h.next, fun s => (g.htbl s).trans (h.htbl s), g.size.trans h.size,
   g.lru.trans h.lru, g.dq.trans h.dq, g.accum.trans h.accum, g.crash.trans h.crash⟩

theorem Reord.slot {h h' : HQ} (r : Reord h h') (k : Nat) : h'.slot k = h.slot k := by
  unfold HQ.slot; rw [r.hash, r.nslots]

theorem Reord.ok {h h' : HQ} (r : Reord h h') (o : Ok h) : Ok h' where
  lnodup := r.lru.nodup_iff.mpr o.lnodup
  llive i := by rw [r.lru.mem_iff, r.live]; exact o.llive i
  lt i hi := by rw [r.live] at hi; rw [r.next]; exact o.lt i hi
  tnodup s := (r.htbl s).nodup_iff.mpr (o.tnodup s)
  tmem s i := by
    rw [(r.htbl s).mem_iff, r.live, (r.heap i).mapped, (r.heap i).key, r.slot]; exact o.tmem s i
  uniq i j := by
    rw [r.live, (r.heap i).mapped, (r.heap i).key, (r.heap j).mapped, (r.heap j).key]; exact o.uniq i j
  size := by
    rw [r.size, o.size]
    have e : (fun i => (h'.heap i).mapped) = fun i => (h.heap i).mapped := funext fun i => (r.heap i).mapped
    rw [e]
    exact ((r.lru.filter _).length_eq).symm
  qnodup q := by rw [r.dq]; exact o.qnodup q
  qmem q i := by rw [r.dq, r.live, (r.heap i).inq, (r.heap i).dq]; exact o.qmem q i
  accum q := by
    have e : (fun i => (h'.heap i).size) = fun i => (h.heap i).size := funext fun i => (r.heap i).size
    rw [r.accum, r.dq, e]; exact o.accum q
  dm i := by rw [r.live, (r.heap i).mapped, (r.heap i).inq]; exact o.dm i
  fm i := by rw [r.live, (r.heap i).mapped, (r.heap i).forgot]; exact o.fm i
  owner i w := by rw [r.live, (r.heap i).inq, (r.heap i).dq, (r.heap w).isInode]; exact o.owner i w
  crash := by rw [r.crash]; exact o.crash

/-! ### Look up -/

theorem find_some {h : HQ} (o : Ok h) {k i : Nat} :
    h.find k = some i ↔ h.live i = true ∧ (h.heap i).mapped = true ∧ (h.heap i).key = k := by
  constructor
  · intro hf
    unfold HQ.find at hf
    have h1 := List.mem_of_find?_eq_some hf
    have h2 := List.find?_some hf
    have h3 := (o.tmem _ _).mp h1
    exact ⟨h3.1, h3.2.1, of_decide_eq_true h2⟩
  · rintro ⟨h1, h2, h3⟩
    have hm : i ∈ h.htbl (h.slot k) := (o.tmem _ _).mpr ⟨h1, h2, by rw [h3]⟩
    cases hf : h.find k with
    | none =>
      unfold HQ.find at hf
      have := List.find?_eq_none.mp hf i hm
      simp [h3] at this
    | some j =>
      unfold HQ.find at hf
      have g1 := List.mem_of_find?_eq_some hf
      have g2 := List.find?_some hf
      have g2 := of_decide_eq_true g2
      have g3 := (o.tmem _ _).mp g1
      rw [o.uniq j i g3.1 h1 g3.2.1 h2 (g2.trans h3.symm)]

theorem find_none {h : HQ} (o : Ok h) {k : Nat} :
    h.find k = none ↔ ∀ i, h.live i = true → (h.heap i).mapped = true → (h.heap i).key ≠ k := by
  constructor
  · intro hf i h1 h2 h3
    rw [(find_some o).mpr ⟨h1, h2, h3⟩] at hf; cases hf
  · intro hn
    cases hf : h.find k with
    | none => rfl
    | some i => have := (find_some o).mp hf; exact absurd this.2.2 (hn i this.1 this.2.1)

/-! ### Reordering -/

theorem reord_upd (h : HQ) (i : Nat) (f : Elem → Elem) (hf : Same (h.heap i) (f (h.heap i))) :
    Reord h (h.upd i f) := by
  refine ⟨rfl, rfl, rfl, fun j => ?_, rfl, rfl, fun _ => List.Perm.refl _, rfl, List.Perm.refl _, rfl, rfl, rfl⟩
  show Same (h.heap j) (if j = i then f (h.heap j) else h.heap j)
  by_cases hj : j = i
  · rw [if_pos hj, hj]; exact hf
  · rw [if_neg hj]; exact Same.refl _

theorem reord_promoteLru (h : HQ) (i : Nat) (now : Bool) (hi : i ∈ h.lru) : Reord h (h.promoteLru i now) := by
  unfold HQ.promoteLru
  split
  · have r := reord_upd h i (fun e => { e with lruHit := 0 }) ⟨rfl, rfl, rfl, rfl, rfl, rfl, rfl, rfl, rfl, rfl, rfl⟩
    exact ⟨rfl, rfl, rfl, r.heap, rfl, rfl, r.htbl, rfl, (List.perm_cons_erase hi).symm, rfl, rfl, rfl⟩
  · exact reord_upd h i _ ⟨rfl, rfl, rfl, rfl, rfl, rfl, rfl, rfl, rfl, rfl, rfl⟩

theorem reord_toFront (h : HQ) (i : Nat) (hi : i ∈ h.htbl (h.slot (h.heap i).key)) : Reord h (h.toFront i) := by
  refine ⟨rfl, rfl, rfl, fun j => Same.refl _, rfl, rfl, fun s => ?_, rfl, List.Perm.refl _, rfl, rfl, rfl⟩
  show (if s = h.slot (h.heap i).key then i :: (h.htbl s).erase i else h.htbl s).Perm (h.htbl s)
  by_cases hs : s = h.slot (h.heap i).key
  · rw [if_pos hs, hs]; exact (List.perm_cons_erase hi).symm
  · rw [if_neg hs]

theorem reord_promoteHlnk (h : HQ) (i : Nat) (o : Ok h) (hl : h.live i = true) (hm : (h.heap i).mapped = true) :
    Reord h (h.promoteHlnk i) := by
  have r := reord_upd h i (fun e => { e with htbHit := e.htbHit + 1 }) ⟨rfl, rfl, rfl, rfl, rfl, rfl, rfl, rfl, rfl, rfl, rfl⟩
  unfold HQ.promoteHlnk
  split
  · refine r.trans (reord_toFront _ _ ?_)
    refine ((r.ok o).tmem _ _).mpr ⟨?_, ?_, rfl⟩
    · rw [r.live]; exact hl
    · rw [(r.heap i).mapped]; exact hm
  · exact r

theorem reord_promote {h : HQ} {i : Nat} (now : Bool) (o : Ok h) (hl : h.live i = true) : Reord h (h.promote i now) := by
  have r := reord_promoteLru h i now ((o.llive i).mpr hl)
  unfold HQ.promote
  split
  · rename_i hm
    exact r.trans (reord_promoteHlnk _ _ (r.ok o) (by rw [r.live]; exact hl) hm)
  · exact r

/-! ### Queues of changed objects -/

theorem sum_erase (f : Nat → Nat) : ∀ (l : List Nat) (i : Nat), i ∈ l →
    (l.map f).sum = f i + ((l.erase i).map f).sum
  | [], _, h => by cases h
  | a :: l, i, h => by
    by_cases ha : a = i
    · subst ha; simp
    · have hi : i ∈ l := by
        rcases List.mem_cons.mp h with h | h
        · exact absurd h.symm ha
        · exact h
      rw [List.erase_cons_tail (by simpa using ha)]
      have := sum_erase f l i hi
      simp only [List.map_cons, List.sum_cons, this]
      omega

theorem sum_congr {f g : Nat → Nat} {l : List Nat} (h : ∀ i, i ∈ l → f i = g i) : (l.map f).sum = (l.map g).sum := by
  rw [List.map_congr_left h]

theorem accum_ge {h : HQ} (o : Ok h) {i : Nat} (hl : h.live i = true) (hq : (h.heap i).inq = true) :
    (h.heap i).size ≤ h.accum (h.heap i).dq := by
  have hm : i ∈ h.dq (h.heap i).dq := (o.qmem _ _).mpr ⟨hl, hq, rfl⟩
  rw [o.accum, sum_erase _ _ _ hm]
  exact Nat.le_add_right _ _

/-- What undirtify does to elements. -/
theorem undirtify_heap (h : HQ) (i j : Nat) :
    (h.undirtify i).heap j = if j = i then { h.heap j with inq := false } else h.heap j := by
  unfold HQ.undirtify
  by_cases hq : (h.heap i).inq = true
  · rw [if_pos hq]
  · rw [if_neg hq]
    by_cases hj : j = i
    · rw [if_pos hj, hj]
      have : (h.heap i).inq = false := by simpa using hq
      rw [← this]
    · rw [if_neg hj]

theorem undirtify_rest (h : HQ) (i : Nat) :
    (h.undirtify i).live = h.live ∧ (h.undirtify i).next = h.next ∧ (h.undirtify i).htbl = h.htbl ∧
    (h.undirtify i).lru = h.lru ∧ (h.undirtify i).size = h.size ∧ (h.undirtify i).vkind = h.vkind ∧
    (h.undirtify i).hash = h.hash ∧ (h.undirtify i).nslots = h.nslots := by
  unfold HQ.undirtify
  split <;> exact ⟨rfl, rfl, rfl, rfl, rfl, rfl, rfl, rfl⟩

theorem undirtify_dq {h : HQ} (o : Ok h) {i : Nat} (hl : h.live i = true) (q : Dq) (j : Nat) :
    j ∈ (h.undirtify i).dq q ↔ j ∈ h.dq q ∧ j ≠ i := by
  unfold HQ.undirtify
  by_cases hq : (h.heap i).inq = true
  · rw [if_pos hq]
    show j ∈ (if q = (h.heap i).dq then (h.dq q).erase i else h.dq q) ↔ _
    by_cases he : q = (h.heap i).dq
    · rw [if_pos he, (o.qnodup q).mem_erase_iff]; exact And.comm
    · rw [if_neg he]
      constructor
      · intro hj
        refine ⟨hj, fun hji => ?_⟩
        rw [hji] at hj
        exact he ((o.qmem _ _).mp hj).2.2.symm
      · exact fun hj => hj.1
  · rw [if_neg hq]
    constructor
    · intro hj
      refine ⟨hj, fun hji => ?_⟩
      rw [hji] at hj
      exact hq ((o.qmem _ _).mp hj).2.1
    · exact fun hj => hj.1

theorem ok_undirtify {h : HQ} (o : Ok h) {i : Nat} (hl : h.live i = true) : Ok (h.undirtify i) := by
  obtain ⟨e1, e2, e3, e4, e5, e6, e7, e8⟩ := undirtify_rest h i
  have hmap : ∀ j, ((h.undirtify i).heap j).mapped = (h.heap j).mapped := by
    intro j; rw [undirtify_heap]; split <;> rfl
  have hkey : ∀ j, ((h.undirtify i).heap j).key = (h.heap j).key := by
    intro j; rw [undirtify_heap]; split <;> rfl
  have hsz : ∀ j, ((h.undirtify i).heap j).size = (h.heap j).size := by
    intro j; rw [undirtify_heap]; split <;> rfl
  have hdq : ∀ j, ((h.undirtify i).heap j).dq = (h.heap j).dq := by
    intro j; rw [undirtify_heap]; split <;> rfl
  have hfg : ∀ j, ((h.undirtify i).heap j).forgot = (h.heap j).forgot := by
    intro j; rw [undirtify_heap]; split <;> rfl
  have hin : ∀ j, ((h.undirtify i).heap j).isInode = (h.heap j).isInode := by
    intro j; rw [undirtify_heap]; split <;> rfl
  have hiq : ∀ j, ((h.undirtify i).heap j).inq = true ↔ (h.heap j).inq = true ∧ j ≠ i := by
    intro j; rw [undirtify_heap]
    by_cases hj : j = i
    · rw [if_pos hj]; simp [hj]
    · rw [if_neg hj]; simp [hj]
  have hsl : ∀ k, (h.undirtify i).slot k = h.slot k := by intro k; unfold HQ.slot; rw [e7, e8]
  refine ⟨?_, ?_, ?_, ?_, ?_, ?_, ?_, ?_, ?_, ?_, ?_, ?_, ?_, ?_⟩
  · rw [e4]; exact o.lnodup
  · rw [e4, e1]; exact o.llive
  · rw [e1, e2]; exact o.lt
  · rw [e3]; exact o.tnodup
  · intro s j; rw [e3, e1, hmap, hkey, hsl]; exact o.tmem s j
  · intro a b; rw [e1, hmap, hmap, hkey, hkey]; exact o.uniq a b
  · have e : (fun j => ((h.undirtify i).heap j).mapped) = fun j => (h.heap j).mapped := funext hmap
    rw [e5, e4, e]; exact o.size
  · intro q
    unfold HQ.undirtify
    split
    · show (if q = (h.heap i).dq then (h.dq q).erase i else h.dq q).Nodup
      split
      · exact (o.qnodup q).erase i
      · exact o.qnodup q
    · exact o.qnodup q
  · intro q j
    rw [undirtify_dq o hl, o.qmem, e1, hiq, hdq]
    exact ⟨fun ⟨⟨a, b, c⟩, d⟩ => ⟨a, ⟨b, d⟩, c⟩, fun ⟨a, ⟨b, d⟩, c⟩ => ⟨⟨a, b, c⟩, d⟩⟩
  · intro q
    have e : (fun j => ((h.undirtify i).heap j).size) = fun j => (h.heap j).size := funext hsz
    rw [e]
    unfold HQ.undirtify
    by_cases hq : (h.heap i).inq = true
    · rw [if_pos hq]
      show (if q = (h.heap i).dq then h.accum q - (h.heap i).size else h.accum q) =
        ((if q = (h.heap i).dq then (h.dq q).erase i else h.dq q).map fun j => (h.heap j).size).sum
      by_cases he : q = (h.heap i).dq
      · rw [if_pos he, if_pos he]
        have hm : i ∈ h.dq q := (o.qmem _ _).mpr ⟨hl, hq, he.symm⟩
        rw [o.accum, sum_erase _ _ _ hm]
        exact Nat.add_sub_cancel_left _ _
      · rw [if_neg he, if_neg he]; exact o.accum q
    · rw [if_neg hq]; exact o.accum q
  · intro j; rw [e1, hiq, hmap]; exact fun a b => o.dm j a b.1
  · intro j; rw [e1, hfg, hmap]; exact o.fm j
  · intro j w; rw [e1, hiq, hdq, hin]; exact fun a b => o.owner j w a b.1
  · unfold HQ.undirtify
    by_cases hq : (h.heap i).inq = true
    · rw [if_pos hq]
      show (h.crash || decide (h.accum (h.heap i).dq < (h.heap i).size)) = false
      have := accum_ge o hl hq
      rw [o.crash]
      simp; exact this
    · rw [if_neg hq]; exact o.crash

theorem ok_enqueue {h : HQ} (o : Ok h) {i : Nat} (hl : h.live i = true) (hm : (h.heap i).mapped = true)
    (hw : ∀ w, (h.heap i).dq = .own w → h.live w = true ∧ (h.heap w).isInode = true) : Ok (h.enqueue i) := by
  unfold HQ.enqueue
  by_cases hq : (h.heap i).inq = true
  · rw [if_pos hq]; exact o
  rw [if_neg hq]
  have hnm : ∀ q, i ∉ h.dq q := fun q hi => hq ((o.qmem _ _).mp hi).2.1
  refine ⟨o.lnodup, o.llive, o.lt, o.tnodup, ?_, ?_, ?_, ?_, ?_, ?_, ?_, ?_, ?_, o.crash⟩ <;> dsimp only
  · intro s j
    have := o.tmem s j
    by_cases hj : j = i
    · rw [if_pos hj]; exact this
    · rw [if_neg hj]; exact this
  · intro a b
    have := o.uniq a b
    by_cases ha : a = i <;> by_cases hb : b = i <;> simp only [ha, hb, if_true, if_false] at this ⊢ <;> exact this
  · rw [o.size]
    congr 1
    apply List.filter_congr
    intro j _
    split <;> rfl
  · intro q
    by_cases he : q = (h.heap i).dq
    · rw [if_pos he]
      rw [List.nodup_append]
      refine ⟨o.qnodup q, by simp, ?_⟩
      intro a ha b hb hab
      rw [List.mem_singleton] at hb
      rw [hab, hb] at ha
      exact hnm q ha
    · rw [if_neg he]; exact o.qnodup q
  · intro q j
    by_cases hj : j = i
    · subst hj
      rw [if_pos rfl]
      constructor
      · intro hm2
        by_cases he : q = (h.heap j).dq
        · exact ⟨hl, rfl, he.symm⟩
        · rw [if_neg he] at hm2; exact absurd hm2 (hnm q)
      · rintro ⟨_, _, he⟩
        rw [if_pos he.symm]
        simp
    · rw [if_neg hj, ← o.qmem]
      by_cases he : q = (h.heap i).dq
      · rw [if_pos he]; simp [hj]
      · rw [if_neg he]
  · intro q
    have e : ∀ l : List Nat, (l.map fun j => (if j = i then { h.heap j with inq := true } else h.heap j).size) =
        l.map fun j => (h.heap j).size := by
      intro l; apply List.map_congr_left; intro j _; split <;> rfl
    rw [e]
    by_cases he : q = (h.heap i).dq
    · rw [if_pos he, if_pos he, o.accum]; simp
    · rw [if_neg he, if_neg he]; exact o.accum q
  · intro j hj
    have := o.dm j hj
    by_cases hji : j = i
    · rw [if_pos hji, hji]; exact fun _ => hm
    · rw [if_neg hji]; exact this
  · intro j hj
    have := o.fm j hj
    by_cases hji : j = i
    · rw [if_pos hji]; exact this
    · rw [if_neg hji]; exact this
  · intro j w hj
    have hin : (if w = i then { h.heap w with inq := true } else h.heap w).isInode = (h.heap w).isInode := by
      split <;> rfl
    rw [hin]
    by_cases hji : j = i
    · rw [if_pos hji, hji]; exact fun _ => hw w
    · rw [if_neg hji]; exact o.owner j w hj

/-- Fields which the invariant does not speak of, or speaks of only for queued elements, may change. -/
theorem ok_upd {h : HQ} (o : Ok h) (i : Nat) (f : Elem → Elem)
    (hk : (f (h.heap i)).key = (h.heap i).key) (hs : (f (h.heap i)).size = (h.heap i).size)
    (hi : (f (h.heap i)).isInode = (h.heap i).isInode) (hm : (f (h.heap i)).mapped = (h.heap i).mapped)
    (hf : (f (h.heap i)).forgot = true → (h.heap i).mapped = false)
    (hq : (f (h.heap i)).inq = (h.heap i).inq)
    (hd : (h.heap i).inq = true → (f (h.heap i)).dq = (h.heap i).dq) : Ok (h.upd i f) := by
  have key : ∀ j, ((h.upd i f).heap j).key = (h.heap j).key := by
    intro j; show (if j = i then f (h.heap j) else h.heap j).key = _
    by_cases hj : j = i
    · rw [if_pos hj, hj]; exact hk
    · rw [if_neg hj]
  have size : ∀ j, ((h.upd i f).heap j).size = (h.heap j).size := by
    intro j; show (if j = i then f (h.heap j) else h.heap j).size = _
    by_cases hj : j = i
    · rw [if_pos hj, hj]; exact hs
    · rw [if_neg hj]
  have isInode : ∀ j, ((h.upd i f).heap j).isInode = (h.heap j).isInode := by
    intro j; show (if j = i then f (h.heap j) else h.heap j).isInode = _
    by_cases hj : j = i
    · rw [if_pos hj, hj]; exact hi
    · rw [if_neg hj]
  have mapped : ∀ j, ((h.upd i f).heap j).mapped = (h.heap j).mapped := by
    intro j; show (if j = i then f (h.heap j) else h.heap j).mapped = _
    by_cases hj : j = i
    · rw [if_pos hj, hj]; exact hm
    · rw [if_neg hj]
  have inq : ∀ j, ((h.upd i f).heap j).inq = (h.heap j).inq := by
    intro j; show (if j = i then f (h.heap j) else h.heap j).inq = _
    by_cases hj : j = i
    · rw [if_pos hj, hj]; exact hq
    · rw [if_neg hj]
  have dq : ∀ j, (h.heap j).inq = true → ((h.upd i f).heap j).dq = (h.heap j).dq := by
    intro j; show _ → (if j = i then f (h.heap j) else h.heap j).dq = _
    by_cases hj : j = i
    · rw [if_pos hj, hj]; exact hd
    · rw [if_neg hj]; exact fun _ => rfl
  refine ⟨o.lnodup, o.llive, o.lt, o.tnodup, ?_, ?_, ?_, o.qnodup, ?_, ?_, ?_, ?_, ?_, o.crash⟩
  · intro s j; rw [mapped, key]; exact o.tmem s j
  · intro a b; rw [mapped, key, mapped, key]; exact o.uniq a b
  · have e : (fun j => ((h.upd i f).heap j).mapped) = fun j => (h.heap j).mapped := funext mapped
    rw [e]; exact o.size
  · intro q j
    show j ∈ h.dq q ↔ h.live j = true ∧ _
    rw [o.qmem, inq]
    constructor
    · rintro ⟨a, b, c⟩; exact ⟨a, b, (dq j b).trans c⟩
    · rintro ⟨a, b, c⟩; exact ⟨a, b, (dq j b).symm.trans c⟩
  · intro q
    have e : (fun j => ((h.upd i f).heap j).size) = fun j => (h.heap j).size := funext size
    rw [e]; exact o.accum q
  · intro j; rw [mapped, inq]; exact o.dm j
  · intro j hj
    rw [mapped]
    show (if j = i then f (h.heap j) else h.heap j).forgot = true → _
    by_cases hji : j = i
    · rw [if_pos hji, hji]; exact hf
    · rw [if_neg hji]; exact o.fm j hj
  · intro j w hj
    rw [inq, isInode]
    intro hjq hd2
    exact o.owner j w hj hjq ((dq j hjq).symm.trans hd2)

/-! ### Unmapping and freeing -/

theorem filter_length_erase (p : Nat → Bool) : ∀ (l : List Nat) (i : Nat), i ∈ l →
    (l.filter p).length = (if p i then 1 else 0) + ((l.erase i).filter p).length
  | [], _, h => by cases h
  | a :: l, i, h => by
    by_cases ha : a = i
    · subst ha
      rw [List.erase_cons_head, List.filter_cons]
      split
      · simp; omega
      · simp
    · have hi : i ∈ l := by
        rcases List.mem_cons.mp h with h | h
        · exact absurd h.symm ha
        · exact h
      have ih := filter_length_erase p l i hi
      rw [List.erase_cons_tail (by simpa using ha), List.filter_cons, List.filter_cons]
      split
      · rw [List.length_cons, List.length_cons, ih]; omega
      · exact ih

theorem filter_flip (p p' : Nat → Bool) (i : Nat) (hp : p i = true) (hp' : p' i = false) (he : ∀ j, j ≠ i → p' j = p j)
    (l : List Nat) (hn : l.Nodup) (hi : i ∈ l) : (l.filter p').length = (l.filter p).length - 1 := by
  rw [filter_length_erase p l i hi, filter_length_erase p' l i hi, hp, hp']
  have : (l.erase i).filter p' = (l.erase i).filter p := by
    apply List.filter_congr
    intro j hj
    exact he j fun h => by rw [h] at hj; exact ((hn.mem_erase_iff).mp hj).1 rfl
  rw [this]
  simp

theorem unmap_heap (h : HQ) (i j : Nat) :
    (h.unmap i).heap j = if j = i then { h.heap j with mapped := false } else h.heap j := by
  unfold HQ.unmap
  by_cases hq : (h.heap i).mapped = true
  · rw [if_pos hq]
  · rw [if_neg hq]
    by_cases hj : j = i
    · rw [if_pos hj, hj]
      have : (h.heap i).mapped = false := by simpa using hq
      rw [← this]
    · rw [if_neg hj]

theorem unmap_rest (h : HQ) (i : Nat) :
    (h.unmap i).live = h.live ∧ (h.unmap i).next = h.next ∧ (h.unmap i).dq = h.dq ∧
    (h.unmap i).lru = h.lru ∧ (h.unmap i).accum = h.accum ∧ (h.unmap i).vkind = h.vkind ∧
    (h.unmap i).hash = h.hash ∧ (h.unmap i).nslots = h.nslots ∧ (h.unmap i).crash = h.crash := by
  unfold HQ.unmap
  split <;> exact ⟨rfl, rfl, rfl, rfl, rfl, rfl, rfl, rfl, rfl⟩

theorem ok_unmap {h : HQ} (o : Ok h) {i : Nat} (hl : h.live i = true) (hq : (h.heap i).inq = false) : Ok (h.unmap i) := by
  obtain ⟨e1, e2, e3, e4, e5, e6, e7, e8, e9⟩ := unmap_rest h i
  have hsl : ∀ k, (h.unmap i).slot k = h.slot k := by intro k; unfold HQ.slot; rw [e7, e8]
  have same : ∀ j, ((h.unmap i).heap j).key = (h.heap j).key ∧ ((h.unmap i).heap j).size = (h.heap j).size ∧
      ((h.unmap i).heap j).dq = (h.heap j).dq ∧ ((h.unmap i).heap j).inq = (h.heap j).inq ∧
      ((h.unmap i).heap j).forgot = (h.heap j).forgot ∧ ((h.unmap i).heap j).isInode = (h.heap j).isInode := by
    intro j; rw [unmap_heap]; split <;> exact ⟨rfl, rfl, rfl, rfl, rfl, rfl⟩
  have hmap : ∀ j, ((h.unmap i).heap j).mapped = true ↔ (h.heap j).mapped = true ∧ j ≠ i := by
    intro j; rw [unmap_heap]
    by_cases hj : j = i
    · rw [if_pos hj]; simp [hj]
    · rw [if_neg hj]; simp [hj]
  have hmapi : ((h.unmap i).heap i).mapped = false := by rw [unmap_heap, if_pos rfl]
  have hmapj : ∀ j, j ≠ i → ((h.unmap i).heap j).mapped = (h.heap j).mapped := by
    intro j hj; rw [unmap_heap, if_neg hj]
  refine ⟨?_, ?_, ?_, ?_, ?_, ?_, ?_, ?_, ?_, ?_, ?_, ?_, ?_, ?_⟩
  · rw [e4]; exact o.lnodup
  · rw [e4, e1]; exact o.llive
  · rw [e1, e2]; exact o.lt
  · intro s
    unfold HQ.unmap
    split
    · show (if s = h.slot (h.heap i).key then (h.htbl s).erase i else h.htbl s).Nodup
      split
      · exact (o.tnodup s).erase i
      · exact o.tnodup s
    · exact o.tnodup s
  · intro s j
    rw [e1, hmap, (same j).1, hsl]
    unfold HQ.unmap
    by_cases hm : (h.heap i).mapped = true
    · rw [if_pos hm]
      show j ∈ (if s = h.slot (h.heap i).key then (h.htbl s).erase i else h.htbl s) ↔ _
      by_cases hs : s = h.slot (h.heap i).key
      · rw [if_pos hs, (o.tnodup s).mem_erase_iff, o.tmem]
        exact ⟨fun ⟨a, b, c, d⟩ => ⟨b, ⟨c, a⟩, d⟩, fun ⟨b, ⟨c, a⟩, d⟩ => ⟨a, b, c, d⟩⟩
      · rw [if_neg hs, o.tmem]
        exact ⟨fun ⟨b, c, d⟩ => ⟨b, ⟨c, fun hj => hs (by rw [← d, hj])⟩, d⟩, fun ⟨b, ⟨c, _⟩, d⟩ => ⟨b, c, d⟩⟩
    · rw [if_neg hm, o.tmem]
      exact ⟨fun ⟨b, c, d⟩ => ⟨b, ⟨c, fun hj => hm (by rw [← hj]; exact c)⟩, d⟩, fun ⟨b, ⟨c, _⟩, d⟩ => ⟨b, c, d⟩⟩
  · intro a b; rw [e1, hmap, hmap, (same a).1, (same b).1]
    exact fun h1 h2 h3 h4 => o.uniq a b h1 h2 h3.1 h4.1
  · rw [e4]
    by_cases hm : (h.heap i).mapped = true
    · rw [filter_flip (fun j => (h.heap j).mapped) (fun j => ((h.unmap i).heap j).mapped) i hm hmapi hmapj _ o.lnodup
        ((o.llive i).mpr hl), ← o.size]
      unfold HQ.unmap
      rw [if_pos hm]
    · have hs : (h.unmap i).size = h.size := by unfold HQ.unmap; rw [if_neg hm]
      have hh : (h.unmap i) = h := by unfold HQ.unmap; rw [if_neg hm]
      rw [hh]; exact o.size
  · rw [e3]; exact o.qnodup
  · intro q j; rw [e3, e1, (same j).2.2.2.1, (same j).2.2.1]; exact o.qmem q j
  · intro q
    have e : (fun j => ((h.unmap i).heap j).size) = fun j => (h.heap j).size := funext fun j => (same j).2.1
    rw [e5, e3, e]; exact o.accum q
  · intro j; rw [e1, (same j).2.2.2.1, hmap]
    exact fun a b => ⟨o.dm j a b, fun hj => by rw [hj, hq] at b; cases b⟩
  · intro j hj hf
    rw [e1] at hj; rw [(same j).2.2.2.2.1] at hf
    by_cases hji : j = i
    · rw [hji]; exact hmapi
    · rw [hmapj j hji]; exact o.fm j hj hf
  · intro j w; rw [e1, (same j).2.2.2.1, (same j).2.2.1, (same w).2.2.2.2.2]; exact o.owner j w
  · rw [e9]; exact o.crash

/-- Removal of an element which nobody needs. -/
theorem ok_removeFree {h : HQ} (o : Ok h) {i : Nat} (hl : h.live i = true) (hq : (h.heap i).inq = false)
    (hr : (h.heap i).refcnt = 0) (hown : h.dq (.own i) = []) : Ok ((h.remove i).free i) := by
  have o1 := ok_unmap o hl hq
  obtain ⟨e1, e2, e3, e4, e5, e6, e7, e8, e9⟩ := unmap_rest h i
  have hmapi : ((h.unmap i).heap i).mapped = false := by rw [unmap_heap, if_pos rfl]
  have hinq : ((h.unmap i).heap i).inq = false := by rw [unmap_heap, if_pos rfl]; exact hq
  have hlv : ∀ j, (if j = i then false else (h.unmap i).live j) = true ↔ (h.unmap i).live j = true ∧ j ≠ i := by
    intro j
    by_cases hj : j = i
    · rw [if_pos hj]; simp [hj]
    · rw [if_neg hj]; simp [hj]
  unfold HQ.free HQ.remove
  refine ⟨?_, ?_, ?_, o1.tnodup, ?_, ?_, ?_, o1.qnodup, ?_, o1.accum, ?_, ?_, ?_, ?_⟩ <;> dsimp only
  · exact o1.lnodup.erase i
  · intro j
    rw [o1.lnodup.mem_erase_iff, o1.llive, hlv]; exact And.comm
  · intro j; rw [hlv]; exact fun a => o1.lt j a.1
  · intro s j
    rw [hlv]
    constructor
    · intro hm
      have := (o1.tmem s j).mp hm
      exact ⟨⟨this.1, fun hj => by rw [hj, hmapi] at this; cases this.2.1⟩, this.2⟩
    · exact fun ⟨a, b⟩ => (o1.tmem s j).mpr ⟨a.1, b⟩
  · intro a b; rw [hlv, hlv]; exact fun h1 h2 => o1.uniq a b h1.1 h2.1
  · rw [o1.size, filter_length_erase _ _ i ((o1.llive i).mpr (by rw [e1]; exact hl)), hmapi]
    simp
  · intro q j
    rw [hlv]
    constructor
    · intro hm
      have := (o1.qmem q j).mp hm
      exact ⟨⟨this.1, fun hj => by rw [hj, hinq] at this; cases this.2.1⟩, this.2⟩
    · exact fun ⟨a, b⟩ => (o1.qmem q j).mpr ⟨a.1, b⟩
  · intro j; rw [hlv]; exact fun a => o1.dm j a.1
  · intro j; rw [hlv]; exact fun a => o1.fm j a.1
  · intro j w; rw [hlv, hlv]
    intro a b c
    have := o1.owner j w a.1 b c
    refine ⟨⟨this.1, fun hwi => ?_⟩, this.2⟩
    have hm := (o1.qmem (.own w) j).mpr ⟨a.1, b, c⟩
    rw [hwi, e3, hown] at hm
    cases hm
  · have hr' : ((h.unmap i).heap i).refcnt = 0 := by rw [unmap_heap, if_pos rfl]; exact hr
    rw [e9, o.crash, e1, hl, hr', hinq, e3, hown]
    rfl

end Silofs.Lcache
