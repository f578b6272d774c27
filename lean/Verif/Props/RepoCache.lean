import Verif.Spec.Repo
/-
Invariant of the repository: its cache of open files (hash table and queue) holds each name once,
and every descriptor in it refers to the file that the name's path leads to.
-/
set_option linter.unusedSimpArgs false
namespace Silofs.Repo
open Silofs Silofs.Addr Silofs.Sysio

/-- Segments, which are the names the cache holds. -/
def Name.IsSeg : Name → Prop
  | .lseg _ => True
  | .pseg _ => True
  | _ => False

/-- The host's file-system: names lead to distinct inodes, bytes beyond the end and bytes of files
without blocks are zeros. -/
structure DOk (d : Disk) : Prop where
  inj : ∀ p q n, d.dir p = some n → d.dir q = some n → p = q
  lt : ∀ p n, d.dir p = some n → n < d.next
  tail : ∀ n i, (d.node n).cur.size ≤ i → (d.node n).cur.byte i = 0
  hole : ∀ n, (d.node n).blocks = false → AllZero (d.node n).cur

/-- The cache as a data structure. -/
structure Struct (c : Cfg) (U : Name → Prop) (r : Repo) : Prop where
  nodup : r.lruq.Nodup
  slot : ∀ s id, id ∈ r.htbl s ↔ id ∈ r.lruq ∧ slotOf c (r.heap id).key = s
  snodup : ∀ s, (r.htbl s).Nodup
  lt : ∀ id, id ∈ r.lruq → id < r.nent
  uniq : ∀ a b, a ∈ r.lruq → b ∈ r.lruq → (r.heap a).key = (r.heap b).key → a = b
  used : ∀ id, id ∈ r.lruq → U (r.heap id).key ∧ (r.heap id).key.IsSeg

/-- The cached descriptors. -/
def Bind (c : Cfg) (d : Disk) (r : Repo) : Prop :=
  ∀ id, id ∈ r.lruq → ∃ n, (r.heap id).fd = some n ∧ d.dir (pathOf c (r.heap id).key) = some n ∧
    ∀ l, (r.heap id).key = .lseg l → (d.node n).cur.size = (r.heap id).size

structure Inv (c : Cfg) (U : Name → Prop) (r : Repo) : Prop where
  st : Struct c U r
  dk : DOk r.disk
  bd : Bind c r.disk r

/-- Two states of the host's file-system which differ at most in what is stored safely. -/
structure Same (d d' : Disk) : Prop where
  dir : d'.dir = d.dir
  next : d'.next = d.next
  cur : ∀ n, (d'.node n).cur = (d.node n).cur
  blocks : ∀ n, (d'.node n).blocks = (d.node n).blocks

theorem Same.refl (d : Disk) : Same d d := ⟨rfl, rfl, fun _ => rfl, fun _ => rfl⟩

theorem Same.trans {a b d : Disk} (h : Same a b) (h2 : Same b d) : Same a d :=
  ⟨h2.dir.trans h.dir, h2.next.trans h.next, fun n => (h2.cur n).trans (h.cur n), fun n => (h2.blocks n).trans (h.blocks n)⟩

theorem same_fsync (d : Disk) (n e : Nat) : Same d (d.fsync n e) := by
  unfold Disk.fsync Disk.set
  split
  · refine ⟨rfl, rfl, fun m => ?_, fun m => ?_⟩ <;> (dsimp only; split <;> simp_all)
  · split
    · refine ⟨rfl, rfl, fun m => ?_, fun m => ?_⟩ <;> (dsimp only; split <;> simp_all)
    · exact Same.refl d

theorem same_close (k : K) (d : Disk) (e : Ent) : Same d (closeEnt k d e) := by
  unfold closeEnt
  split
  · split
    · exact Same.refl d
    · exact same_fsync _ _ _
  · exact Same.refl d

theorem DOk.same {d d' : Disk} (h : DOk d) (s : Same d d') : DOk d' := by
  refine ⟨?_, ?_, ?_, ?_⟩
  · rw [s.dir]; exact h.inj
  · rw [s.dir, s.next]; exact h.lt
  · intro n i; rw [s.cur]; exact h.tail n i
  · intro n; rw [s.cur, s.blocks]; exact h.hole n

theorem Bind.same {c : Cfg} {d d' : Disk} {r : Repo} (h : Bind c d r) (s : Same d d') : Bind c d' r := by
  intro id hid
  obtain ⟨n, h1, h2, h3⟩ := h id hid
  refine ⟨n, h1, by rw [s.dir]; exact h2, ?_⟩
  rw [s.cur]; exact h3

/-! ### Looking up -/

theorem lookup_some {c : Cfg} {U : Name → Prop} {r : Repo} (h : Struct c U r) {key : Name} {id : Nat} (e : lookup c r key = some id) :
    id ∈ r.lruq ∧ (r.heap id).key = key := by
  unfold lookup at e
  have h1 := List.mem_of_find?_eq_some e
  have h2 := List.find?_some e
  exact ⟨((h.slot _ _).mp h1).1, of_decide_eq_true h2⟩

theorem lookup_none {c : Cfg} {U : Name → Prop} {r : Repo} (h : Struct c U r) {key : Name} (e : lookup c r key = none) :
    ∀ id, id ∈ r.lruq → (r.heap id).key ≠ key := by
  intro id hid hk
  unfold lookup at e
  have h1 := List.find?_eq_none.mp e id ((h.slot _ _).mpr ⟨hid, by rw [hk]⟩)
  exact h1 (decide_eq_true hk)

theorem lookup_iff {c : Cfg} {U : Name → Prop} {r : Repo} (h : Struct c U r) (key : Name) (id : Nat) :
    lookup c r key = some id ↔ id ∈ r.lruq ∧ (r.heap id).key = key := by
  constructor
  · exact lookup_some h
  · rintro ⟨h1, h2⟩
    cases e : lookup c r key with
    | none => exact absurd h2 (lookup_none h e id h1)
    | some j =>
      obtain ⟨j1, j2⟩ := lookup_some h e
      rw [h.uniq j id j1 h1 (j2.trans h2.symm)]

/-! ### Taking elements out -/

/-- `r'` is `r` with fewer elements in its cache. -/
structure Less (c : Cfg) (U : Name → Prop) (r r' : Repo) : Prop where
  inv : Inv c U r'
  same : Same r.disk r'.disk
  heap : r'.heap = r.heap
  nent : r'.nent = r.nent
  ro : r'.ro = r.ro
  opened : r'.opened = r.opened
  sub : ∀ id, id ∈ r'.lruq → id ∈ r.lruq

theorem Less.refl {c : Cfg} {U : Name → Prop} {r : Repo} (h : Inv c U r) : Less c U r r :=
  ⟨h, Same.refl _, rfl, rfl, rfl, rfl, fun _ h => h⟩

theorem Less.trans {c : Cfg} {U : Name → Prop} {a b d : Repo} (h : Less c U a b) (h2 : Less c U b d) : Less c U a d :=
  ⟨h2.inv, h.same.trans h2.same, h2.heap.trans h.heap, h2.nent.trans h.nent, h2.ro.trans h.ro, h2.opened.trans h.opened,
    fun id hid => h.sub id (h2.sub id hid)⟩

theorem evict_struct {c : Cfg} {U : Name → Prop} {r : Repo} (h : Struct c U r) (k : K) (id : Nat) :
    Struct c U (evict c k r id) := by
  have hm : ∀ x, x ∈ r.lruq.erase id ↔ x ≠ id ∧ x ∈ r.lruq := fun x => h.nodup.mem_erase_iff
  refine ⟨h.nodup.erase id, ?_, ?_, ?_, ?_, ?_⟩
  · intro s x
    show x ∈ (if s = slotOf c (r.heap id).key then (r.htbl s).erase id else r.htbl s) ↔ x ∈ r.lruq.erase id ∧ slotOf c (r.heap x).key = s
    rw [hm]
    by_cases hs : s = slotOf c (r.heap id).key
    · rw [if_pos hs, (h.snodup s).mem_erase_iff, h.slot]
      constructor
      · rintro ⟨a, b, e⟩; exact ⟨⟨a, b⟩, e⟩
      · rintro ⟨⟨a, b⟩, e⟩; exact ⟨a, b, e⟩
    · rw [if_neg hs, h.slot]
      constructor
      · rintro ⟨b, e⟩
        refine ⟨⟨?_, b⟩, e⟩
        intro hx; subst hx; exact hs e.symm
      · rintro ⟨⟨a, b⟩, e⟩; exact ⟨b, e⟩
  · intro s
    show (if s = slotOf c (r.heap id).key then (r.htbl s).erase id else r.htbl s).Nodup
    split
    · exact (h.snodup s).erase id
    · exact h.snodup s
  · intro x hx; exact h.lt x ((hm x).mp hx).2
  · intro a b ha hb e; exact h.uniq a b ((hm a).mp ha).2 ((hm b).mp hb).2 e
  · intro x hx; exact h.used x ((hm x).mp hx).2

theorem evict_less {c : Cfg} {U : Name → Prop} {r : Repo} (h : Inv c U r) (k : K) (id : Nat) : Less c U r (evict c k r id) := by
  have hs := same_close k r.disk (r.heap id)
  have hm : ∀ x, x ∈ r.lruq.erase id → x ∈ r.lruq := fun x hx => (h.st.nodup.mem_erase_iff.mp hx).2
  refine ⟨⟨evict_struct h.st k id, h.dk.same hs, ?_⟩, hs, rfl, rfl, rfl, rfl, hm⟩
  intro x hx
  exact h.bd.same hs x (hm x hx)

theorem evictLast_less {c : Cfg} {U : Name → Prop} (k : K) : ∀ n (r : Repo), Inv c U r → Less c U r (evictLast c k n r) := by
  intro n
  induction n with
  | zero => intro r h; exact Less.refl h
  | succ n ih =>
    intro r h
    unfold evictLast
    cases r.lruq.getLast? with
    | none => exact Less.refl h
    | some id => exact (evict_less h k id).trans (ih _ (evict_less h k id).inv)

theorem evictSome_less {c : Cfg} {U : Name → Prop} (k : K) (r : Repo) (n : Nat) (h : Inv c U r) : Less c U r (evictSome c k r n) :=
  evictLast_less k _ r h

theorem overpop_less {c : Cfg} {U : Name → Prop} (k : K) (r : Repo) (h : Inv c U r) : Less c U r (overpop c k r) := by
  unfold overpop
  split
  · exact evictSome_less k r _ h
  · exact Less.refl h

theorem requeue_inv {c : Cfg} {U : Name → Prop} {r : Repo} (h : Inv c U r) (id : Nat) (hid : id ∈ r.lruq) :
    Inv c U (requeue r id) ∧ (∀ x, x ∈ (requeue r id).lruq ↔ x ∈ r.lruq) ∧ (requeue r id).disk = r.disk ∧ (requeue r id).heap = r.heap ∧
      (requeue r id).nent = r.nent ∧ (requeue r id).ro = r.ro ∧ (requeue r id).opened = r.opened := by
  unfold requeue
  split
  · exact ⟨h, fun _ => Iff.rfl, rfl, rfl, rfl, rfl, rfl⟩
  · have hm : ∀ x, x ∈ id :: r.lruq.erase id ↔ x ∈ r.lruq := by
      intro x
      rw [List.mem_cons, h.st.nodup.mem_erase_iff]
      constructor
      · rintro (rfl | ⟨_, hx⟩)
        · exact hid
        · exact hx
      · intro hx
        by_cases e : x = id
        · exact Or.inl e
        · exact Or.inr ⟨e, hx⟩
    refine ⟨⟨⟨?_, ?_, h.st.snodup, ?_, ?_, ?_⟩, h.dk, ?_⟩, hm, rfl, rfl, rfl, rfl, rfl⟩
    · show (id :: r.lruq.erase id).Nodup
      rw [List.nodup_cons]
      refine ⟨?_, h.st.nodup.erase id⟩
      intro hx
      exact (h.st.nodup.mem_erase_iff.mp hx).1 rfl
    · intro s x
      show x ∈ r.htbl s ↔ x ∈ id :: r.lruq.erase id ∧ _
      rw [hm]; exact h.st.slot s x
    · intro x hx; exact h.st.lt x ((hm x).mp hx)
    · intro a b ha hb e; exact h.st.uniq a b ((hm a).mp ha) ((hm b).mp hb) e
    · intro x hx; exact h.st.used x ((hm x).mp hx)
    · intro x hx; exact h.bd x ((hm x).mp hx)

/-! ### Putting elements in -/

/-- A state that got a new element `e` at the front, with files `d`. -/
def insert (c : Cfg) (r : Repo) (e : Ent) (d : Disk) : Repo := setEnt { newEnt c r e.key with disk := d } r.nent e

theorem insert_heap (c : Cfg) (r : Repo) (e : Ent) (d : Disk) (i : Nat) :
    (insert c r e d).heap i = if i = r.nent then e else r.heap i := by
  show (if i = r.nent then e else if i = r.nent then _ else r.heap i) = _
  split <;> rfl

theorem insert_struct {c : Cfg} {U : Name → Prop} {r : Repo} (h : Struct c U r) (e : Ent) (d : Disk) (hU : U e.key) (hs : e.key.IsSeg)
    (hk : ∀ id, id ∈ r.lruq → (r.heap id).key ≠ e.key) : Struct c U (insert c r e d) := by
  have hn : r.nent ∉ r.lruq := fun hx => Nat.lt_irrefl _ (h.lt _ hx)
  have ht : ∀ s, r.nent ∉ r.htbl s := fun s hx => hn ((h.slot _ _).mp hx).1
  have hne : ∀ x, x ∈ r.lruq → x ≠ r.nent := fun x hx e => hn (e ▸ hx)
  refine ⟨?_, ?_, ?_, ?_, ?_, ?_⟩
  · show (r.nent :: r.lruq).Nodup
    rw [List.nodup_cons]; exact ⟨hn, h.nodup⟩
  · intro s x
    rw [insert_heap]
    show x ∈ (if s = slotOf c e.key then r.nent :: r.htbl s else r.htbl s) ↔ x ∈ r.nent :: r.lruq ∧ _
    by_cases hx : x = r.nent
    · subst hx
      rw [if_pos rfl]
      by_cases hsl : s = slotOf c e.key
      · rw [if_pos hsl]
        exact ⟨fun _ => ⟨List.mem_cons_self, hsl.symm⟩, fun _ => List.mem_cons_self⟩
      · rw [if_neg hsl]
        exact ⟨fun hh => absurd hh (ht s), fun hh => absurd hh.2.symm hsl⟩
    · rw [if_neg hx, List.mem_cons, or_iff_right hx, ← h.slot]
      by_cases hsl : s = slotOf c e.key
      · rw [if_pos hsl, List.mem_cons, or_iff_right hx]
      · rw [if_neg hsl]
  · intro s
    show (if s = slotOf c e.key then r.nent :: r.htbl s else r.htbl s).Nodup
    split
    · rw [List.nodup_cons]; exact ⟨ht s, h.snodup s⟩
    · exact h.snodup s
  · intro x hx
    show x < r.nent + 1
    rcases List.mem_cons.mp hx with rfl | hx
    · exact Nat.lt_succ_self _
    · exact Nat.lt_succ_of_lt (h.lt x hx)
  · intro a b ha hb
    rw [insert_heap, insert_heap]
    rcases List.mem_cons.mp ha with rfl | ha <;> rcases List.mem_cons.mp hb with rfl | hb
    · intro _; rfl
    · rw [if_pos rfl, if_neg (hne b hb)]; intro ee; exact absurd ee.symm (hk b hb)
    · rw [if_pos rfl, if_neg (hne a ha)]; intro ee; exact absurd ee (hk a ha)
    · rw [if_neg (hne a ha), if_neg (hne b hb)]; exact h.uniq a b ha hb
  · intro x hx
    rw [insert_heap]
    rcases List.mem_cons.mp hx with rfl | hx
    · rw [if_pos rfl]; exact ⟨hU, hs⟩
    · rw [if_neg (hne x hx)]; exact h.used x hx

theorem insert_inv {c : Cfg} {U : Name → Prop} {r : Repo} (h : Struct c U r) (e : Ent) (d : Disk) (hd : DOk d) (hb : Bind c d r)
    (hU : U e.key) (hs : e.key.IsSeg) (hk : ∀ id, id ∈ r.lruq → (r.heap id).key ≠ e.key) (n : Nat) (hf : e.fd = some n)
    (hn : d.dir (pathOf c e.key) = some n) (hl : ∀ l, e.key = .lseg l → (d.node n).cur.size = e.size) : Inv c U (insert c r e d) := by
  refine ⟨insert_struct h e d hU hs hk, hd, ?_⟩
  intro x hx
  rw [insert_heap]
  rcases List.mem_cons.mp hx with rfl | hx
  · rw [if_pos rfl]; exact ⟨n, hf, hn, hl⟩
  · rw [if_neg (fun e' => Nat.lt_irrefl _ (e' ▸ h.lt x hx))]; exact hb x hx

/-- An element put in and taken out again (a failed attempt) leaves the cache as it was. -/
theorem insert_evict {c : Cfg} {U : Name → Prop} {r : Repo} (h : Struct c U r) (k : K) (e : Ent) (d : Disk) :
    (evict c k (insert c r e d) r.nent).htbl = r.htbl ∧ (evict c k (insert c r e d) r.nent).lruq = r.lruq ∧
    (evict c k (insert c r e d) r.nent).disk = closeEnt k d e := by
  refine ⟨?_, ?_, ?_⟩
  · funext s
    show (if s = slotOf c ((insert c r e d).heap r.nent).key then
      (if s = slotOf c e.key then r.nent :: r.htbl s else r.htbl s).erase r.nent else (if s = slotOf c e.key then r.nent :: r.htbl s else r.htbl s)) = _
    rw [insert_heap, if_pos rfl]
    by_cases hs : s = slotOf c e.key
    · rw [if_pos hs, if_pos hs, List.erase_cons_head]
    · rw [if_neg hs, if_neg hs]
  · show (r.nent :: r.lruq).erase r.nent = _
    rw [List.erase_cons_head]
  · show closeEnt k d ((insert c r e d).heap r.nent) = _
    rw [insert_heap, if_pos rfl]

/-- What an operation that only looks leaves behind. -/
structure Mild (c : Cfg) (U : Name → Prop) (r r' : Repo) : Prop where
  inv : Inv c U r'
  same : Same r.disk r'.disk
  ro : r'.ro = r.ro
  opened : r'.opened = r.opened

theorem Mild.refl {c : Cfg} {U : Name → Prop} {r : Repo} (h : Inv c U r) : Mild c U r r := ⟨h, Same.refl _, rfl, rfl⟩

theorem Mild.trans {c : Cfg} {U : Name → Prop} {a b d : Repo} (h : Mild c U a b) (h2 : Mild c U b d) : Mild c U a d :=
  ⟨h2.inv, h.same.trans h2.same, h2.ro.trans h.ro, h2.opened.trans h.opened⟩

theorem Less.mild {c : Cfg} {U : Name → Prop} {r r' : Repo} (h : Less c U r r') : Mild c U r r' := ⟨h.inv, h.same, h.ro, h.opened⟩

theorem requeue_mild {c : Cfg} {U : Name → Prop} {r : Repo} (h : Inv c U r) (id : Nat) (hid : id ∈ r.lruq) : Mild c U r (requeue r id) := by
  obtain ⟨a, _, b, _, _, d, e⟩ := requeue_inv h id hid
  exact ⟨a, by rw [b]; exact Same.refl _, d, e⟩

/-- A failed attempt: the new element is taken out. -/
theorem fail_inv {c : Cfg} {U : Name → Prop} {r : Repo} (h : Struct c U r) (k : K) (e : Ent) (d : Disk) (hd : DOk d) (hb : Bind c d r) :
    Inv c U (evict c k (insert c r e d) r.nent) := by
  obtain ⟨h1, h2, h3⟩ := insert_evict h k e d
  have hs := same_close k d e
  have hlt : ∀ x, x ∈ r.lruq → (evict c k (insert c r e d) r.nent).heap x = r.heap x := by
    intro x hx
    show (insert c r e d).heap x = _
    rw [insert_heap, if_neg (fun e' => Nat.lt_irrefl _ (e' ▸ h.lt x hx))]
  refine ⟨⟨?_, ?_, ?_, ?_, ?_, ?_⟩, ?_, ?_⟩
  · rw [h2]; exact h.nodup
  · intro s x
    rw [h1, h2, h.slot]
    constructor
    · rintro ⟨a, b⟩; exact ⟨a, by rw [hlt x a]; exact b⟩
    · rintro ⟨a, b⟩; exact ⟨a, by rw [hlt x a] at b; exact b⟩
  · intro s; rw [h1]; exact h.snodup s
  · intro x hx
    rw [h2] at hx
    show x < r.nent + 1
    exact Nat.lt_succ_of_lt (h.lt x hx)
  · intro a b ha hb
    rw [h2] at ha hb
    rw [hlt a ha, hlt b hb]; exact h.uniq a b ha hb
  · intro x hx
    rw [h2] at hx
    rw [hlt x hx]; exact h.used x hx
  · rw [h3]; exact hd.same hs
  · intro x hx
    rw [h2] at hx
    rw [hlt x hx, h3]
    exact hb.same hs x hx

theorem newEnt_insert (c : Cfg) (r : Repo) (key : Name) : newEnt c r key = insert c r ⟨key, 0, none, false⟩ r.disk := by
  unfold insert setEnt newEnt
  congr 1
  funext i
  dsimp only
  split <;> rfl

theorem setEnt_insert (c : Cfg) (r : Repo) (key : Name) (e : Ent) (he : e.key = key) :
    setEnt (newEnt c r key) r.nent e = insert c r e r.disk := by
  subst he
  rfl

end Silofs.Repo
