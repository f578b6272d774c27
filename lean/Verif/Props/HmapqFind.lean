import Verif.Props.HmapqCalls
set_option linter.unusedSimpArgs false
set_option linter.unusedVariables false
/-
C69: new objects, look up and eviction in linked memory do what they do with plain sequences.
-/
namespace Silofs.Hmq
open Silofs.Lk (Mem dec Ring Forest ring_front ring_back ring_next ring_prev after before after_app)
open Silofs.Lcache (Dq Elem HQ Ok Maint prevOf)

/-! ### New objects -/

/-- The part of `HQ.create` before the object is stored. -/
def mk (h : HQ) (k size : Nat) (b : Bool) (d : Nat) : HQ :=
  { h with
    heap := fun j => if j = h.next then ⟨k, size, b, d, 0, false, 0, false, false, false, h.classOf b, 0, 0⟩ else h.heap j
    live := fun j => if j = h.next then true else h.live j
    next := h.next + 1 }

theorem create_mk (h : HQ) (k size : Nat) (b : Bool) (d : Nat) : h.create k size b d = (mk h k size b d).storeIn h.next := rfl

theorem next_dead {h : HQ} (o : Ok h) : h.live h.next = false := by
  cases e : h.live h.next with
  | false => rfl
  | true => have := o.lt _ e; omega

theorem next_own {h : HQ} (o : Ok h) : h.dq (.own h.next) = [] := by
  cases hq : h.dq (.own h.next) with
  | nil => rfl
  | cons a l =>
    have hm : a ∈ h.dq (.own h.next) := by rw [hq]; exact List.mem_cons_self
    have h1 := (o.qmem _ _).mp hm
    have := (o.owner a _ h1.1 h1.2.1 h1.2.2).1
    rw [next_dead o] at this; cases this

theorem ls_live {h : HQ} (o : Ok h) {b : Addr} : (∀ i, Addr.dqe i ∈ Ls h b → h.live i = true) ∧
    (∀ i, Addr.htb i ∈ Ls h b → h.live i = true) ∧ (∀ i, Addr.lru i ∈ Ls h b → h.live i = true) ∧ ∀ q, Addr.dqHd q ∉ Ls h b := by
  cases b with
  | slot s =>
    refine ⟨fun i hi => ?_, fun i hi => ?_, fun i hi => ?_, fun q hi => ?_⟩ <;> obtain ⟨j, hj, e⟩ := List.mem_map.mp hi <;> cases e
    exact ((o.tmem _ _).mp hj).1
  | lruHd =>
    refine ⟨fun i hi => ?_, fun i hi => ?_, fun i hi => ?_, fun q hi => ?_⟩ <;> obtain ⟨j, hj, e⟩ := List.mem_map.mp hi <;> cases e
    exact (o.llive _).mp hj
  | dqHd q =>
    refine ⟨fun i hi => ?_, fun i hi => ?_, fun i hi => ?_, fun q hi => ?_⟩ <;> obtain ⟨j, hj, e⟩ := List.mem_map.mp hi <;> cases e
    exact ((o.qmem _ _).mp hj).1
  | htb j => exact ⟨fun i hi => (nomatch hi), fun i hi => (nomatch hi), fun i hi => (nomatch hi), fun i hi => (nomatch hi)⟩
  | lru j => exact ⟨fun i hi => (nomatch hi), fun i hi => (nomatch hi), fun i hi => (nomatch hi), fun i hi => (nomatch hi)⟩
  | dqe j => exact ⟨fun i hi => (nomatch hi), fun i hi => (nomatch hi), fun i hi => (nomatch hi), fun i hi => (nomatch hi)⟩

theorem rep_newElem {p : PQ} {h : HQ} (r : Rep p h) (o : Ok h) (k size : Nat) (b : Bool) (d : Nat) :
    Rep (p.newElem k size b d) (mk h k size b d) := by
  have nd := next_dead o
  have no : ∀ {x : Nat}, h.live x = true → x ≠ h.next := fun hx e => by rw [e, nd] at hx; cases hx
  have n1 : ∀ a, Hd h a → Addr.dqe h.next ∉ Ls h a := fun a _ hc => no ((ls_live o).1 _ hc) rfl
  have n2 : ∀ a, Hd h a → Addr.htb h.next ∉ Ls h a := fun a _ hc => no ((ls_live o).2.1 _ hc) rfl
  have n3 : ∀ a, Hd h a → Addr.lru h.next ∉ Ls h a := fun a _ hc => no ((ls_live o).2.2.1 _ hc) rfl
  have f3 := ((r.forest.init (x := .dqe h.next) (fun h => h) n1).init (x := .htb h.next) (fun h => h) n2).init
    (x := .lru h.next) (fun h => h) n3
  have hF : ∀ x, Fr (mk h k size b d) x → ((Fr h x ∨ x = .dqe h.next) ∨ x = .htb h.next) ∨ x = .lru h.next := by
    intro x hx
    have key : ∀ j, (mk h k size b d).live j = true → h.live j = true ∨ j = h.next := by
      intro j hj
      have hj' : (if j = h.next then true else h.live j) = true := hj
      by_cases e : j = h.next
      · exact .inr e
      · rw [if_neg e] at hj'; exact .inl hj'
    cases x with
    | htb j =>
      rcases key j hx.1 with e | e
      · exact .inl (.inl (.inl ⟨e, hx.2⟩))
      · exact .inl (.inr (by rw [e]))
    | lru j =>
      rcases key j hx.1 with e | e
      · exact .inl (.inl (.inl ⟨e, hx.2⟩))
      · exact .inr (by rw [e])
    | dqe j =>
      rcases key j hx.1 with e | e
      · exact .inl (.inl (.inl ⟨e, hx.2⟩))
      · exact .inl (.inl (.inr (by rw [e])))
    | slot s => exact hx.elim
    | lruHd => exact hx.elim
    | dqHd q => exact hx.elim
  have hH : ∀ a, Hd (mk h k size b d) a ↔ Hd h a ∨ (b = true ∧ a = .dqHd (.own h.next)) := by
    intro a
    cases a with
    | slot s => exact ⟨fun hh => .inl hh, fun hh => hh.elim id (fun e => (nomatch e.2))⟩
    | lruHd => exact ⟨fun hh => .inl hh, fun hh => trivial⟩
    | htb j => exact ⟨fun hh => hh.elim, fun hh => hh.elim id (fun e => (nomatch e.2))⟩
    | lru j => exact ⟨fun hh => hh.elim, fun hh => hh.elim id (fun e => (nomatch e.2))⟩
    | dqe j => exact ⟨fun hh => hh.elim, fun hh => hh.elim id (fun e => (nomatch e.2))⟩
    | dqHd q =>
      cases q with
      | unis => exact ⟨fun hh => .inl hh, fun hh => trivial⟩
      | iis => exact ⟨fun hh => .inl hh, fun hh => trivial⟩
      | vnis => exact ⟨fun hh => .inl hh, fun hh => trivial⟩
      | own w =>
        show (if w = h.next then true else h.live w) = true ∧
          (if w = h.next then (⟨k, size, b, d, 0, false, 0, false, false, false, h.classOf b, 0, 0⟩ : Elem) else h.heap w).isInode = true ↔
          (h.live w = true ∧ (h.heap w).isInode = true) ∨ _
        by_cases e : w = h.next
        · rw [if_pos e, if_pos e, e]
          exact ⟨fun hh => .inr ⟨hh.2, rfl⟩, fun hh => ⟨rfl, hh.elim (fun hh => absurd hh.1 (by rw [nd]; decide)) (fun hh => hh.1)⟩⟩
        · rw [if_neg e, if_neg e]
          exact ⟨fun hh => .inl hh, fun hh => hh.elim id (fun hh => absurd (by cases hh.2; rfl) e)⟩
  refine ⟨r.vkind, r.hash, r.nslots, ?_, ?_, ?_, r.size, ?_, r.lruSz, ?_, ?_, r.crash, r.pos⟩
  · show (fun j => if j = p.next then _ else p.heap j) = (fun j => if j = h.next then _ else h.heap j)
    rw [r.next, r.heap]
    unfold PQ.classOf HQ.classOf
    rw [r.vkind]
  · show (fun j => if j = p.next then true else p.live j) = (fun j => if j = h.next then true else h.live j)
    rw [r.next, r.live]
  · show p.next + 1 = h.next + 1
    rw [r.next]
  · show (fun q => if b = true ∧ q = .own p.next then 0 else p.accum q) = h.accum
    funext q
    by_cases e : b = true ∧ q = .own p.next
    · rw [if_pos e, e.2, r.next]; exact (accum_own o (next_own o)).symm
    · rw [if_neg e, r.accum]
  · intro q
    show (if b = true ∧ q = .own p.next then 0 else p.dqSz q) = (h.dq q).length
    by_cases e : b = true ∧ q = .own p.next
    · rw [if_pos e, e.2, r.next, next_own o]; rfl
    · rw [if_neg e, r.dqSz]
  · show Forest (if b then _ else _) _ _ _
    rw [r.next]
    cases b with
    | false =>
      rw [if_neg (by decide)]
      refine forest_to f3 (fun a => ?_) (fun a _ => by cases a <;> rfl) hF
      rw [hH a]
      exact ⟨fun hh => hh.elim id (fun e => absurd e.1 (by decide)), fun hh => .inl hh⟩
    | true =>
      rw [if_pos rfl]
      have f4 := f3.newHead (h := .dqHd (.own h.next)) (fun hc => no hc.1 rfl) (fun a _ hc => (ls_live o).2.2.2 _ hc)
      refine forest_to f4 (fun a => ?_) (fun a _ => ?_) (fun x hx => ⟨hF x hx, fun e => by rw [e] at hx; exact hx⟩)
      · rw [hH a]
        exact ⟨fun hh => hh.elim .inl (fun e => .inr e.2), fun hh => hh.elim .inl (fun e => .inr ⟨rfl, e⟩)⟩
      · by_cases e : a = .dqHd (.own h.next)
        · rw [if_pos e, e]
          show (h.dq (.own h.next)).map Addr.dqe = []
          rw [next_own o]; rfl
        · rw [if_neg e]; cases a <;> rfl

theorem rep_storeIn {p : PQ} {h : HQ} (r : Rep p h) {i : Nat} (hl : h.live i = true) (h1 : i ∉ h.lru) (h2 : ∀ s, i ∉ h.htbl s) :
    Rep (p.storeIn i) (h.storeIn i) := by
  have r1 := rep_toLru r hl h1
  have r2 := rep_onSlot (s := h.slot (h.heap i).key) r1 (slot_lt r.pos _) hl h2
  have r3 := rep_upd r2 i (fun e => { e with mapped := true }) rfl
  have e : p.slotOf (p.heap i).key = .slot (h.slot (h.heap i).key) := by rw [slotOf_eq r, r.heap]
  unfold PQ.storeIn PQ.hmap
  rw [e]
  exact ⟨r3.vkind, r3.hash, r3.nslots, r3.heap, r3.live, r3.next, by show p.size + 1 = h.size + 1; rw [r.size], r3.accum, r3.lruSz,
    r3.dqSz, r3.forest, r3.crash, r3.pos⟩

theorem rep_create {p : PQ} {h : HQ} (r : Rep p h) (o : Ok h) (k size : Nat) (b : Bool) (d : Nat) :
    Rep (p.create k size b d) (h.create k size b d) := by
  have nd := next_dead o
  rw [create_mk]
  unfold PQ.create
  rw [r.next]
  refine rep_storeIn (rep_newElem r o k size b d) (if_pos rfl) (fun hc => ?_) (fun s hc => ?_)
  · have := (o.llive _).mp hc
    rw [nd] at this; cases this
  · have := ((o.tmem _ _).mp hc).1
    rw [nd] at this; cases this

/-! ### Look up -/

theorem after_cons {a : Addr} {l : List Addr} : after (a :: l) a = l.head? := after_app [] a l (fun h => (nomatch h))

theorem findLoop_eq {p : PQ} {h : HQ} (r : Rep p h) {s : Nat} (hs : s < h.nslots) (k : Nat) : ∀ (l2 l1 : List Nat),
    h.htbl s = l1 ++ l2 → ∀ n, l2.length < n → p.findLoop (.slot s) k n (some ((l2.map Addr.htb).headD (.slot s))) =
      match l2.find? (fun i => decide ((h.heap i).key = k)) with
      | none => .null
      | some i => .elem i
  | [], l1, e, n, hn => by
    obtain ⟨n, rfl⟩ : ∃ m, n = m + 1 := ⟨n - 1, by simp at hn; omega⟩
    show (if some (Addr.slot s) = some (.slot s) then Ptr.null else _) = _
    rw [if_pos rfl]; rfl
  | x :: l2, l1, e, n, hn => by
    obtain ⟨n, rfl⟩ : ∃ m, n = m + 1 := ⟨n - 1, by simp at hn; omega⟩
    have hn' : l2.length < n := by rw [List.length_cons] at hn; omega
    have rg := r.forest.ring (.slot s) hs
    have g := ring_next rg (x := Addr.htb x)
      (by show Addr.htb x ∈ (h.htbl s).map Addr.htb; rw [e]; exact List.mem_map_of_mem (List.mem_append_right _ List.mem_cons_self))
    have nx : (p.mem.lnk (.htb x)).next = some ((l2.map Addr.htb).headD (.slot s)) := by
      rw [g]
      have hnd := rg.nodup
      have hl : Ls h (.slot s) = l1.map Addr.htb ++ Addr.htb x :: l2.map Addr.htb := by
        show (h.htbl s).map Addr.htb = _
        rw [e, List.map_append]; rfl
      rw [hl] at hnd ⊢
      have hx : Addr.htb x ∉ l1.map Addr.htb := fun hc =>
        (List.nodup_append.mp (List.nodup_cons.mp hnd).2).2.2 _ hc _ List.mem_cons_self rfl
      rw [after_app _ _ _ hx]
      cases l2 <;> rfl
    show (if some (Addr.htb x) = some (.slot s) then Ptr.null else
      if (p.heap x).key = k then Ptr.elem x else p.findLoop (.slot s) k n (p.mem.lnk (.htb x)).next) = _
    rw [if_neg (fun h => by cases h), nx, r.heap]
    by_cases hk : (h.heap x).key = k
    · rw [if_pos hk, List.find?_cons_of_pos (by simp [hk])]
    · rw [if_neg hk, List.find?_cons_of_neg (by simp [hk])]
      exact findLoop_eq r hs k l2 (l1 ++ [x]) (by rw [e, List.append_assoc]; rfl) n hn'

theorem nodup_len : ∀ (l m : List Nat), l.Nodup → (∀ x, x ∈ l → x ∈ m) → l.length ≤ m.length
  | [], _, _, _ => Nat.zero_le _
  | a :: l, m, nd, hs => by
    obtain ⟨h1, h2⟩ := List.nodup_cons.mp nd
    have ha : a ∈ m := hs a List.mem_cons_self
    have ih := nodup_len l (m.erase a) h2 (fun x hx => by
      have : x ≠ a := fun e => h1 (e ▸ hx)
      exact (List.mem_erase_of_ne this).mpr (hs x (List.mem_cons_of_mem _ hx)))
    rw [List.length_erase_of_mem ha] at ih
    have : 0 < m.length := List.length_pos_of_mem ha
    rw [List.length_cons]; omega

theorem slot_len {h : HQ} (o : Ok h) (s : Nat) : (h.htbl s).length ≤ h.size := by
  rw [o.size]
  refine nodup_len _ _ (o.tnodup s) (fun i hi => ?_)
  have := (o.tmem s i).mp hi
  exact List.mem_filter.mpr ⟨(o.llive i).mpr this.1, this.2.1⟩

theorem find_eq {p : PQ} {h : HQ} (r : Rep p h) (o : Ok h) (k : Nat) : p.find k = match h.find k with
    | none => .null
    | some i => .elem i := by
  have hs := slot_lt r.pos k
  have f := ring_front (r.forest.ring (.slot (h.slot k)) hs)
  unfold PQ.find
  rw [slotOf_eq r, f, r.size]
  exact findLoop_eq r hs k (h.htbl (h.slot k)) [] rfl _ (Nat.lt_succ_of_le (slot_len o (h.slot k)))

theorem rep_crash {p : PQ} {h : HQ} (r : Rep p h) {b : Bool} (hb : b = false) (c : Bool) :
    Rep { p with crash := p.crash || b } { h with crash := c } :=
  ⟨r.vkind, r.hash, r.nslots, r.heap, r.live, r.next, r.size, r.accum, r.lruSz, r.dqSz,
    forest_to r.forest (hd_congr rfl rfl (fun _ => rfl)) (fun a _ => by cases a <;> rfl) (fun x hx => by cases x <;> exact hx),
    by show (p.crash || b) = false; rw [r.crash, hb]; rfl, r.pos⟩

theorem rep_lookup {p : PQ} {h : HQ} (r : Rep p h) (o : Ok h) (k : Nat) :
    (p.lookup k).1 = (h.lookup k).1 ∧ Rep (p.lookup k).2 (h.lookup k).2 := by
  have hf := find_eq r o k
  unfold PQ.lookup HQ.lookup
  rw [hf]
  cases e : h.find k with
  | none => exact ⟨rfl, r⟩
  | some i =>
    obtain ⟨h1, h2, h3⟩ := (Silofs.Lcache.find_some o).mp e
    refine ⟨rfl, ?_⟩
    have hc : (h.crash || !(h.heap i).mapped) = h.crash := by rw [h2]; simp
    have r1 := rep_crash (b := !(p.heap i).mapped) r (by rw [r.heap, h2]; rfl) (h.crash || !(h.heap i).mapped)
    refine rep_promote r1 ?_ h1 false
    rw [hc]; exact o

/-! ### Eviction -/

theorem evictable_eq {p : PQ} {h : HQ} (r : Rep p h) (i : Nat) : p.evictable i = h.evictable i := by
  unfold PQ.evictable HQ.evictable
  rw [r.heap, r.dqSz]
  have : decide ((h.dq (.own i)).length = 0) = (h.dq (.own i)).isEmpty := by cases h.dq (.own i) <;> rfl
  rw [this]

theorem rep_evictable {p : PQ} {h : HQ} (r : Rep p h) (o : Ok h) {i : Nat} (hl : h.live i = true)
    (he : h.evictable i = true) : Rep (p.evict i) (h.evict i) := by
  obtain ⟨a, b, c, d⟩ := Silofs.Lcache.evictable_iff.mp he
  refine rep_evict r o hl (fun _ => c) d ?_
  cases hi : (h.heap i).isInode with
  | true => exact (a hi).2
  | false => exact Silofs.Lcache.own_nil o hi

theorem rep_evictOrRelru {p : PQ} {h : HQ} (r : Rep p h) (o : Ok h) {i : Nat} (hl : h.live i = true) :
    Rep (p.evictOrRelru i) (h.evictOrRelru i) := by
  unfold PQ.evictOrRelru HQ.evictOrRelru
  rw [evictable_eq r]
  by_cases he : h.evictable i = true
  · rw [if_pos he, if_pos he]; exact rep_evictable r o hl he
  · rw [if_neg he, if_neg he]; exact rep_promote r o hl true

theorem back_eq {p : PQ} {h : HQ} (r : Rep p h) : (p.mem.lnk .lruHd).prev =
    match h.lru.getLast? with
    | none => some .lruHd
    | some x => some (.lru x) := by
  rw [ring_back (r.forest.ring .lruHd trivial)]
  show some ((h.lru.map Addr.lru).getLastD .lruHd) = _
  rw [List.getLastD_eq_getLast?, List.getLast?_map]
  cases h.lru.getLast? <;> rfl

theorem getLru_eq {p : PQ} {h : HQ} (r : Rep p h) : p.getLru = match h.lru.getLast? with
    | none => .null
    | some x => .elem x := by
  unfold PQ.getLru
  rw [r.lruSz, back_eq r]
  cases e : h.lru with
  | nil => rfl
  | cons a l =>
    rw [if_pos (by show (a :: l).length > 0; simp)]
    rw [List.getLast?_eq_some_getLast (by simp)]
    rfl

theorem rep_shrinkLoop (now : Bool) : ∀ (n i ev : Nat) {p : PQ} {h : HQ}, Rep p h → Ok h →
    (PQ.shrinkLoop now n i ev p).1 = (HQ.shrinkLoop now n i ev h).1 ∧
    Rep (PQ.shrinkLoop now n i ev p).2 (HQ.shrinkLoop now n i ev h).2
  | 0, _, _, _, _, r, o => ⟨rfl, r⟩
  | n + 1, i, ev, p, h, r, o => by
    unfold PQ.shrinkLoop HQ.shrinkLoop
    rw [getLru_eq r]
    cases hx : h.lru.getLast? with
    | none => exact ⟨rfl, r⟩
    | some x =>
      have hl : h.live x = true := (o.llive x).mp (List.mem_of_getLast? hx)
      have m := (Silofs.Lcache.maint_evictOrRelru o hl).ok
      have r1 := rep_evictOrRelru r o hl
      dsimp only
      rw [evictable_eq r, r.vkind]
      by_cases he : h.evictable x = true
      · rw [if_pos he, if_pos he]; exact rep_shrinkLoop now n _ _ r1 m
      · rw [if_neg he, if_neg he]
        by_cases hs : (if h.vkind then !now && (decide (i ≠ 0) || decide (ev ≠ 0)) else !now) = true
        · rw [if_pos hs, if_pos hs]; exact ⟨rfl, r1⟩
        · rw [if_neg hs, if_neg hs]; exact rep_shrinkLoop now n _ _ r1 m

theorem rep_shrink {p : PQ} {h : HQ} (r : Rep p h) (o : Ok h) (cnt : Nat) (now : Bool) :
    (p.shrink cnt now).1 = (h.shrink cnt now).1 ∧ Rep (p.shrink cnt now).2 (h.shrink cnt now).2 := by
  unfold PQ.shrink HQ.shrink
  rw [r.lruSz]
  exact rep_shrinkLoop now _ _ _ r o

/-- A position in the LRU queue as a pointer. -/
def ptr : Option Nat → Option Addr
  | none => some .lruHd
  | some x => some (.lru x)

theorem prev_eq {p : PQ} {h : HQ} (r : Rep p h) (o : Ok h) {l1 l2 : List Nat} {x : Nat} (e : h.lru = l1 ++ x :: l2) :
    (p.mem.lnk (.lru x)).prev = ptr l1.getLast? ∧ prevOf h.lru x = l1.getLast? := by
  have rg := r.forest.ring .lruHd trivial
  have hx : x ∈ h.lru := by rw [e]; exact List.mem_append_right _ List.mem_cons_self
  have nd := o.lnodup
  rw [e] at nd
  have nx : x ∉ l1 := fun hc => (List.nodup_append.mp nd).2.2 x hc x List.mem_cons_self rfl
  have nx2 : x ∉ l2 := (List.nodup_cons.mp (List.nodup_append.mp nd).2.1).1
  constructor
  · rw [ring_prev rg (x := Addr.lru x) (List.mem_map_of_mem hx)]
    have hl : Ls h .lruHd = l1.map Addr.lru ++ Addr.lru x :: l2.map Addr.lru := by
      show h.lru.map Addr.lru = _
      rw [e, List.map_append]; rfl
    rw [hl, Silofs.Lk.before_app, List.getLast?_map]
    · cases l1.getLast? <;> rfl
    · intro hc
      obtain ⟨j, hj, ej⟩ := List.mem_map.mp hc
      cases ej; exact nx hj
    · rw [← hl]; exact (List.nodup_cons.mp rg.nodup).2
  · rw [e]
    clear e hx rg
    have skip : ∀ (l : List Nat) (y : Nat), prevOf (y :: (l ++ x :: l2)) x = prevOf (y :: (l ++ [x])) x := by
      intro l
      induction l with
      | nil =>
        intro y
        show (if x = x then some y else _) = (if x = x then some y else _)
        rw [if_pos rfl, if_pos rfl]
      | cons z l ih =>
        intro y
        show (if z = x then some y else prevOf (z :: (l ++ x :: l2)) x) = (if z = x then some y else prevOf (z :: (l ++ [x])) x)
        rw [ih z]
    cases l1 with
    | nil =>
      show prevOf (x :: l2) x = none
      have none_of : ∀ (l : List Nat) (y : Nat), x ∉ l → prevOf (y :: l) x = none := by
        intro l
        induction l with
        | nil => intro y _; rfl
        | cons z l ih =>
          intro y hz
          have hzx : ¬ z = x := fun e => hz (e ▸ List.mem_cons_self)
          show (if z = x then some y else prevOf (z :: l) x) = none
          rw [if_neg hzx]
          exact ih z (fun h => hz (List.mem_cons_of_mem _ h))
      exact none_of l2 x nx2
    | cons y l =>
      rw [List.cons_append, skip l y, ← List.cons_append]
      exact Silofs.Lcache.prevOf_last _ _ nx

theorem split_of {l : List Nat} {x : Nat} (h : x ∈ l) : ∃ l1 l2, l = l1 ++ x :: l2 := List.append_of_mem h

theorem evictOrRelru_others {h : HQ} (o : Ok h) {i : Nat} (hl : h.live i = true) {j : Nat} (hj : h.live j = true) (hne : j ≠ i) :
    (h.evictOrRelru i).live j = true := by
  have m := Silofs.Lcache.maint_evictOrRelru o hl
  have hm : j ∈ h.lru := (o.llive j).mpr hj
  rw [← m.ok.llive]
  rcases Silofs.Lcache.evictOrRelru_lru o hl with ⟨_, g⟩ | ⟨_, g⟩ | ⟨_, _, g⟩
  · rw [g]; exact (List.mem_erase_of_ne hne).mpr hm
  · rw [g]; exact List.mem_cons_of_mem _ ((List.mem_erase_of_ne hne).mpr hm)
  · rw [g]; exact hm

theorem rep_riterEvict : ∀ (n : Nat) (itr : Option Nat) {p : PQ} {h : HQ}, Rep p h → Ok h → (∀ x, itr = some x → h.live x = true) →
    Rep (PQ.riterEvict n (ptr itr) p) (HQ.riterEvict n itr h)
  | 0, none, _, _, r, o, _ => r
  | 0, some _, _, _, r, o, _ => r
  | n + 1, none, p, h, r, o, _ => by
    show Rep (if some Addr.lruHd = some .lruHd then p else _) h
    rw [if_pos rfl]; exact r
  | n + 1, some x, p, h, r, o, hx => by
    have hl := hx x rfl
    show Rep (if some (Addr.lru x) = some .lruHd then p else PQ.riterEvict n (p.mem.lnk (.lru x)).prev (p.evictOrRelru x))
      (HQ.riterEvict n (prevOf h.lru x) (h.evictOrRelru x))
    rw [if_neg (fun e => by cases e)]
    obtain ⟨l1, l2, e⟩ := split_of ((o.llive x).mpr hl)
    obtain ⟨g1, g2⟩ := prev_eq r o e
    rw [g1, g2]
    refine rep_riterEvict n _ (rep_evictOrRelru r o hl) (Silofs.Lcache.maint_evictOrRelru o hl).ok (fun y hy => ?_)
    have hm : y ∈ l1 := List.mem_of_getLast? hy
    have nd := o.lnodup
    rw [e] at nd
    refine evictOrRelru_others o hl ((o.llive y).mp (by rw [e]; exact List.mem_append_left _ hm)) (fun e' => ?_)
    rw [e'] at hm
    exact (List.nodup_append.mp nd).2.2 x hm x List.mem_cons_self rfl

theorem rep_dropEvictable {p : PQ} {h : HQ} (r : Rep p h) (o : Ok h) : Rep p.dropEvictable h.dropEvictable := by
  unfold PQ.dropEvictable HQ.dropEvictable
  rw [r.lruSz, back_eq r]
  exact rep_riterEvict _ h.lru.getLast? r o (fun x hx => (o.llive x).mp (List.mem_of_getLast? hx))

theorem riterFind_eq {p : PQ} {h : HQ} (r : Rep p h) (o : Ok h) : ∀ (n : Nat) (l1 l2 : List Nat), h.lru = l1 ++ l2 → n ≤ l1.length →
    p.riterFind n (ptr l1.getLast?) = match (l1.reverse.take n).find? (fun i => h.evictable i) with
      | none => .null
      | some i => .elem i
  | 0, l1, l2, _, _ => by rw [List.take_zero]; rfl
  | n + 1, l1, l2, e, hn => by
    have hne : l1 ≠ [] := fun h => by rw [h] at hn; cases hn
    obtain ⟨A, x, rfl⟩ : ∃ A x, l1 = A ++ [x] := ⟨_, _, (List.dropLast_concat_getLast hne).symm⟩
    have e' : h.lru = A ++ x :: l2 := by rw [e, List.append_assoc]; rfl
    rw [List.getLast?_concat, List.reverse_append]
    show (if some (Addr.lru x) = some .lruHd then Ptr.null else if p.evictable x then .elem x else
      p.riterFind n (p.mem.lnk (.lru x)).prev) = match ((x :: A.reverse).take (n + 1)).find? (fun i => h.evictable i) with
      | none => .null
      | some i => .elem i
    rw [if_neg (fun e => by cases e), (prev_eq r o e').1, evictable_eq r, List.take_succ_cons]
    by_cases he : h.evictable x = true
    · rw [if_pos he, List.find?_cons_of_pos he]
    · rw [if_neg he, List.find?_cons_of_neg he]
      exact riterFind_eq r o n A (x :: l2) e' (by rw [List.length_append] at hn; simp at hn; omega)

theorem findEvictable_eq {p : PQ} {h : HQ} (r : Rep p h) (o : Ok h) : p.findEvictable = match h.findEvictable with
    | none => .null
    | some i => .elem i := by
  unfold PQ.findEvictable HQ.findEvictable
  have hb : (p.mem.lnk .lruHd).prev = ptr h.lru.getLast? := back_eq r
  rw [hb, r.lruSz, riterFind_eq r o (min 10 h.lru.length) h.lru [] (List.append_nil _).symm (Nat.min_le_right _ _)]
  have : h.lru.reverse.take (min 10 h.lru.length) = h.lru.reverse.take 10 := by
    rw [← List.length_reverse, Nat.min_comm, List.take_eq_take_min (i := 10), Nat.min_comm]
  rw [this]

theorem overpop_eq {p : PQ} {h : HQ} (r : Rep p h) : p.overpop = h.overpop := by
  unfold PQ.overpop HQ.overpop
  rw [r.size, r.nslots, r.lruSz]

theorem rep_forget {p : PQ} {h : HQ} (r : Rep p h) (o : Ok h) {i : Nat} (hl : h.live i = true)
    (hr : h.vkind = false → (h.heap i).refcnt = 0) (hown : h.dq (.own i) = []) :
    Rep (p.forget i) (h.forget i) := by
  have r1 := rep_undirtify r o hl
  have o1 := Silofs.Lcache.ok_undirtify o hl
  have hl1 : (h.undirtify i).live i = true := by rw [(Silofs.Lcache.undirtify_rest h i).1]; exact hl
  have hq1 : ((h.undirtify i).heap i).inq = false := by rw [Silofs.Lcache.undirtify_heap, if_pos rfl]
  unfold PQ.forget HQ.forget
  rw [r.vkind, r1.heap]
  cases hv : h.vkind with
  | true =>
    rw [if_pos rfl, if_pos rfl]
    by_cases hc : ((h.undirtify i).heap i).refcnt > 0
    · rw [if_pos hc, if_pos hc]
      exact rep_upd (rep_unmap r1 o1 hl1) i (fun e => { e with forgot := true }) rfl
    · rw [if_neg hc, if_neg hc]
      refine rep_evict r1 o1 hl1 (fun _ => hq1) (by omega) ?_
      apply List.eq_nil_iff_forall_not_mem.mpr
      intro j hj
      have := ((Silofs.Lcache.undirtify_dq o hl _ j).mp hj).1
      rw [hown] at this; cases this
  | false =>
    rw [if_neg (by decide), if_neg (by decide)]
    exact rep_evict r o hl (fun e => by rw [hv] at e; cases e) (hr hv) hown

end Silofs.Hmq
