import Verif.Props.HmapqRep
set_option linter.unusedSimpArgs false
set_option linter.unusedVariables false
/-
C69: calls on the hash table and the LRU queue in linked memory do what they do with plain sequences.
-/
namespace Silofs.Hmq
open Silofs.Lk (Mem dec Ring Forest ring_front ring_back ring_next ring_prev after before)
open Silofs.Lcache (Dq Elem HQ Ok)

/-! ### One list changed -/

theorem ls_lru {h h' : HQ} (e1 : h'.htbl = h.htbl) (e2 : h'.dq = h.dq) (a : Addr) :
    Ls h' a = if a = .lruHd then h'.lru.map .lru else Ls h a := by
  cases a with
  | lruHd => rw [if_pos rfl]; rfl
  | slot s => rw [if_neg (fun e => by cases e)]; show (h'.htbl s).map _ = (h.htbl s).map _; rw [e1]
  | dqHd q => rw [if_neg (fun e => by cases e)]; show (h'.dq q).map _ = (h.dq q).map _; rw [e2]
  | htb i => rw [if_neg (fun e => by cases e)]; rfl
  | lru i => rw [if_neg (fun e => by cases e)]; rfl
  | dqe i => rw [if_neg (fun e => by cases e)]; rfl

theorem ls_slot {h h' : HQ} {s : Nat} (e1 : h'.lru = h.lru) (e2 : h'.dq = h.dq) (e3 : ∀ t, t ≠ s → h'.htbl t = h.htbl t)
    (a : Addr) : Ls h' a = if a = .slot s then (h'.htbl s).map .htb else Ls h a := by
  cases a with
  | lruHd => rw [if_neg (fun e => by cases e)]; show h'.lru.map _ = h.lru.map _; rw [e1]
  | slot t =>
    by_cases e : t = s
    · rw [e, if_pos rfl]; rfl
    · rw [if_neg (fun e' => e (by cases e'; rfl))]; show (h'.htbl t).map _ = (h.htbl t).map _; rw [e3 t e]
  | dqHd q => rw [if_neg (fun e => by cases e)]; show (h'.dq q).map _ = (h.dq q).map _; rw [e2]
  | htb i => rw [if_neg (fun e => by cases e)]; rfl
  | lru i => rw [if_neg (fun e => by cases e)]; rfl
  | dqe i => rw [if_neg (fun e => by cases e)]; rfl

theorem rep_unlru {p : PQ} {h : HQ} (r : Rep p h) {i : Nat} (hi : i ∈ h.lru) :
    Rep (p.unlru i) { h with lru := h.lru.erase i } := by
  have hin : Addr.lru i ∈ Ls h .lruHd := List.mem_map_of_mem hi
  have f := r.forest.remove (h := .lruHd) trivial hin
  refine ⟨r.vkind, r.hash, r.nslots, r.heap, r.live, r.next, r.size, r.accum, ?_, r.dqSz, ?_, r.crash, r.pos⟩
  · show dec p.lruSz = (h.lru.erase i).length
    rw [r.lruSz, List.length_erase_of_mem hi]
    have : h.lru.length ≠ 0 := fun e => by rw [List.length_eq_zero_iff.mp e] at hi; cases hi
    unfold dec; rw [if_neg this]
  · refine forest_to f (hd_congr rfl rfl (fun _ => rfl)) (fun a _ => ?_) (fun x hx => ?_)
    · refine (ls_lru (h := h) (h' := { h with lru := h.lru.erase i }) rfl rfl a).trans ?_
      show _ = (if a = .lruHd then (h.lru.map Addr.lru).erase (.lru i) else Ls h a)
      rw [map_erase_inj lru_inj]
    · cases x with
      | lru j =>
        by_cases e : j = i
        · right; rw [e]
        · exact .inl ⟨hx.1, fun hm => hx.2 ((List.mem_erase_of_ne e).mpr hm)⟩
      | htb j => exact .inl hx
      | dqe j => exact .inl hx
      | slot s => exact hx.elim
      | lruHd => exact hx.elim
      | dqHd q => exact hx.elim

theorem rep_toLru {p : PQ} {h : HQ} (r : Rep p h) {i : Nat} (hl : h.live i = true) (hi : i ∉ h.lru) :
    Rep (p.toLru i) { h with lru := i :: h.lru } := by
  have f := r.forest.pushFront (h := .lruHd) (x := .lru i) trivial ⟨hl, hi⟩
  refine ⟨r.vkind, r.hash, r.nslots, r.heap, r.live, r.next, r.size, r.accum, ?_, r.dqSz, ?_, r.crash, r.pos⟩
  · show p.lruSz + 1 = (i :: h.lru).length
    rw [r.lruSz]; rfl
  · refine forest_to f (hd_congr rfl rfl (fun _ => rfl)) (fun a _ => ?_) (fun x hx => ?_)
    · exact (ls_lru (h := h) (h' := { h with lru := i :: h.lru }) rfl rfl a).trans rfl
    · cases x with
      | lru j =>
        obtain ⟨h1, h2⟩ := hx
        refine ⟨⟨h1, fun hm => h2 (List.mem_cons_of_mem _ hm)⟩, fun e => h2 ?_⟩
        cases e; exact List.mem_cons_self
      | htb j => exact ⟨hx, fun e => by cases e⟩
      | dqe j => exact ⟨hx, fun e => by cases e⟩
      | slot s => exact hx.elim
      | lruHd => exact hx.elim
      | dqHd q => exact hx.elim

/-- Taken off slot `s`. -/
theorem rep_offSlot {p : PQ} {h : HQ} (r : Rep p h) {i s : Nat} (hs : s < h.nslots) (hi : i ∈ h.htbl s) :
    Rep { p with mem := p.mem.remove (.htb i) } { h with htbl := fun t => if t = s then (h.htbl t).erase i else h.htbl t } := by
  have hin : Addr.htb i ∈ Ls h (.slot s) := List.mem_map_of_mem hi
  have f := r.forest.remove (h := .slot s) hs hin
  refine ⟨r.vkind, r.hash, r.nslots, r.heap, r.live, r.next, r.size, r.accum, r.lruSz, r.dqSz, ?_, r.crash, r.pos⟩
  refine forest_to f (hd_congr rfl rfl (fun _ => rfl)) (fun a _ => ?_) (fun x hx => ?_)
  · refine (ls_slot (h := h) (h' := { h with htbl := fun t => if t = s then (h.htbl t).erase i else h.htbl t }) (s := s) rfl rfl (fun t ht => if_neg ht) a).trans ?_
    show (if a = .slot s then (if s = s then (h.htbl s).erase i else h.htbl s).map Addr.htb else Ls h a) =
      (if a = .slot s then ((h.htbl s).map Addr.htb).erase (.htb i) else Ls h a)
    rw [map_erase_inj htb_inj, if_pos rfl]
  · cases x with
    | htb j =>
      by_cases e : j = i
      · right; rw [e]
      · refine .inl ⟨hx.1, fun t hm => hx.2 t ?_⟩
        show j ∈ (if t = s then (h.htbl t).erase i else h.htbl t)
        by_cases e2 : t = s
        · rw [if_pos e2]; exact (List.mem_erase_of_ne e).mpr hm
        · rw [if_neg e2]; exact hm
    | lru j => exact .inl hx
    | dqe j => exact .inl hx
    | slot s => exact hx.elim
    | lruHd => exact hx.elim
    | dqHd q => exact hx.elim

/-- Put in front in slot `s`. -/
theorem rep_onSlot {p : PQ} {h : HQ} (r : Rep p h) {i s : Nat} (hs : s < h.nslots) (hl : h.live i = true)
    (hi : ∀ t, i ∉ h.htbl t) :
    Rep { p with mem := p.mem.pushFront (.slot s) (.htb i) } { h with htbl := fun t => if t = s then i :: h.htbl t else h.htbl t } := by
  have f := r.forest.pushFront (h := .slot s) (x := .htb i) hs ⟨hl, hi⟩
  refine ⟨r.vkind, r.hash, r.nslots, r.heap, r.live, r.next, r.size, r.accum, r.lruSz, r.dqSz, ?_, r.crash, r.pos⟩
  refine forest_to f (hd_congr rfl rfl (fun _ => rfl)) (fun a _ => ?_) (fun x hx => ?_)
  · refine (ls_slot (h := h) (h' := { h with htbl := fun t => if t = s then i :: h.htbl t else h.htbl t }) (s := s) rfl rfl (fun t ht => if_neg ht) a).trans ?_
    show (if a = .slot s then (if s = s then i :: h.htbl s else h.htbl s).map Addr.htb else Ls h a) = _
    rw [if_pos rfl]; rfl
  · cases x with
    | htb j =>
      obtain ⟨h1, h2⟩ := hx
      refine ⟨⟨h1, fun t hm => h2 t ?_⟩, fun e => h2 s ?_⟩
      · show j ∈ (if t = s then i :: h.htbl t else h.htbl t)
        by_cases e2 : t = s
        · rw [if_pos e2]; exact List.mem_cons_of_mem _ hm
        · rw [if_neg e2]; exact hm
      · cases e
        show i ∈ (if s = s then i :: h.htbl s else h.htbl s)
        rw [if_pos rfl]; exact List.mem_cons_self
    | lru j => exact ⟨hx, fun e => by cases e⟩
    | dqe j => exact ⟨hx, fun e => by cases e⟩
    | slot s => exact hx.elim
    | lruHd => exact hx.elim
    | dqHd q => exact hx.elim

/-! ### LRU queue -/

theorem qfront_eq {p : PQ} {h : HQ} (r : Rep p h) : p.mem.qfront p.lruSz .lruHd = h.lru.head?.map .lru := by
  have f := ring_front (r.forest.ring .lruHd trivial)
  unfold Silofs.Lk.Mem.qfront Silofs.Lk.Mem.front
  rw [r.lruSz, f]
  show (if h.lru.length > 0 then some ((h.lru.map Addr.lru).headD .lruHd) else none) = _
  cases h.lru with
  | nil => rfl
  | cons a l => rfl

theorem next_of_head {p : PQ} {h : HQ} (r : Rep p h) {f : Nat} {l : List Nat} (e : h.lru = f :: l) (i : Nat) (hne : f ≠ i) :
    (nextOf p.mem (some (.lru f)) = some (.lru i)) ↔ l.head? = some i := by
  have g := ring_next (r.forest.ring .lruHd trivial) (x := Addr.lru f)
    (by show Addr.lru f ∈ h.lru.map Addr.lru; rw [e]; exact List.mem_cons_self)
  unfold nextOf
  dsimp only
  rw [g]
  show some ((after (h.lru.map Addr.lru) (.lru f)).getD .lruHd) = _ ↔ _
  rw [e]
  cases l with
  | nil =>
    show some Addr.lruHd = _ ↔ _
    constructor <;> intro h <;> cases h
  | cons b l =>
    show some ((if Addr.lru f = Addr.lru f then some (Addr.lru b) else _).getD .lruHd) = _ ↔ some b = some i
    rw [if_pos rfl]
    show some (Addr.lru b) = _ ↔ _
    exact ⟨fun h => by cases h; rfl, fun h => by cases h; rfl⟩

theorem needRelru_eq {p : PQ} {h : HQ} (r : Rep p h) (i : Nat) : p.needRelru i = h.needRelru i := by
  unfold PQ.needRelru HQ.needRelru
  rw [qfront_eq r]
  cases e : h.lru with
  | nil => rfl
  | cons f l =>
    show (if some (Addr.lru f) = none then false else if some (Addr.lru f) = some (.lru i) then false
      else if nextOf p.mem (some (.lru f)) = some (.lru i) then false else _) = _
    rw [if_neg (fun h => by cases h)]
    by_cases h1 : f = i
    · rw [if_pos (by rw [h1])]; simp [h1]
    · rw [if_neg (fun h => h1 (by cases h; rfl))]
      by_cases h2 : l.head? = some i
      · rw [if_pos ((next_of_head r e i h1).mpr h2)]; simp [h2]
      · rw [if_neg (fun h => h2 ((next_of_head r e i h1).mp h)), r.lruSz, r.heap, e]
        by_cases h3 : (f :: l).length < 16
        · rw [if_pos h3]; simp only [h3, decide_true, Bool.not_true, Bool.false_and, Bool.and_false]
        · rw [if_neg h3]
          by_cases h4 : (h.heap i).lruHit < 4
          · rw [if_pos h4]; simp only [h4, decide_true, Bool.not_true, Bool.and_false]
          · rw [if_neg h4]; simp only [h1, h2, h3, h4, decide_false, Bool.not_false, Bool.and_true, ne_eq, not_false_eq_true, decide_true]

theorem head_map_lru (l : List Nat) (i : Nat) : l.head?.map Addr.lru = some (.lru i) ↔ l.head? = some i := by
  cases l with
  | nil => exact ⟨fun h => (nomatch h), fun h => (nomatch h)⟩
  | cons a l => exact ⟨fun h => by cases h; rfl, fun h => by cases h; rfl⟩

theorem rep_promoteLru {p : PQ} {h : HQ} (r : Rep p h) (o : Ok h) {i : Nat} (hl : h.live i = true) (now : Bool) :
    Rep (p.promoteLru i now) (h.promoteLru i now) := by
  have hi : i ∈ h.lru := (o.llive i).mpr hl
  have r1 := rep_upd r i (fun e => { e with lruHit := e.lruHit + 1 }) rfl
  unfold PQ.promoteLru HQ.promoteLru
  rw [qfront_eq r, needRelru_eq r1]
  by_cases hc : h.lru.head? ≠ some i ∧ (now ∨ (h.upd i fun e => { e with lruHit := e.lruHit + 1 }).needRelru i)
  · rw [if_pos hc, if_pos ⟨fun h => hc.1 ((head_map_lru _ _).mp h), hc.2⟩]
    have r2 := rep_upd r i (fun e => { e with lruHit := 0 }) rfl
    have r3 := rep_unlru r2 hi
    exact rep_toLru r3 hl (fun hm => (List.Nodup.not_mem_erase o.lnodup) hm)
  · rw [if_neg hc, if_neg (fun h => hc ⟨fun h' => h.1 ((head_map_lru _ _).mpr h'), h.2⟩)]
    exact r1

/-! ### Slots -/

theorem htb_in {h : HQ} (o : Ok h) {i : Nat} (hl : h.live i = true) (hm : (h.heap i).mapped = true) :
    i ∈ h.htbl (h.slot (h.heap i).key) := (o.tmem _ _).mpr ⟨hl, hm, rfl⟩

theorem needHlnk_eq {p : PQ} {h : HQ} (r : Rep p h) (o : Ok h) {i : Nat} (hl : h.live i = true)
    (hm : (h.heap i).mapped = true) : p.needHlnk i = some (h.needHlnk i) := by
  have hs : Hd h (.slot (h.slot (h.heap i).key)) := slot_lt r.pos _
  have f := ring_front (r.forest.ring _ hs)
  have hin := htb_in o hl hm
  unfold PQ.needHlnk HQ.needHlnk
  rw [r.heap, slotOf_eq r, f, show Ls h (.slot (h.slot (h.heap i).key)) = (h.htbl (h.slot (h.heap i).key)).map Addr.htb from rfl]
  cases e : h.htbl (h.slot (h.heap i).key) with
  | nil => rw [e] at hin; cases hin
  | cons a l =>
    have g := ring_next (r.forest.ring _ hs) (x := Addr.htb a)
      (by show Addr.htb a ∈ (h.htbl (h.slot (h.heap i).key)).map Addr.htb; rw [e]; exact List.mem_cons_self)
    have g' : nextOf p.mem (some (.htb a)) = some ((after ((h.htbl (h.slot (h.heap i).key)).map Addr.htb) (.htb a)).getD
        (.slot (h.slot (h.heap i).key))) := g
    show (if some (Addr.htb a) ≠ some (.htb i) ∧ nextOf p.mem (some (.htb a)) ≠ some (.htb i) then
      some (decide ((h.heap i).htbHit > (h.heap a).htbHit + 2)) else some false) = _
    rw [g', e]
    by_cases h1 : a = i
    · rw [if_neg (fun h => h.1 (by rw [h1]))]; simp [h1]
    · have hn : (some ((after ((a :: l).map Addr.htb) (.htb a)).getD (.slot (h.slot (h.heap i).key))) = some (.htb i)) ↔
          l.head? = some i := by
        cases l with
        | nil =>
          show some (Addr.slot _) = _ ↔ _
          exact ⟨fun h => (nomatch h), fun h => (nomatch h)⟩
        | cons b l =>
          show some ((if Addr.htb a = Addr.htb a then some (Addr.htb b) else _).getD _) = _ ↔ some b = some i
          rw [if_pos rfl]
          exact ⟨fun h => by cases h; rfl, fun h => by cases h; rfl⟩
      by_cases h2 : l.head? = some i
      · rw [if_neg (fun h => h.2 (hn.mpr h2))]; simp [h2]
      · rw [if_pos ⟨fun h => h1 (by cases h; rfl), fun h => h2 (hn.mp h)⟩]
        simp only [h1, h2, ne_eq, not_false_eq_true, decide_true, Bool.true_and]

theorem rep_toFront {p : PQ} {h : HQ} (r : Rep p h) (o : Ok h) {i : Nat} (hl : h.live i = true)
    (hm : (h.heap i).mapped = true) : Rep (p.toFront i) (h.toFront i) := by
  have hin := htb_in o hl hm
  have hs := slot_lt r.pos (h.heap i).key
  have r1 := rep_offSlot r hs hin
  have r2 := rep_onSlot (i := i) (s := h.slot (h.heap i).key) r1 hs hl (by
    intro t ht
    have ht' : i ∈ (if t = h.slot (h.heap i).key then (h.htbl t).erase i else h.htbl t) := ht
    by_cases e : t = h.slot (h.heap i).key
    · rw [if_pos e] at ht'; exact List.Nodup.not_mem_erase (o.tnodup t) ht'
    · rw [if_neg e] at ht'; exact e ((o.tmem t i).mp ht').2.2.symm)
  have e1 : p.toFront i = { p with mem := (p.mem.remove (.htb i)).pushFront (.slot (h.slot (h.heap i).key)) (.htb i) } := by
    unfold PQ.toFront
    rw [r.heap, hm, slotOf_eq r, Bool.not_true, Bool.or_false]
  have e2 : h.toFront i = { h with htbl := fun t => if t = h.slot (h.heap i).key then
      i :: (if t = h.slot (h.heap i).key then (h.htbl t).erase i else h.htbl t) else
      (if t = h.slot (h.heap i).key then (h.htbl t).erase i else h.htbl t) } := by
    unfold HQ.toFront
    congr 1
    funext t
    by_cases e : t = h.slot (h.heap i).key
    · rw [if_pos e, if_pos e, if_pos e]
    · rw [if_neg e, if_neg e, if_neg e]
  rw [e1, e2]; exact r2

theorem rep_promoteHlnk {p : PQ} {h : HQ} (r : Rep p h) (o : Ok h) {i : Nat} (hl : h.live i = true)
    (hm : (h.heap i).mapped = true) : Rep (p.promoteHlnk i) (h.promoteHlnk i) := by
  have r1 := rep_upd r i (fun e => { e with htbHit := e.htbHit + 1 }) rfl
  have o1 : Ok (h.upd i fun e => { e with htbHit := e.htbHit + 1 }) :=
    (Silofs.Lcache.reord_upd h i (fun e => { e with htbHit := e.htbHit + 1 }) ⟨rfl, rfl, rfl, rfl, rfl, rfl, rfl, rfl, rfl, rfl, rfl⟩).ok o
  have hm1 : ((h.upd i fun e => { e with htbHit := e.htbHit + 1 }).heap i).mapped = true := by
    show (if i = i then { h.heap i with htbHit := (h.heap i).htbHit + 1 } else h.heap i).mapped = true
    rw [if_pos rfl]; exact hm
  unfold PQ.promoteHlnk HQ.promoteHlnk
  rw [needHlnk_eq r1 o1 hl hm1]
  cases hn : (h.upd i fun e => { e with htbHit := e.htbHit + 1 }).needHlnk i with
  | true => rw [if_pos rfl]; exact rep_toFront r1 o1 hl hm1
  | false => rw [if_neg (by decide)]; exact r1

theorem rep_promote {p : PQ} {h : HQ} (r : Rep p h) (o : Ok h) {i : Nat} (hl : h.live i = true) (now : Bool) :
    Rep (p.promote i now) (h.promote i now) := by
  have r1 := rep_promoteLru r o hl now
  have q := Silofs.Lcache.reord_promoteLru h i now ((o.llive i).mpr hl)
  have o1 := q.ok o
  unfold PQ.promote HQ.promote
  rw [r1.heap]
  by_cases hm : ((h.promoteLru i now).heap i).mapped = true
  · rw [if_pos hm, if_pos hm]
    exact rep_promoteHlnk r1 o1 (by rw [q.live]; exact hl) hm
  · rw [if_neg hm, if_neg hm]; exact r1

/-! ### Removal -/

theorem map_pos {h : HQ} (o : Ok h) {i : Nat} (hl : h.live i = true) (hm : (h.heap i).mapped = true) : h.size ≠ 0 := by
  intro e
  rw [o.size] at e
  have : i ∈ h.lru.filter fun i => (h.heap i).mapped := List.mem_filter.mpr ⟨(o.llive i).mpr hl, hm⟩
  rw [List.length_eq_zero_iff.mp e] at this; cases this

theorem rep_unmap {p : PQ} {h : HQ} (r : Rep p h) (o : Ok h) {i : Nat} (hl : h.live i = true) :
    Rep (p.unmap i) (h.unmap i) := by
  unfold PQ.unmap HQ.unmap
  rw [r.heap]
  by_cases hm : (h.heap i).mapped = true
  · rw [if_pos hm, if_pos hm]
    have r1 := rep_offSlot r (slot_lt r.pos (h.heap i).key) (htb_in o hl hm)
    have r2 := rep_upd r1 i (fun e => { e with mapped := false }) rfl
    have hz := map_pos o hl hm
    refine ⟨r2.vkind, r2.hash, r2.nslots, r2.heap, r2.live, r2.next, ?_, r2.accum, r2.lruSz, r2.dqSz, r2.forest, r2.crash, r2.pos⟩
    show dec p.size = h.size - 1
    rw [r.size]; unfold dec; rw [if_neg hz]
  · rw [if_neg hm, if_neg hm]; exact r

theorem unmap_gone {h : HQ} (o : Ok h) {i : Nat} (hl : h.live i = true) (s : Nat) : i ∉ (h.unmap i).htbl s := by
  unfold HQ.unmap
  by_cases hm : (h.heap i).mapped = true
  · rw [if_pos hm]
    show i ∉ (if s = h.slot (h.heap i).key then (h.htbl s).erase i else h.htbl s)
    by_cases e : s = h.slot (h.heap i).key
    · rw [if_pos e]; exact List.Nodup.not_mem_erase (o.tnodup s)
    · rw [if_neg e]; exact fun hc => e ((o.tmem s i).mp hc).2.2.symm
  · rw [if_neg hm]; exact fun hc => hm ((o.tmem s i).mp hc).2.1

theorem rep_remove {p : PQ} {h : HQ} (r : Rep p h) (o : Ok h) {i : Nat} (hl : h.live i = true) :
    Rep (p.remove i) (h.remove i) := by
  have r1 := rep_unmap r o hl
  refine rep_unlru r1 ?_
  rw [(Silofs.Lcache.unmap_rest h i).2.2.2.1]; exact (o.llive i).mpr hl

theorem rep_free {p : PQ} {h : HQ} (r : Rep p h) {i : Nat} (hl : h.live i = true) (h1 : i ∉ h.lru)
    (h2 : ∀ s, i ∉ h.htbl s) (h3 : ∀ q, i ∉ h.dq q) (hq : (h.heap i).inq = false) (hr : (h.heap i).refcnt = 0)
    (hown : h.dq (.own i) = []) (hacc : h.accum (.own i) = 0) : Rep (p.free i) (h.free i) := by
  have notin : ∀ (a : Addr), (∀ b, a ∈ Ls h b → False) ↔ ∀ b, a ∉ Ls h b := fun a => Iff.rfl
  have n1 : ∀ b, Addr.dqe i ∉ Ls h b := by
    intro b hb
    cases b with
    | dqHd q => obtain ⟨j, hj, e⟩ := List.mem_map.mp hb; cases e; exact h3 q hj
    | slot s => obtain ⟨j, hj, e⟩ := List.mem_map.mp hb; cases e
    | lruHd => obtain ⟨j, hj, e⟩ := List.mem_map.mp hb; cases e
    | htb j => cases hb
    | lru j => cases hb
    | dqe j => cases hb
  have n2 : ∀ b, Addr.htb i ∉ Ls h b := by
    intro b hb
    cases b with
    | dqHd q => obtain ⟨j, hj, e⟩ := List.mem_map.mp hb; cases e
    | slot s => obtain ⟨j, hj, e⟩ := List.mem_map.mp hb; cases e; exact h2 s hj
    | lruHd => obtain ⟨j, hj, e⟩ := List.mem_map.mp hb; cases e
    | htb j => cases hb
    | lru j => cases hb
    | dqe j => cases hb
  have n3 : ∀ b, Addr.lru i ∉ Ls h b := by
    intro b hb
    cases b with
    | dqHd q => obtain ⟨j, hj, e⟩ := List.mem_map.mp hb; cases e
    | slot s => obtain ⟨j, hj, e⟩ := List.mem_map.mp hb; cases e
    | lruHd => obtain ⟨j, hj, e⟩ := List.mem_map.mp hb; cases e; exact h1 hj
    | htb j => cases hb
    | lru j => cases hb
    | dqe j => cases hb
  have f3 := ((r.forest.fini (x := .dqe i) (fun h => h) (fun a _ => n1 a)).fini (x := .htb i) (fun h => h) (fun a _ => n2 a)).fini
    (x := .lru i) (fun h => h) (fun a _ => n3 a)
  have hF : ∀ x, Fr (h.free i) x → ((Fr h x ∧ x ≠ .dqe i) ∧ x ≠ .htb i) ∧ x ≠ .lru i := by
    intro x hx
    have key : ∀ j, (h.free i).live j = true → h.live j = true ∧ j ≠ i := by
      intro j hj
      have hj' : (if j = i then false else h.live j) = true := hj
      by_cases e : j = i
      · rw [if_pos e] at hj'; cases hj'
      · rw [if_neg e] at hj'; exact ⟨hj', e⟩
    cases x with
    | htb j =>
      obtain ⟨k1, k2⟩ := key j hx.1
      exact ⟨⟨⟨⟨k1, hx.2⟩, fun e => by cases e⟩, fun e => k2 (htb_inj _ _ e)⟩, fun e => by cases e⟩
    | lru j =>
      obtain ⟨k1, k2⟩ := key j hx.1
      exact ⟨⟨⟨⟨k1, hx.2⟩, fun e => by cases e⟩, fun e => by cases e⟩, fun e => k2 (lru_inj _ _ e)⟩
    | dqe j =>
      obtain ⟨k1, k2⟩ := key j hx.1
      exact ⟨⟨⟨⟨k1, hx.2⟩, fun e => k2 (dqe_inj _ _ e)⟩, fun e => by cases e⟩, fun e => by cases e⟩
    | slot s => exact hx.elim
    | lruHd => exact hx.elim
    | dqHd q => exact hx.elim
  have hH : ∀ a, Hd (h.free i) a ↔ Hd h a ∧ a ≠ .dqHd (.own i) := by
    intro a
    cases a with
    | slot s => exact ⟨fun hh => ⟨hh, fun e => by cases e⟩, fun hh => hh.1⟩
    | lruHd => exact ⟨fun hh => ⟨hh, fun e => by cases e⟩, fun hh => hh.1⟩
    | htb j => exact ⟨fun hh => hh.elim, fun hh => hh.1⟩
    | lru j => exact ⟨fun hh => hh.elim, fun hh => hh.1⟩
    | dqe j => exact ⟨fun hh => hh.elim, fun hh => hh.1⟩
    | dqHd q =>
      cases q with
      | unis => exact ⟨fun hh => ⟨hh, fun e => by cases e⟩, fun hh => hh.1⟩
      | iis => exact ⟨fun hh => ⟨hh, fun e => by cases e⟩, fun hh => hh.1⟩
      | vnis => exact ⟨fun hh => ⟨hh, fun e => by cases e⟩, fun hh => hh.1⟩
      | own w =>
        show (if w = i then false else h.live w) = true ∧ (h.heap w).isInode = true ↔
          (h.live w = true ∧ (h.heap w).isInode = true) ∧ _
        by_cases e : w = i
        · rw [if_pos e]; exact ⟨fun hh => absurd hh.1 (by decide), fun hh => absurd (by rw [e]) hh.2⟩
        · rw [if_neg e]; exact ⟨fun hh => ⟨hh, fun e' => e (by cases e'; rfl)⟩, fun hh => hh.1⟩
  have hdz : p.dqSz (.own i) = 0 := by rw [r.dqSz, hown]; rfl
  have haz : p.accum (.own i) = 0 := by rw [r.accum]; exact hacc
  refine ⟨r.vkind, r.hash, r.nslots, r.heap, ?_, r.next, r.size, ?_, r.lruSz, ?_, ?_, ?_, r.pos⟩
  · show (fun j => if j = i then false else p.live j) = (fun j => if j = i then false else h.live j)
    rw [r.live]
  · show (fun q => if (p.heap i).isInode = true ∧ q = .own i then 0 else p.accum q) = h.accum
    funext q
    by_cases e : (p.heap i).isInode = true ∧ q = .own i
    · rw [if_pos e, e.2, hacc]
    · rw [if_neg e, r.accum]
  · intro q
    show (if (p.heap i).isInode = true ∧ q = .own i then 0 else p.dqSz q) = (h.dq q).length
    by_cases e : (p.heap i).isInode = true ∧ q = .own i
    · rw [if_pos e, e.2, hown]; rfl
    · rw [if_neg e, r.dqSz]
  · show Forest (if (p.heap i).isInode then _ else _) _ _ _
    rw [r.heap]
    by_cases hin : (h.heap i).isInode = true
    · rw [if_pos hin]
      exact forest_to (f3.dropHead (h := .dqHd (.own i)) ⟨hl, hin⟩) hH
        (fun a _ => by cases a <;> rfl) hF
    · rw [if_neg hin]
      refine forest_to f3 (fun a => ?_) (fun a _ => by cases a <;> rfl) hF
      rw [hH a]
      exact ⟨fun hh => hh.1, fun hh => ⟨hh, fun e => hin (by rw [e] at hh; exact hh.2)⟩⟩
  · show (p.crash || _) = false
    rw [r.crash, r.live, r.heap, hl, hr, hq, hdz, haz]
    cases (h.heap i).isInode <;> rfl

theorem accum_own {h : HQ} (o : Ok h) {q : Dq} (hown : h.dq q = []) : h.accum q = 0 := by
  rw [o.accum, hown]; rfl

theorem rep_evict {p : PQ} {h : HQ} (r : Rep p h) (o : Ok h) {i : Nat} (hl : h.live i = true)
    (hq : h.vkind = true → (h.heap i).inq = false) (hr : (h.heap i).refcnt = 0) (hown : h.dq (.own i) = []) :
    Rep (p.evict i) (h.evict i) := by
  have step : ∀ {p : PQ} {h : HQ}, Rep p h → Ok h → h.live i = true → (h.heap i).inq = false → (h.heap i).refcnt = 0 →
      h.dq (.own i) = [] → Rep ((p.remove i).free i) ((h.remove i).free i) ∧
      Rep (((p.remove i).upd i (fun e => { e with forgot := false })).free i)
        (((h.remove i).upd i (fun e => { e with forgot := false })).free i) := by
    intro p h r o hl hq hr hown
    have r1 := rep_remove r o hl
    obtain ⟨e1, e2, e3, e4, e5, e6, e7, e8, e9⟩ := Silofs.Lcache.unmap_rest h i
    have hheap : (h.remove i).heap i = { h.heap i with mapped := false } := by
      show (h.unmap i).heap i = _
      rw [Silofs.Lcache.unmap_heap, if_pos rfl]
    have a1 : (h.remove i).live i = true := by show (h.unmap i).live i = true; rw [e1]; exact hl
    have a2 : i ∉ (h.remove i).lru := by
      show i ∉ (h.unmap i).lru.erase i
      rw [e4]; exact List.Nodup.not_mem_erase o.lnodup
    have a3 : ∀ s, i ∉ (h.remove i).htbl s := fun s => unmap_gone o hl s
    have a4 : ∀ q, i ∉ (h.remove i).dq q := by
      intro q hm
      have hm' : i ∈ (h.unmap i).dq q := hm
      rw [e3] at hm'
      have := ((o.qmem q i).mp hm').2.1
      rw [hq] at this; cases this
    have a5 : (h.remove i).dq (.own i) = [] := by show (h.unmap i).dq _ = _; rw [e3]; exact hown
    have a6 : (h.remove i).accum (.own i) = 0 := by show (h.unmap i).accum _ = _; rw [e5]; exact accum_own o hown
    refine ⟨rep_free r1 a1 a2 a3 a4 (by rw [hheap]; exact hq) (by rw [hheap]; exact hr) a5 a6, ?_⟩
    have r2 := rep_upd r1 i (fun e => { e with forgot := false }) rfl
    have hh : ((h.remove i).upd i (fun e => { e with forgot := false })).heap i = { (h.remove i).heap i with forgot := false } := if_pos rfl
    exact rep_free r2 a1 a2 a3 a4 (by rw [hh, hheap]; exact hq) (by rw [hh, hheap]; exact hr) a5 a6
  unfold PQ.evict HQ.evict
  rw [r.vkind]
  by_cases hv : h.vkind = true
  · rw [if_pos hv, if_pos hv]
    exact (step r o hl (hq hv) hr hown).2
  · rw [if_neg hv, if_neg hv]
    refine (step (rep_undirtify r o hl) (Silofs.Lcache.ok_undirtify o hl) ?_ ?_ ?_ ?_).1
    · rw [(Silofs.Lcache.undirtify_rest h i).1]; exact hl
    · rw [Silofs.Lcache.undirtify_heap, if_pos rfl]
    · rw [Silofs.Lcache.undirtify_heap, if_pos rfl]; exact hr
    · apply List.eq_nil_iff_forall_not_mem.mpr
      intro j hj
      have := ((Silofs.Lcache.undirtify_dq o hl _ j).mp hj).1
      rw [hown] at this; cases this

end Silofs.Hmq
