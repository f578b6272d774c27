import Verif.Model.Hmapq
import Verif.Props.Linklist
import Verif.Props.LcacheUse
set_option linter.unusedSimpArgs false
set_option linter.unusedVariables false
/-
C69, basis: the cache in linked memory holds the sequences of the cache with plain sequences; single calls.
-/
namespace Silofs.Hmq
open Silofs.Lk (Mem dec Ring Forest ring_front ring_back ring_next ring_prev after before)
open Silofs.Lcache (Dq Elem HQ Ok)

def Hd (h : HQ) : Addr → Prop
  | .slot s => s < h.nslots
  | .lruHd => True
  | .dqHd (.own o) => h.live o = true ∧ (h.heap o).isInode = true
  | .dqHd _ => True
  | _ => False

def Ls (h : HQ) : Addr → List Addr
  | .slot s => (h.htbl s).map .htb
  | .lruHd => h.lru.map .lru
  | .dqHd q => (h.dq q).map .dqe
  | _ => []

def Fr (h : HQ) : Addr → Prop
  | .htb i => h.live i = true ∧ ∀ s, i ∉ h.htbl s
  | .lru i => h.live i = true ∧ i ∉ h.lru
  | .dqe i => h.live i = true ∧ ∀ q, i ∉ h.dq q
  | _ => False

structure Rep (p : PQ) (h : HQ) : Prop where
  vkind : p.vkind = h.vkind
  hash : p.hash = h.hash
  nslots : p.nslots = h.nslots
  heap : p.heap = h.heap
  live : p.live = h.live
  next : p.next = h.next
  size : p.size = h.size
  accum : p.accum = h.accum
  lruSz : p.lruSz = h.lru.length
  dqSz : ∀ q, p.dqSz q = (h.dq q).length
  forest : Forest p.mem (Hd h) (Ls h) (Fr h)
  crash : p.crash = false
  pos : 0 < h.nslots

/-! ### Sequences of addresses -/

theorem map_erase_inj {f : Nat → Addr} (hf : ∀ a b, f a = f b → a = b) : ∀ (l : List Nat) (i : Nat),
    (l.map f).erase (f i) = (l.erase i).map f
  | [], i => rfl
  | a :: l, i => by
    by_cases h : a = i
    · subst h; rw [List.map_cons, List.erase_cons_head, List.erase_cons_head]
    · have h' : ¬ (f a == f i) = true := by simp only [beq_iff_eq]; exact fun e => h (hf _ _ e)
      have h2 : ¬ (a == i) = true := by simp only [beq_iff_eq]; exact h
      rw [List.map_cons, List.erase_cons_tail h', List.erase_cons_tail h2, List.map_cons, map_erase_inj hf l i]

theorem htb_inj : ∀ a b, Addr.htb a = Addr.htb b → a = b := fun _ _ e => by cases e; rfl
theorem lru_inj : ∀ a b, Addr.lru a = Addr.lru b → a = b := fun _ _ e => by cases e; rfl
theorem dqe_inj : ∀ a b, Addr.dqe a = Addr.dqe b → a = b := fun _ _ e => by cases e; rfl

theorem slot_lt {h : HQ} (hp : 0 < h.nslots) (k : Nat) : h.slot k < h.nslots := Nat.mod_lt _ hp

theorem slotOf_eq {p : PQ} {h : HQ} (r : Rep p h) (k : Nat) : p.slotOf k = .slot (h.slot k) := by
  unfold PQ.slotOf HQ.slot; rw [r.hash, r.nslots]

/-- The forest seen through another cache with the same heads. -/
theorem forest_to {m : Mem Addr} {H : Addr → Prop} {L : Addr → List Addr} {F : Addr → Prop} (f : Forest m H L F) {h : HQ}
    (hH : ∀ a, Hd h a ↔ H a) (hL : ∀ a, H a → Ls h a = L a) (hF : ∀ x, Fr h x → F x) : Forest m (Hd h) (Ls h) (Fr h) :=
  f.congr hH hL hF

theorem hd_congr {h h' : HQ} (e1 : h'.nslots = h.nslots) (e2 : h'.live = h.live)
    (e3 : ∀ o, (h'.heap o).isInode = (h.heap o).isInode) (a : Addr) : Hd h' a ↔ Hd h a := by
  cases a with
  | slot s => show s < h'.nslots ↔ s < h.nslots; rw [e1]
  | lruHd => exact Iff.rfl
  | dqHd q =>
    cases q with
    | own o => show _ ∧ _ ↔ _ ∧ _; rw [e2, e3]
    | unis => exact Iff.rfl
    | iis => exact Iff.rfl
    | vnis => exact Iff.rfl
  | htb i => exact Iff.rfl
  | lru i => exact Iff.rfl
  | dqe i => exact Iff.rfl

/-! ### Fields -/

theorem rep_upd {p : PQ} {h : HQ} (r : Rep p h) (i : Nat) (f : Elem → Elem) (hf : (f (h.heap i)).isInode = (h.heap i).isInode) :
    Rep (p.upd i f) (h.upd i f) where
  vkind := r.vkind
  hash := r.hash
  nslots := r.nslots
  heap := by
    show (fun j => if j = i then f (p.heap j) else p.heap j) = (fun j => if j = i then f (h.heap j) else h.heap j)
    rw [r.heap]
  live := r.live
  next := r.next
  size := r.size
  accum := r.accum
  lruSz := r.lruSz
  dqSz := r.dqSz
  forest := by
    refine forest_to r.forest (hd_congr rfl rfl ?_) (fun _ _ => ?_) (fun _ h => ?_)
    · intro o
      show (if o = i then f (h.heap o) else h.heap o).isInode = _
      by_cases e : o = i
      · rw [if_pos e, e]; exact hf
      · rw [if_neg e]
    · rename_i a _; cases a <;> rfl
    · rename_i a; cases a <;> exact h
  crash := r.crash
  pos := r.pos

theorem rep_setDq {p : PQ} {h : HQ} (r : Rep p h) (i : Nat) (q : Dq) (hq : (h.heap i).inq = false) :
    Rep (p.setDq i q) (h.setDq i q) := by
  have r1 := rep_upd r i (fun e => { e with dq := q }) rfl
  refine ⟨r1.vkind, r1.hash, r1.nslots, r1.heap, r1.live, r1.next, r1.size, r1.accum, r1.lruSz, r1.dqSz, r1.forest, ?_, r1.pos⟩
  show (p.crash || (p.heap i).inq) = false
  rw [r.crash, r.heap, hq]; rfl

/-! ### Queues of changed objects -/

theorem hd_dq {h : HQ} {q : Dq} (hq : ∀ o, q = .own o → h.live o = true ∧ (h.heap o).isInode = true) : Hd h (.dqHd q) := by
  cases q with
  | own o => exact hq o rfl
  | unis => trivial
  | iis => trivial
  | vnis => trivial

theorem rep_enqueue {p : PQ} {h : HQ} (r : Rep p h) (o : Ok h) {i : Nat} (hl : h.live i = true)
    (hw : ∀ o, (h.heap i).dq = .own o → h.live o = true ∧ (h.heap o).isInode = true) : Rep (p.enqueue i) (h.enqueue i) := by
  unfold PQ.enqueue HQ.enqueue
  rw [r.heap]
  by_cases hq : (h.heap i).inq = true
  · rw [if_pos hq, if_pos hq]; exact r
  · rw [if_neg hq, if_neg hq]
    have hfr : Fr h (.dqe i) := ⟨hl, fun q hm => hq ((o.qmem q i).mp hm).2.1⟩
    have f := r.forest.pushBack (hd_dq hw) hfr
    refine ⟨r.vkind, r.hash, r.nslots, rfl, r.live, r.next, r.size, by rw [r.accum], r.lruSz, ?_, ?_, r.crash, r.pos⟩
    · intro q
      show (if q = (h.heap i).dq then p.dqSz q + 1 else p.dqSz q) = (if q = (h.heap i).dq then h.dq q ++ [i] else h.dq q).length
      by_cases e : q = (h.heap i).dq
      · rw [if_pos e, if_pos e, r.dqSz, List.length_append]; rfl
      · rw [if_neg e, if_neg e, r.dqSz]
    · refine forest_to f (hd_congr rfl rfl ?_) ?_ ?_
      · intro o
        show (if o = i then { h.heap o with inq := true } else h.heap o).isInode = _
        by_cases e : o = i
        · rw [if_pos e]
        · rw [if_neg e]
      · intro a ha
        cases a with
        | dqHd q =>
          show (if q = (h.heap i).dq then h.dq q ++ [i] else h.dq q).map Addr.dqe = _
          by_cases e : q = (h.heap i).dq
          · subst e
            rw [if_pos rfl, if_pos rfl, List.map_append]; rfl
          · rw [if_neg e, if_neg (fun e1 => e (by cases e1; rfl))]; rfl
        | slot s => rw [if_neg (fun e1 => by cases e1)]; rfl
        | lruHd => rw [if_neg (fun e1 => by cases e1)]; rfl
        | htb i => rw [if_neg (fun e1 => by cases e1)]; rfl
        | lru i => rw [if_neg (fun e1 => by cases e1)]; rfl
        | dqe i => rw [if_neg (fun e1 => by cases e1)]; rfl
      · intro x hx
        cases x with
        | dqe j =>
          obtain ⟨h1, h2⟩ := hx
          have hne : j ≠ i := fun e => by
            have := h2 (h.heap i).dq
            rw [e] at this
            apply this
            show i ∈ (if (h.heap i).dq = (h.heap i).dq then h.dq (h.heap i).dq ++ [i] else _)
            rw [if_pos rfl]; exact List.mem_append_right _ List.mem_cons_self
          refine ⟨⟨h1, fun q hm => h2 q ?_⟩, fun e => hne (dqe_inj _ _ e)⟩
          show j ∈ (if q = (h.heap i).dq then h.dq q ++ [i] else h.dq q)
          by_cases e : q = (h.heap i).dq
          · rw [if_pos e]; exact List.mem_append_left _ hm
          · rw [if_neg e]; exact hm
        | htb j => exact ⟨hx, fun e => by cases e⟩
        | lru j => exact ⟨hx, fun e => by cases e⟩
        | slot s => exact hx.elim
        | lruHd => exact hx.elim
        | dqHd q => exact hx.elim

theorem rep_undirtify {p : PQ} {h : HQ} (r : Rep p h) (o : Ok h) {i : Nat} (hl : h.live i = true) :
    Rep (p.undirtify i) (h.undirtify i) := by
  unfold PQ.undirtify HQ.undirtify
  rw [r.heap]
  by_cases hq : (h.heap i).inq = true
  · rw [if_pos hq, if_pos hq]
    have hm : i ∈ h.dq (h.heap i).dq := (o.qmem _ i).mpr ⟨hl, hq, rfl⟩
    have hin : Addr.dqe i ∈ Ls h (.dqHd (h.heap i).dq) := List.mem_map_of_mem hm
    have hac := Silofs.Lcache.accum_ge o hl hq
    have f := r.forest.remove (hd_dq (fun w e => o.owner i w hl hq e)) hin
    refine ⟨r.vkind, r.hash, r.nslots, rfl, r.live, r.next, r.size, by rw [r.accum], r.lruSz, ?_, ?_, ?_, r.pos⟩
    · intro q
      show (if q = (h.heap i).dq then dec (p.dqSz q) else p.dqSz q) = (if q = (h.heap i).dq then (h.dq q).erase i else h.dq q).length
      by_cases e : q = (h.heap i).dq
      · rw [if_pos e, if_pos e, r.dqSz, e, List.length_erase_of_mem hm]
        have : (h.dq (h.heap i).dq).length ≠ 0 := fun e => by rw [List.length_eq_zero_iff.mp e] at hm; cases hm
        unfold dec; rw [if_neg this]
      · rw [if_neg e, if_neg e, r.dqSz]
    · refine forest_to f (hd_congr rfl rfl ?_) ?_ ?_
      · intro o
        show (if o = i then { h.heap o with inq := false } else h.heap o).isInode = _
        by_cases e : o = i
        · rw [if_pos e]
        · rw [if_neg e]
      · intro a ha
        cases a with
        | dqHd q =>
          show (if q = (h.heap i).dq then (h.dq q).erase i else h.dq q).map Addr.dqe = _
          by_cases e : q = (h.heap i).dq
          · subst e
            rw [if_pos rfl, if_pos rfl]; exact (map_erase_inj dqe_inj _ _).symm
          · rw [if_neg e, if_neg (fun e1 => e (by cases e1; rfl))]; rfl
        | slot s => rw [if_neg (fun e1 => by cases e1)]; rfl
        | lruHd => rw [if_neg (fun e1 => by cases e1)]; rfl
        | htb i => rw [if_neg (fun e1 => by cases e1)]; rfl
        | lru i => rw [if_neg (fun e1 => by cases e1)]; rfl
        | dqe i => rw [if_neg (fun e1 => by cases e1)]; rfl
      · intro x hx
        cases x with
        | dqe j =>
          obtain ⟨h1, h2⟩ := hx
          by_cases hne : j = i
          · right; rw [hne]
          · refine .inl ⟨h1, fun q hm => h2 q ?_⟩
            show j ∈ (if q = (h.heap i).dq then (h.dq q).erase i else h.dq q)
            by_cases e : q = (h.heap i).dq
            · rw [if_pos e]; exact (List.mem_erase_of_ne hne).mpr hm
            · rw [if_neg e]; exact hm
        | htb j => exact .inl hx
        | lru j => exact .inl hx
        | slot s => exact hx.elim
        | lruHd => exact hx.elim
        | dqHd q => exact hx.elim
    · show (p.crash || decide (p.accum (h.heap i).dq < (h.heap i).size)) = false
      rw [r.crash, r.accum, decide_eq_false (by omega)]; rfl
  · rw [if_neg hq, if_neg hq]; exact r

theorem rep_dirtify {p : PQ} {h : HQ} (r : Rep p h) (o : Ok h) {i : Nat} (owner : Option Nat) (hl : h.live i = true)
    (hw : match owner with
      | some w => h.live w = true ∧ (h.heap w).isInode = true
      | none => ∀ w, (h.heap i).dq = .own w → h.live w = true ∧ (h.heap w).isInode = true) :
    Rep (p.dirtify i owner) (h.dirtify i owner) := by
  unfold PQ.dirtify HQ.dirtify
  rw [r.heap]
  by_cases hq : (h.heap i).inq = true
  · rw [if_pos hq, if_pos hq]; exact r
  · rw [if_neg hq, if_neg hq]
    have hq' : (h.heap i).inq = false := by simpa using hq
    cases owner with
    | none => exact rep_enqueue r o hl hw
    | some w =>
      have r1 := rep_setDq r i (.own w) hq'
      have o1 : Ok (h.setDq i (.own w)) := by
        have o2 := Silofs.Lcache.ok_upd o i (fun e => { e with dq := .own w }) rfl rfl rfl rfl (o.fm i hl) rfl
          (fun hc => absurd hc hq)
        unfold HQ.setDq
        have hc : (h.crash || (h.heap i).inq) = (h.upd i fun e => { e with dq := .own w }).crash := by
          rw [hq', Bool.or_false]; rfl
        rw [hc]; exact o2
      refine rep_enqueue r1 o1 hl (fun x hx => ?_)
      have hi : (h.setDq i (.own w)).heap i = { h.heap i with dq := .own w } := if_pos rfl
      rw [hi] at hx
      cases hx
      refine ⟨hw.1, ?_⟩
      show (if w = i then { h.heap w with dq := Dq.own w } else h.heap w).isInode = true
      by_cases e : w = i
      · rw [if_pos e]; exact hw.2
      · rw [if_neg e]; exact hw.2

end Silofs.Hmq
