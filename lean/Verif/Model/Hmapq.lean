import Verif.Model.Linklist
import Verif.Model.Lcache
/-
Model of the in-memory cache of objects with its lists as they are in memory: `lib/hmdq/hmapq.c`, `lib/hmdq/dirtyq.c` and
their use in `lib/lcache.c`, over the linked lists of `lib/infra/list.c` (`Verif.Model.Linklist`).

`Verif.Model.Lcache` has sequences where this has heads, links and counts; all else (fields of objects, order of calls) is
as there, and the simplifications named there hold here too.
-/
namespace Silofs.Hmq
open Silofs.Lk (Mem dec)
open Silofs.Lcache (Dq Elem Op RFlags calcNiter)

/-- Addresses of links: heads of slots, of the LRU queue, of queues of changed objects; and within object `i` its
`hme_htb_lh`, `hme_lru_lh` and `hme_dqe.lh` (include/silofs/hmdq/hmapq.h:51-62, dirtyq.h:28-33). -/
inductive Addr where
  | slot (s : Nat)
  | lruHd
  | dqHd (q : Dq)
  | htb (i : Nat)
  | lru (i : Nat)
  | dqe (i : Nat)
deriving DecidableEq

/-- What a pointer to an object may be: null, the object, or an address where there is no object. -/
inductive Ptr where
  | null
  | elem (i : Nat)
  | wild
deriving DecidableEq

/-- include/silofs/hmdq/hmapq.h:65-70 `struct silofs_hmapq` with the queues of changed objects and the memory of objects.
`lruSz`, `dqSz`: the counts kept with the lists. `crash`: an assertion has failed, or memory has been taken for an object
which is none, or a loop does not end; null pointers followed are in `mem.bad`. -/
structure PQ where
  vkind : Bool
  hash : Nat → Nat
  nslots : Nat
  heap : Nat → Elem
  live : Nat → Bool
  next : Nat
  mem : Mem Addr
  size : Nat
  lruSz : Nat
  dqSz : Dq → Nat
  accum : Dq → Nat
  crash : Bool

/-- Change one object. -/
def PQ.upd (h : PQ) (i : Nat) (f : Elem → Elem) : PQ :=
  { h with heap := fun j => if j = i then f (h.heap j) else h.heap j }

/-- lib/hmdq/hmapq.c:557-563 `hmapq_key_to_slot`, 565-572 `hmapq_hlist_of` -/
def PQ.slotOf (h : PQ) (k : Nat) : Addr := .slot (h.hash k % h.nslots)

/-- Heads are set up by lib/infra/list.c:20-25 `silofs_list_head_initn` (slots), lib/hmdq/hmapq.c:523-537
`silofs_hmapq_init` (LRU queue) and lib/lcache.c:42-47 `dirtyqs_init`; all other memory holds anything (here: null
pointers). -/
def PQ.init (vkind : Bool) (hash : Nat → Nat) (nslots : Nat) : PQ where
  vkind := vkind
  hash := hash
  nslots := nslots
  heap := fun _ => ⟨0, 0, false, 0, 0, false, 0, false, false, false, .unis, 0, 0⟩
  live := fun _ => false
  next := 0
  mem := ⟨fun a => match a with
    | .slot s => if s < nslots then ⟨some (.slot s), some (.slot s)⟩ else ⟨none, none⟩
    | .lruHd => ⟨some .lruHd, some .lruHd⟩
    | .dqHd .unis => ⟨some (.dqHd .unis), some (.dqHd .unis)⟩
    | .dqHd .iis => ⟨some (.dqHd .iis), some (.dqHd .iis)⟩
    | .dqHd .vnis => ⟨some (.dqHd .vnis), some (.dqHd .vnis)⟩
    | _ => ⟨none, none⟩, false⟩
  size := 0
  lruSz := 0
  dqSz := fun _ => 0
  accum := fun _ => 0
  crash := false

/-- lib/hmdq/hmapq.c:294-302 `hmqe_from_htb_link`: the object around a link of a slot. -/
def fromHtb : Option Addr → Ptr
  | some (.htb i) => .elem i
  | _ => .wild

/-- lib/hmdq/hmapq.c:304-312 `hmqe_from_lru_link`: the object around a link of the LRU queue. -/
def fromLru : Option Addr → Ptr
  | some (.lru i) => .elem i
  | _ => .wild

/-- Loop of lib/hmdq/hmapq.c:585-602 `hmapq_find`, of `n` turns at most. Keys are numbers (as in `Verif.Model.Lcache`). -/
def PQ.findLoop (h : PQ) (hlst : Addr) (k : Nat) : Nat → Option Addr → Ptr
  | 0, _ => .wild
  | n + 1, itr =>
    if itr = some hlst then .null
    else match itr, fromHtb itr with
      | some a, .elem i => if (h.heap i).key = k then .elem i else findLoop h hlst k n (h.mem.lnk a).next
      | _, _ => .wild

/-- lib/hmdq/hmapq.c:585-602 `hmapq_find`. A walk longer than all objects which are mapped would not end. -/
def PQ.find (h : PQ) (k : Nat) : Ptr :=
  h.findLoop (h.slotOf k) k (h.size + 1) (h.mem.lnk (h.slotOf k)).next

/-- lib/lnodes.c:181-189 `silofs_lni_isevictable` with lib/hmdq/hmapq.c:476-479 `hmqe_is_evictable_atomic`; for inodes
lib/inode.c:552-561 `silofs_ii_isevictable`; which of them is asked: lib/lcache.c:447-459 `test_evictable_vni`. -/
def PQ.evictable (h : PQ) (i : Nat) : Bool :=
  (if (h.heap i).isInode then decide ((h.heap i).nopen = 0) && decide (h.dqSz (.own i) = 0) else true) &&
    (!(h.heap i).pinned && (!(h.heap i).inq && decide ((h.heap i).refcnt = 0)))

/-! ### Queues of changed objects -/

/-- lib/hmdq/dirtyq.c:109-117 `silofs_dqe_enqueue`, 33-39 `silofs_dirtyq_append` -/
def PQ.enqueue (h : PQ) (i : Nat) : PQ :=
  if (h.heap i).inq then h
  else
    { h with
      heap := fun j => if j = i then { h.heap j with inq := true } else h.heap j
      mem := h.mem.pushBack (.dqHd (h.heap i).dq) (.dqe i)
      dqSz := fun q => if q = (h.heap i).dq then h.dqSz q + 1 else h.dqSz q
      accum := fun q => if q = (h.heap i).dq then h.accum q + (h.heap i).size else h.accum q }

/-- lib/hmdq/dirtyq.c:119-127 `silofs_dqe_dequeue`, 41-50 `silofs_dirtyq_remove`, as called by lib/lnodes.c:261-266
`silofs_lni_undirtify` -/
def PQ.undirtify (h : PQ) (i : Nat) : PQ :=
  if (h.heap i).inq then
    { h with
      heap := fun j => if j = i then { h.heap j with inq := false } else h.heap j
      mem := h.mem.remove (.dqe i)
      dqSz := fun q => if q = (h.heap i).dq then dec (h.dqSz q) else h.dqSz q
      accum := fun q => if q = (h.heap i).dq then h.accum q - (h.heap i).size else h.accum q
      crash := h.crash || decide (h.accum (h.heap i).dq < (h.heap i).size) }
  else h

/-- lib/lnodes.c:457-460 `silofs_vni_set_dq` with lib/hmdq/dirtyq.c:103-107 `silofs_dqe_setq` -/
def PQ.setDq (h : PQ) (i : Nat) (q : Dq) : PQ :=
  { h.upd i (fun e => { e with dq := q }) with crash := h.crash || (h.heap i).inq }

/-- lib/lnodes.c:475-484 `silofs_vni_dirtify`, 467-473 `vni_update_dq_by`; 362-367 `silofs_uni_dirtify` -/
def PQ.dirtify (h : PQ) (i : Nat) (owner : Option Nat) : PQ :=
  if (h.heap i).inq then h
  else match owner with
    | none => h.enqueue i
    | some o => (h.setDq i (.own o)).enqueue i

/-- lib/lcache.c:56-70 `dirtyqs_get` -/
def PQ.classOf (h : PQ) (isInode : Bool) : Dq :=
  if h.vkind then (if isInode then .iis else .vnis) else .unis

/-- lib/lcache.c:696-702 `silofs_lcache_reditify_vni` -/
def PQ.redirtify (h : PQ) (i : Nat) : PQ :=
  (((h.undirtify i).setDq i (h.classOf (h.heap i).isInode)).dirtify i none)

/-! ### Hash table and LRU queue -/

/-- The link at which the pointer `p` (followed) leads to: `p->next`. -/
def nextOf (m : Mem Addr) : Option Addr → Option Addr
  | none => none
  | some a => (m.lnk a).next

/-- lib/hmdq/hmapq.c:424-446 `hmqe_need_relru` -/
def PQ.needRelru (h : PQ) (i : Nat) : Bool :=
  if h.mem.qfront h.lruSz .lruHd = none then false
  else if h.mem.qfront h.lruSz .lruHd = some (.lru i) then false
  else if nextOf h.mem (h.mem.qfront h.lruSz .lruHd) = some (.lru i) then false
  else if h.lruSz < 16 then false
  else if (h.heap i).lruHit < 4 then false
  else true

/-- lib/hmdq/hmapq.c:409-413 `hmqe_unlru` -/
def PQ.unlru (h : PQ) (i : Nat) : PQ := { h with mem := h.mem.remove (.lru i), lruSz := dec h.lruSz }

/-- lib/hmdq/hmapq.c:404-407 `hmqe_lru` -/
def PQ.toLru (h : PQ) (i : Nat) : PQ := { h with mem := h.mem.pushFront .lruHd (.lru i), lruSz := h.lruSz + 1 }

/-- lib/hmdq/hmapq.c:646-657 `hmapq_promote_lru`, 415-422 `hmqe_is_lru_front`, 448-454 `hmqe_relru` -/
def PQ.promoteLru (h : PQ) (i : Nat) (now : Bool) : PQ :=
  if h.mem.qfront h.lruSz .lruHd ≠ some (.lru i) ∧
      (now ∨ (h.upd i fun e => { e with lruHit := e.lruHit + 1 }).needRelru i) then
    ((h.upd i (fun e => { e with lruHit := 0 })).unlru i).toLru i
  else h.upd i fun e => { e with lruHit := e.lruHit + 1 }

/-- lib/hmdq/hmapq.c:356-369 `hmqe_need_promote_hmap`; `none`: what is first in the slot is no object. -/
def PQ.needHlnk (h : PQ) (i : Nat) : Option Bool :=
  if (h.mem.lnk (h.slotOf (h.heap i).key)).next ≠ some (.htb i) ∧
      nextOf h.mem (h.mem.lnk (h.slotOf (h.heap i).key)).next ≠ some (.htb i) then
    match fromHtb (h.mem.lnk (h.slotOf (h.heap i).key)).next with
    | .elem f => some (decide ((h.heap i).htbHit > (h.heap f).htbHit + 2))
    | _ => none
  else some false

/-- lib/hmdq/hmapq.c:382-391 `hmqe_promote_hmap` -/
def PQ.toFront (h : PQ) (i : Nat) : PQ :=
  { h with
    mem := (h.mem.remove (.htb i)).pushFront (h.slotOf (h.heap i).key) (.htb i)
    crash := h.crash || !(h.heap i).mapped }

/-- lib/hmdq/hmapq.c:659-668 `hmapq_promote_hlnk` -/
def PQ.promoteHlnk (h : PQ) (i : Nat) : PQ :=
  match (h.upd i fun e => { e with htbHit := e.htbHit + 1 }).needHlnk i with
  | some true => (h.upd i fun e => { e with htbHit := e.htbHit + 1 }).toFront i
  | some false => h.upd i fun e => { e with htbHit := e.htbHit + 1 }
  | none => { h with crash := true }

/-- lib/hmdq/hmapq.c:670-677 `silofs_hmapq_promote` -/
def PQ.promote (h : PQ) (i : Nat) (now : Bool) : PQ :=
  if ((h.promoteLru i now).heap i).mapped then (h.promoteLru i now).promoteHlnk i
  else h.promoteLru i now

/-- lib/hmdq/hmapq.c:343-348 `hmqe_hmap` -/
def PQ.hmap (h : PQ) (i : Nat) (hlst : Addr) : PQ :=
  { h.upd i (fun e => { e with mapped := true }) with mem := h.mem.pushFront hlst (.htb i) }

/-- lib/hmdq/hmapq.c:574-583 `silofs_hmapq_store` -/
def PQ.storeIn (h : PQ) (i : Nat) : PQ :=
  { (h.toLru i).hmap i (h.slotOf (h.heap i).key) with size := h.size + 1 }

/-- lib/hmdq/hmapq.c:629-635 `silofs_hmapq_unmap`, 616-621 `hmapq_unmap`, 350-354 `hmqe_hunmap` -/
def PQ.unmap (h : PQ) (i : Nat) : PQ :=
  if (h.heap i).mapped then
    { h.upd i (fun e => { e with mapped := false }) with mem := h.mem.remove (.htb i), size := dec h.size }
  else h

/-- lib/hmdq/hmapq.c:637-644 `silofs_hmapq_remove` -/
def PQ.remove (h : PQ) (i : Nat) : PQ := (h.unmap i).unlru i

/-- lib/lnodes.c:1381-1411 `silofs_del_unode`, 1455-1491 `silofs_del_vnode`: lib/hmdq/hmapq.c:328-341 `silofs_hmqe_fini`,
lib/hmdq/dirtyq.c:93-101 `silofs_dqe_fini`; for an inode lib/lnodes.c:814-826 `ii_fini` with lib/hmdq/dirtyq.c:27-31
`silofs_dirtyq_fini`. -/
def PQ.free (h : PQ) (i : Nat) : PQ :=
  { h with
    live := fun j => if j = i then false else h.live j
    mem := if (h.heap i).isInode then (((h.mem.fini (.dqe i)).fini (.htb i)).fini (.lru i)).fini (.dqHd (.own i))
      else ((h.mem.fini (.dqe i)).fini (.htb i)).fini (.lru i)
    dqSz := fun q => if (h.heap i).isInode = true ∧ q = .own i then 0 else h.dqSz q
    accum := fun q => if (h.heap i).isInode = true ∧ q = .own i then 0 else h.accum q
    crash := h.crash || (!h.live i || (decide ((h.heap i).refcnt ≠ 0) || ((h.heap i).inq ||
      ((h.heap i).isInode && !(decide (h.dqSz (.own i) = 0) && decide (h.accum (.own i) = 0)))))) }

/-- lib/lcache.c:185-192 `lcache_evict_uni`, 519-525 `lcache_evict_vni` -/
def PQ.evict (h : PQ) (i : Nat) : PQ :=
  if h.vkind then ((h.remove i).upd i (fun e => { e with forgot := false })).free i
  else ((h.undirtify i).remove i).free i

/-- lib/lcache.c:215-228 `lcache_evict_or_relru_uni`, 549-562 `lcache_evict_or_relru_vni` -/
def PQ.evictOrRelru (h : PQ) (i : Nat) : PQ :=
  if h.evictable i then h.evict i else h.promote i true

/-- lib/hmdq/hmapq.c:679-688 `silofs_hmapq_get_lru` -/
def PQ.getLru (h : PQ) : Ptr :=
  if h.lruSz > 0 then fromLru (h.mem.lnk .lruHd).prev else .null

/-- Loop of lib/lcache.c:230-253 `lcache_shrink_or_relru_unis`, 564-587 `lcache_shrink_or_relru_vnis`, from round `i` on;
result: number of evictions, cache. -/
def PQ.shrinkLoop (now : Bool) : Nat → Nat → Nat → PQ → Nat × PQ
  | 0, _, ev, h => (ev, h)
  | n + 1, i, ev, h =>
    match h.getLru with
    | .null => (ev, h)
    | .wild => (ev, { h with crash := true })
    | .elem x =>
      if h.evictable x then shrinkLoop now n (i + 1) (ev + 1) (h.evictOrRelru x)
      else if (if h.vkind then !now && (decide (i ≠ 0) || decide (ev ≠ 0)) else !now) then
        (ev, h.evictOrRelru x)
      else shrinkLoop now n (i + 1) ev (h.evictOrRelru x)

/-- lib/lcache.c:706-710 `lcache_shrink_some_vnis`, 712-716 `lcache_shrink_some_unis` -/
def PQ.shrink (h : PQ) (cnt : Nat) (now : Bool) : Nat × PQ :=
  shrinkLoop now (min cnt h.lruSz) 0 0 h

/-- lib/hmdq/hmapq.c:692-707 `silofs_hmapq_riterate`, of `n` turns at most, with the callbacks lib/lcache.c:255-261
`try_evict_uni`, 589-596 `try_evict_vni`: the pointer moves on before the callback. -/
def PQ.riterEvict : Nat → Option Addr → PQ → PQ
  | 0, _, h => h
  | n + 1, itr, h =>
    if itr = some .lruHd then h
    else match itr, fromLru itr with
      | some a, .elem i => riterEvict n (h.mem.lnk a).prev (h.evictOrRelru i)
      | _, _ => { h with crash := true }

/-- lib/lcache.c:263-267 `lcache_drop_evictable_unis`, 598-602 `lcache_drop_evictable_vnis`. The limit `0xffffffff`
(include/silofs/hmdq/hmapq.h:24) is left out. -/
def PQ.dropEvictable (h : PQ) : PQ :=
  riterEvict h.lruSz (h.mem.lnk .lruHd).prev h

/-- lib/hmdq/hmapq.c:692-707 `silofs_hmapq_riterate` with the callbacks lib/lcache.c:127-136 `visit_evictable_uni`,
461-470 `visit_evictable_vni`, which end it at the first one. -/
def PQ.riterFind (h : PQ) : Nat → Option Addr → Ptr
  | 0, _ => .null
  | n + 1, itr =>
    if itr = some .lruHd then .null
    else match itr, fromLru itr with
      | some a, .elem i => if h.evictable i then .elem i else riterFind h n (h.mem.lnk a).prev
      | _, _ => .wild

/-- lib/lcache.c:138-146 `lcache_find_evictable_uni`, 472-480 `lcache_find_evictable_vni` -/
def PQ.findEvictable (h : PQ) : Ptr :=
  h.riterFind (min 10 h.lruSz) (h.mem.lnk .lruHd).prev

/-- lib/hmdq/hmapq.c:709-719 `silofs_hmapq_overpop` -/
def PQ.overpop (h : PQ) : Nat :=
  if h.size > h.nslots then h.size - h.nslots
  else if h.lruSz > 2 * h.size then h.lruSz - 2 * h.size
  else 0

/-- A new object, zeroed: lib/hmdq/hmapq.c:314-326 `silofs_hmqe_init` with lib/hmdq/dirtyq.c:83-91 `silofs_dqe_init`; for
an inode lib/lnodes.c:800-812 `ii_init` with lib/hmdq/dirtyq.c:21-25 `silofs_dirtyq_init`. -/
def PQ.newElem (h : PQ) (k size : Nat) (isInode : Bool) (data : Nat) : PQ :=
  { h with
    heap := fun j => if j = h.next then
      ⟨k, size, isInode, data, 0, false, 0, false, false, false, h.classOf isInode, 0, 0⟩
      else h.heap j
    live := fun j => if j = h.next then true else h.live j
    mem := if isInode then (((h.mem.init (.dqe h.next)).init (.htb h.next)).init (.lru h.next)).init (.dqHd (.own h.next))
      else ((h.mem.init (.dqe h.next)).init (.htb h.next)).init (.lru h.next)
    dqSz := fun q => if isInode = true ∧ q = .own h.next then 0 else h.dqSz q
    accum := fun q => if isInode = true ∧ q = .own h.next then 0 else h.accum q
    next := h.next + 1 }

/-- A new object, its queue by lib/lcache.c:357-363 `lcache_set_dq_of_uni`, 664-670 `lcache_set_dq_of_vni`, stored by
350-355 `lcache_store_uni`, 533-538 `lcache_store_vni`. -/
def PQ.create (h : PQ) (k size : Nat) (isInode : Bool) (data : Nat) : PQ :=
  (h.newElem k size isInode data).storeIn h.next

/-- lib/lcache.c:323-331 `silofs_lcache_lookup_uni`, 613-621 `silofs_lcache_lookup_vni`, without the map of addresses:
166-177 `lcache_find_relru_uni`; lib/hmdq/hmapq.c:604-614 `silofs_hmapq_lookup`, 371-380 `hmqe_sanitize_mapped`. -/
def PQ.lookup (h : PQ) (k : Nat) : Option Nat × PQ :=
  match h.find k with
  | .null => (none, h)
  | .wild => (none, { h with crash := true })
  | .elem i => (some i, ({ h with crash := h.crash || !(h.heap i).mapped } : PQ).promote i false)

/-- `lcache_forget_vni` (lib/lcache.c 646-656), `lcache_forget_uni` (390-395; the map of addresses is
modelled apart). -/
def PQ.forget (h : PQ) (i : Nat) : PQ :=
  if h.vkind then
    if ((h.undirtify i).heap i).refcnt > 0 then
      ((h.undirtify i).unmap i).upd i (fun e => { e with forgot := true })
    else (h.undirtify i).evict i
  else h.evict i

/-! ### Both maps -/

/-- `struct silofs_lcache` with what storage holds: `c true` are vnodes, `c false` unodes. -/
structure St where
  v : PQ
  u : PQ

/-- `lcache_evict_some` (lib/lcache.c 725-744). -/
def St.evictSome (s : St) : St :=
  match s.v.findEvictable, s.u.findEvictable with
  | .elem i, .elem j => ⟨s.v.evict i, s.u.evict j⟩
  | .elem i, .null => ⟨s.v.evict i, s.u⟩
  | .null, .elem j => ⟨s.v, s.u.evict j⟩
  | .null, .null => ⟨(s.v.shrink 1 false).2, (s.u.shrink 1 false).2⟩
  | _, _ => ⟨{ s.v with crash := true }, s.u⟩

/-- `lcache_require_uni`, `lcache_require_vni` (lib/lcache.c 333-348, 623-638): `fails` is the number
of times the allocator has nothing to give. The result says whether there is an element. -/
def St.require (s : St) : Nat → Bool × St
  | 0 => (true, s)
  | 1 => (true, s.evictSome)
  | 2 => (true, s.evictSome.evictSome)
  | 3 => (true, s.evictSome.evictSome.evictSome)
  | _ => (false, s.evictSome.evictSome.evictSome.evictSome)

/-- Loop of `lcache_relax_by_niter` (lib/lcache.c 790-814), from round `i` on. -/
def St.relaxLoop (now : Bool) (cnt : Nat) : Nat → Nat → St → Nat → St × Nat
  | 0, _, s, total => (s, total)
  | n + 1, i, s, total =>
    if (s.v.shrink (i + 1) now).1 = 0 ∨ now ∨ s.u.size > 128 then
      if (s.v.shrink (i + 1) now).1 = 0 ∧ (s.u.shrink cnt now).1 = 0 then
        (⟨(s.v.shrink (i + 1) now).2, (s.u.shrink cnt now).2⟩, total)
      else
        relaxLoop now cnt n (i + 1) ⟨(s.v.shrink (i + 1) now).2, (s.u.shrink cnt now).2⟩
          (total + (s.v.shrink (i + 1) now).1 + (s.u.shrink cnt now).1)
    else
      relaxLoop now cnt n (i + 1) ⟨(s.v.shrink (i + 1) now).2, s.u⟩
        (total + (s.v.shrink (i + 1) now).1)

/-- `lcache_relax_by_overpop` (lib/lcache.c 826-843). -/
def St.relaxOverpop (s : St) : St where
  v := if s.v.overpop > 0 then (s.v.shrink (min s.v.overpop 8) true).2 else s.v
  u := if s.u.overpop > 0 then (s.u.shrink (min s.u.overpop 2) true).2 else s.u

/-- `silofs_lcache_relax` (lib/lcache.c 852-864), without the map of addresses. -/
def St.relax (s : St) (pct : Nat) (f : RFlags) : St :=
  (s.relaxLoop f.now (if f.now ∨ calcNiter pct f > 1 then 2 else 1) (calcNiter pct f) 0 0).1.relaxOverpop

/-- `lcache_drop_evictables_once` (lib/lcache.c 872-876). -/
def St.dropOnce (s : St) : St := ⟨s.v.dropEvictable, s.u.dropEvictable⟩

/-- Loop of `lcache_drop_evictables` (lib/lcache.c 878-890): at most `n` rounds, while the number of
mapped elements changes. -/
def St.dropLoop : Nat → Nat → St → St
  | 0, _, s => s
  | n + 1, pre, s =>
    if s.v.size + s.u.size = pre then s
    else dropLoop n (s.v.size + s.u.size) s.dropOnce

/-- `silofs_lcache_drop` (lib/lcache.c 902-907), the objects. -/
def St.drop (s : St) : St := s.dropLoop 10 0

/-! ### The cache in use -/

/-- The cache over storage: `store v k` is what storage holds for key `k`. -/
structure World where
  s : St
  store : Bool → Nat → Nat

/-- One of the two maps. -/
def World.hq (w : World) (v : Bool) : PQ := if v then w.s.v else w.s.u

/-- Replace one of the two maps. -/
def World.setHq (w : World) (v : Bool) (h : PQ) : World :=
  if v then { w with s := ⟨h, w.s.u⟩ } else { w with s := ⟨w.s.v, h⟩ }

/-- Object of a key which the cache does not hold: create it and load it, `vstgc_stage_vnode_at`
(lib/vstage.c 2354-2394) and the like (lib/ustage.c 375-413, 495-534, 616-655). Simplification: the load does not fail (a failed
one is followed by `forget`) and nothing happens between creation and load. -/
def World.load (w : World) (v : Bool) (k size : Nat) (isInode : Bool) (fails : Nat) :
    Option (Nat × Nat) × World :=
  if (w.s.require fails).1 then
    (some ((({ w with s := (w.s.require fails).2 } : World).hq v).next, w.store v k),
      ({ w with s := (w.s.require fails).2 } : World).setHq v
        ((({ w with s := (w.s.require fails).2 } : World).hq v).create k size isInode (w.store v k)))
  else (none, { w with s := (w.s.require fails).2 })

/-- Object of a key: look up (`fetch_cached_vni` with `fixup_cached_vni`, lib/vstage.c 2404-2434;
`silofs_lcache_lookup_uni`), else load. Result: address and content. -/
def World.stage (w : World) (v : Bool) (k size : Nat) (isInode : Bool) (fails : Nat) :
    Option (Nat × Nat) × World :=
  match ((w.hq v).lookup k).1 with
  | none => (w.setHq v ((w.hq v).lookup k).2).load v k size isInode fails
  | some i =>
    if (((w.hq v).lookup k).2.heap i).forgot ∧ (((w.hq v).lookup k).2.heap i).refcnt = 0 then
      (w.setHq v (((w.hq v).lookup k).2.forget i)).load v k size isInode fails
    else
      (some (i, (((w.hq v).lookup k).2.heap i).data), w.setHq v ((w.hq v).lookup k).2)

/-- One request. `save`: the flusher has stored the content of a changed object and takes it off its
queue (`dset_undirtify_all`, lib/flush.c 229-237). `opened`, `closed`: `update_nopen`
(lib/namei.c 134-147). `pin`, `unpin`: lib/namei.c 51-69. -/
def World.step (w : World) : Op → Option (Nat × Nat) × World
  | .stage v k size isInode fails => w.stage v k size isInode fails
  | .incref v i => (none, w.setHq v ((w.hq v).upd i fun e => { e with refcnt := e.refcnt + 1 }))
  | .decref v i => (none, w.setHq v ((w.hq v).upd i fun e => { e with refcnt := e.refcnt - 1 }))
  | .write v i d owner =>
    (none, w.setHq v (((w.hq v).upd i fun e => { e with data := d }).dirtify i owner))
  | .redirtify i => (none, w.setHq true ((w.hq true).redirtify i))
  | .save v i =>
    (none, { w.setHq v ((w.hq v).undirtify i) with
      store := fun v' k' => if v' = v ∧ k' = ((w.hq v).heap i).key then ((w.hq v).heap i).data
        else w.store v' k' })
  | .forget v i => (none, w.setHq v ((w.hq v).forget i))
  | .opened i => (none, w.setHq true ((w.hq true).upd i fun e => { e with nopen := e.nopen + 1 }))
  | .closed i => (none, w.setHq true ((w.hq true).upd i fun e => { e with nopen := e.nopen - 1 }))
  | .pin i => (none, w.setHq true ((w.hq true).upd i fun e => { e with pinned := true }))
  | .unpin i => (none, w.setHq true ((w.hq true).upd i fun e => { e with pinned := false }))
  | .relax pct f => (none, { w with s := w.s.relax pct f })
  | .drop => (none, { w with s := w.s.drop })

end Silofs.Hmq
