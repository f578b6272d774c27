/-
Model of the in-memory cache of objects: `lib/hmdq/hmapq.c` (hash table and LRU queue),
`lib/hmdq/dirtyq.c` (queues of changed objects), `lib/lcache.c` (look up, create, forget, relax,
drop) and the parts of `lib/lnodes.c` and `lib/inode.c` which say what may be evicted.

Elements are numbers ("addresses of memory"), never used twice. Linked lists are lists of those
numbers, front first; the counter which a list head keeps (`listq.sz`) is the length of the list.
Keys are numbers: two keys are equal in the model iff `hkey_isequal` says so (for that function see
the model of comparisons, C42).

The content of an object is one number, `data`; `store` is what storage holds.
-/
namespace Silofs.Lcache

/-- Queues of changed objects: the three of the cache, `struct silofs_dirtyqs`
(include/silofs/lcache.h 26-31), and one within each inode (include/silofs/lnodes.h 93). -/
inductive Dq where
  | unis
  | iis
  | vnis
  | own (i : Nat)
deriving DecidableEq, Repr

/-- An object in memory: `struct silofs_hmapq_elem` with its `silofs_dq_elem`
(include/silofs/hmdq/hmapq.h, dirtyq.h), the flag `SILOFS_LNF_PINNED` (include/silofs/lnodes.h 30)
and, for an inode, `i_nopen` (lnodes.h 98). -/
structure Elem where
  key : Nat
  size : Nat
  isInode : Bool
  data : Nat
  refcnt : Nat
  pinned : Bool
  nopen : Nat
  mapped : Bool
  forgot : Bool
  inq : Bool
  dq : Dq
  htbHit : Nat
  lruHit : Nat

/-- One hash-map with its LRU queue, `struct silofs_hmapq`, and the memory of its elements.
`vkind`: it is the one of vnodes, not the one of unodes. `crash`: an assertion has failed or memory
which is still referred to has been freed. `hash`: `hkey->hash ^ (hkey->hash >> 32)`. -/
structure HQ where
  vkind : Bool
  hash : Nat → Nat
  nslots : Nat
  heap : Nat → Elem
  live : Nat → Bool
  next : Nat
  htbl : Nat → List Nat
  size : Nat
  lru : List Nat
  dq : Dq → List Nat
  accum : Dq → Nat
  crash : Bool

/-- Change one element. -/
def HQ.upd (h : HQ) (i : Nat) (f : Elem → Elem) : HQ :=
  { h with heap := fun j => if j = i then f (h.heap j) else h.heap j }

/-- `hmapq_key_to_slot` (lib/hmdq/hmapq.c 557-563). -/
def HQ.slot (h : HQ) (k : Nat) : Nat := h.hash k % h.nslots

/-- `silofs_hmapq_init` (lib/hmdq/hmapq.c 523-537), `dirtyqs_init` (lib/lcache.c 42-47). -/
def HQ.init (vkind : Bool) (hash : Nat → Nat) (nslots : Nat) : HQ where
  vkind := vkind
  hash := hash
  nslots := nslots
  heap := fun _ => ⟨0, 0, false, 0, 0, false, 0, false, false, false, .unis, 0, 0⟩
  live := fun _ => false
  next := 0
  htbl := fun _ => []
  size := 0
  lru := []
  dq := fun _ => []
  accum := fun _ => 0
  crash := false

/-- `hmapq_find` (lib/hmdq/hmapq.c 585-602): the first element of the slot with that key. -/
def HQ.find (h : HQ) (k : Nat) : Option Nat :=
  (h.htbl (h.slot k)).find? (fun i => decide ((h.heap i).key = k))

/-- `silofs_lni_isevictable` (lib/lnodes.c 181-189) with `hmqe_is_evictable_atomic`
(lib/hmdq/hmapq.c 476-479); for inodes `silofs_ii_isevictable` (lib/inode.c 552-561); which of them
is asked: `test_evictable_vni` (lib/lcache.c 447-459). -/
def HQ.evictable (h : HQ) (i : Nat) : Bool :=
  (if (h.heap i).isInode then decide ((h.heap i).nopen = 0) && (h.dq (.own i)).isEmpty else true) &&
    (!(h.heap i).pinned && (!(h.heap i).inq && decide ((h.heap i).refcnt = 0)))

/-! ### Queues of changed objects -/

/-- `silofs_dqe_enqueue` with `silofs_dirtyq_append` (lib/hmdq/dirtyq.c 109-117, 33-39). -/
def HQ.enqueue (h : HQ) (i : Nat) : HQ :=
  if (h.heap i).inq then h
  else
    { h with
      heap := fun j => if j = i then { h.heap j with inq := true } else h.heap j
      dq := fun q => if q = (h.heap i).dq then h.dq q ++ [i] else h.dq q
      accum := fun q => if q = (h.heap i).dq then h.accum q + (h.heap i).size else h.accum q }

/-- `silofs_dqe_dequeue` with `silofs_dirtyq_remove` (lib/hmdq/dirtyq.c 119-127, 41-50), as called
by `silofs_lni_undirtify` (lib/lnodes.c 261-266). -/
def HQ.undirtify (h : HQ) (i : Nat) : HQ :=
  if (h.heap i).inq then
    { h with
      heap := fun j => if j = i then { h.heap j with inq := false } else h.heap j
      dq := fun q => if q = (h.heap i).dq then (h.dq q).erase i else h.dq q
      accum := fun q => if q = (h.heap i).dq then h.accum q - (h.heap i).size else h.accum q
      crash := h.crash || decide (h.accum (h.heap i).dq < (h.heap i).size) }
  else h

/-- `silofs_vni_set_dq` (lib/lnodes.c 457-460) with `silofs_dqe_setq` (lib/hmdq/dirtyq.c 103-107),
which asserts that the element is in no queue. -/
def HQ.setDq (h : HQ) (i : Nat) (q : Dq) : HQ :=
  { h.upd i (fun e => { e with dq := q }) with crash := h.crash || (h.heap i).inq }

/-- `silofs_vni_dirtify` (lib/lnodes.c 475-484, `vni_update_dq_by` 467-473); `silofs_uni_dirtify`
(362-367) when there is no owner. -/
def HQ.dirtify (h : HQ) (i : Nat) (owner : Option Nat) : HQ :=
  if (h.heap i).inq then h
  else match owner with
    | none => h.enqueue i
    | some o => (h.setDq i (.own o)).enqueue i

/-- The queue of the cache for an object: `dirtyqs_get` (lib/lcache.c 56-70). -/
def HQ.classOf (h : HQ) (isInode : Bool) : Dq :=
  if h.vkind then (if isInode then .iis else .vnis) else .unis

/-- `silofs_lcache_reditify_vni` (lib/lcache.c 696-702). -/
def HQ.redirtify (h : HQ) (i : Nat) : HQ :=
  (((h.undirtify i).setDq i (h.classOf (h.heap i).isInode)).dirtify i none)

/-! ### Hash table and LRU queue -/

/-- `hmqe_need_relru` (lib/hmdq/hmapq.c 424-446). -/
def HQ.needRelru (h : HQ) (i : Nat) : Bool :=
  match h.lru with
  | [] => false
  | f :: rest =>
    decide (f ≠ i) && (decide (rest.head? ≠ some i) &&
      (!decide (h.lru.length < 16) && !decide ((h.heap i).lruHit < 4)))

/-- `hmapq_promote_lru` (lib/hmdq/hmapq.c 646-657), `hmqe_relru` (448-454). -/
def HQ.promoteLru (h : HQ) (i : Nat) (now : Bool) : HQ :=
  if h.lru.head? ≠ some i ∧ (now ∨ (h.upd i fun e => { e with lruHit := e.lruHit + 1 }).needRelru i) then
    { h.upd i (fun e => { e with lruHit := 0 }) with lru := i :: h.lru.erase i }
  else h.upd i fun e => { e with lruHit := e.lruHit + 1 }

/-- `hmqe_need_promote_hmap` (lib/hmdq/hmapq.c 356-369). -/
def HQ.needHlnk (h : HQ) (i : Nat) : Bool :=
  match h.htbl (h.slot (h.heap i).key) with
  | [] => false
  | f :: rest => decide (f ≠ i) && (decide (rest.head? ≠ some i) &&
      decide ((h.heap i).htbHit > (h.heap f).htbHit + 2))

/-- Move to the front of its slot: `hmqe_promote_hmap` (lib/hmdq/hmapq.c 382-391). -/
def HQ.toFront (h : HQ) (i : Nat) : HQ :=
  { h with htbl := fun s =>
      if s = h.slot (h.heap i).key then i :: (h.htbl s).erase i else h.htbl s }

/-- `hmapq_promote_hlnk` (lib/hmdq/hmapq.c 659-668). -/
def HQ.promoteHlnk (h : HQ) (i : Nat) : HQ :=
  if (h.upd i fun e => { e with htbHit := e.htbHit + 1 }).needHlnk i then
    (h.upd i fun e => { e with htbHit := e.htbHit + 1 }).toFront i
  else h.upd i fun e => { e with htbHit := e.htbHit + 1 }

/-- `silofs_hmapq_promote` (lib/hmdq/hmapq.c 670-677). -/
def HQ.promote (h : HQ) (i : Nat) (now : Bool) : HQ :=
  if ((h.promoteLru i now).heap i).mapped then (h.promoteLru i now).promoteHlnk i
  else h.promoteLru i now

/-- `silofs_hmapq_store` (lib/hmdq/hmapq.c 574-583). -/
def HQ.storeIn (h : HQ) (i : Nat) : HQ :=
  { h with
    heap := fun j => if j = i then { h.heap j with mapped := true } else h.heap j
    lru := i :: h.lru
    htbl := fun s => if s = h.slot (h.heap i).key then i :: h.htbl s else h.htbl s
    size := h.size + 1 }

/-- `silofs_hmapq_unmap` (lib/hmdq/hmapq.c 629-635), `hmapq_unmap` (616-621). -/
def HQ.unmap (h : HQ) (i : Nat) : HQ :=
  if (h.heap i).mapped then
    { h with
      heap := fun j => if j = i then { h.heap j with mapped := false } else h.heap j
      htbl := fun s => if s = h.slot (h.heap i).key then (h.htbl s).erase i else h.htbl s
      size := h.size - 1 }
  else h

/-- `silofs_hmapq_remove` (lib/hmdq/hmapq.c 637-644). -/
def HQ.remove (h : HQ) (i : Nat) : HQ :=
  { h.unmap i with lru := (h.unmap i).lru.erase i }

/-- `silofs_del_unode`, `silofs_del_vnode` (lib/lnodes.c 1381-1411, 1455-1491): the memory is free;
`silofs_hmqe_fini` (lib/hmdq/hmapq.c 328-341) asserts that nobody refers to it, `silofs_dqe_fini`
(lib/hmdq/dirtyq.c 93-101) that it is in no queue; an inode's queue goes with it. -/
def HQ.free (h : HQ) (i : Nat) : HQ :=
  { h with
    live := fun j => if j = i then false else h.live j
    crash := h.crash || (!h.live i || (decide ((h.heap i).refcnt ≠ 0) || ((h.heap i).inq ||
      !(h.dq (.own i)).isEmpty))) }

/-- `lcache_evict_uni`, `lcache_evict_vni` (lib/lcache.c 185-192, 519-525). -/
def HQ.evict (h : HQ) (i : Nat) : HQ :=
  if h.vkind then ((h.remove i).upd i (fun e => { e with forgot := false })).free i
  else ((h.undirtify i).remove i).free i

/-- `lcache_evict_or_relru_uni`, `…_vni` (lib/lcache.c 215-228, 549-562): what they do. -/
def HQ.evictOrRelru (h : HQ) (i : Nat) : HQ :=
  if h.evictable i then h.evict i else h.promote i true

/-- Loop of `lcache_shrink_or_relru_unis`, `…_vnis` (lib/lcache.c 230-253, 564-587), from round `i`
on; result: number of evictions, cache. -/
def HQ.shrinkLoop (now : Bool) : Nat → Nat → Nat → HQ → Nat × HQ
  | 0, _, ev, h => (ev, h)
  | n + 1, i, ev, h =>
    match h.lru.getLast? with
    | none => (ev, h)
    | some x =>
      if h.evictable x then shrinkLoop now n (i + 1) (ev + 1) (h.evictOrRelru x)
      else if (if h.vkind then !now && (decide (i ≠ 0) || decide (ev ≠ 0)) else !now) then
        (ev, h.evictOrRelru x)
      else shrinkLoop now n (i + 1) ev (h.evictOrRelru x)

/-- `lcache_shrink_some_unis`, `…_vnis` (lib/lcache.c 706-716). -/
def HQ.shrink (h : HQ) (cnt : Nat) (now : Bool) : Nat × HQ :=
  shrinkLoop now (min cnt h.lru.length) 0 0 h

/-- The neighbour towards the front (`itr->prev`). -/
def prevOf : List Nat → Nat → Option Nat
  | a :: b :: l, i => if b = i then some a else prevOf (b :: l) i
  | _, _ => none

/-- `silofs_hmapq_riterate` (lib/hmdq/hmapq.c 692-707) with the callbacks `try_evict_uni`,
`try_evict_vni` (lib/lcache.c 255-261, 589-596): the neighbour is taken before the callback. -/
def HQ.riterEvict : Nat → Option Nat → HQ → HQ
  | 0, _, h => h
  | _ + 1, none, h => h
  | n + 1, some i, h => riterEvict n (prevOf h.lru i) (h.evictOrRelru i)

/-- `lcache_drop_evictable_unis`, `…_vnis` (lib/lcache.c 263-267, 598-602). -/
def HQ.dropEvictable (h : HQ) : HQ :=
  riterEvict h.lru.length h.lru.getLast? h

/-- `lcache_find_evictable_uni`, `…_vni` (lib/lcache.c 138-146, 472-480): among the last ten. -/
def HQ.findEvictable (h : HQ) : Option Nat :=
  (h.lru.reverse.take 10).find? (fun i => h.evictable i)

/-- `silofs_hmapq_overpop` (lib/hmdq/hmapq.c 709-719). -/
def HQ.overpop (h : HQ) : Nat :=
  if h.size > h.nslots then h.size - h.nslots
  else if h.lru.length > 2 * h.size then h.lru.length - 2 * h.size
  else 0

/-- A new element, zeroed: `silofs_hmqe_init` (lib/hmdq/hmapq.c 314-326), queue by
`lcache_set_dq_of_uni`, `…_vni` (lib/lcache.c 357-363, 664-670), stored by `lcache_store_uni`,
`…_vni` (350-355, 533-538). -/
def HQ.create (h : HQ) (k size : Nat) (isInode : Bool) (data : Nat) : HQ :=
  HQ.storeIn
    { h with
      heap := fun j => if j = h.next then
        ⟨k, size, isInode, data, 0, false, 0, false, false, false, h.classOf isInode, 0, 0⟩
        else h.heap j
      live := fun j => if j = h.next then true else h.live j
      next := h.next + 1 } h.next

/-- `silofs_lcache_lookup_uni`, `…_vni` (lib/lcache.c 323-331, 613-621), without the map of
addresses: `lcache_find_relru_uni` (166-177). `hmqe_sanitize_mapped` (lib/hmdq/hmapq.c 371-380)
panics if the element found is not mapped. -/
def HQ.lookup (h : HQ) (k : Nat) : Option Nat × HQ :=
  match h.find k with
  | none => (none, h)
  | some i => (some i, ({ h with crash := h.crash || !(h.heap i).mapped } : HQ).promote i false)

/-- `lcache_forget_vni` (lib/lcache.c 646-656), `lcache_forget_uni` (390-395; the map of addresses is
modelled apart). -/
def HQ.forget (h : HQ) (i : Nat) : HQ :=
  if h.vkind then
    if ((h.undirtify i).heap i).refcnt > 0 then
      ((h.undirtify i).unmap i).upd i (fun e => { e with forgot := true })
    else (h.undirtify i).evict i
  else h.evict i

/-! ### Both maps -/

/-- `struct silofs_lcache` with what storage holds: `c true` are vnodes, `c false` unodes. -/
structure St where
  v : HQ
  u : HQ

/-- `lcache_evict_some` (lib/lcache.c 725-744). -/
def St.evictSome (s : St) : St :=
  match s.v.findEvictable, s.u.findEvictable with
  | some i, some j => ⟨s.v.evict i, s.u.evict j⟩
  | some i, none => ⟨s.v.evict i, s.u⟩
  | none, some j => ⟨s.v, s.u.evict j⟩
  | none, none => ⟨(s.v.shrink 1 false).2, (s.u.shrink 1 false).2⟩

/-- `lcache_require_uni`, `lcache_require_vni` (lib/lcache.c 333-348, 623-638): `fails` is the number
of times the allocator has nothing to give. The result says whether there is an element. -/
def St.require (s : St) : Nat → Bool × St
  | 0 => (true, s)
  | 1 => (true, s.evictSome)
  | 2 => (true, s.evictSome.evictSome)
  | 3 => (true, s.evictSome.evictSome.evictSome)
  | _ => (false, s.evictSome.evictSome.evictSome.evictSome)

/-- Flags of `silofs_lcache_relax` (include/silofs/types.h 47-55). -/
structure RFlags where
  now : Bool
  intern : Bool
  opstart : Bool
  idle : Bool

/-- `lcache_calc_niter` (lib/lcache.c 760-783), of the memory in use in percent. -/
def calcNiter (pct : Nat) (f : RFlags) : Nat :=
  let a := if pct > 60 then 10
    else if pct > 20 then (if f.intern then 5 else 0) + (if f.opstart then 1 else 0)
    else 0
  let b := a + (if f.now then 2 + min pct 5 else 0)
  if b = 0 ∧ f.idle then 2 + min pct 3 else b

/-- Loop of `lcache_relax_by_niter` (lib/lcache.c 790-814), from round `i` on. -/
def St.relaxLoop (now : Bool) (cnt : Nat) : Nat → Nat → St → Nat → St × Nat
  | 0, _, s, total => (s, total)
  | n + 1, i, s, total =>
    if (s.v.shrink (i + 1) now).1 = 0 ∨ now ∨ s.u.size > 128 then
      if (s.v.shrink (i + 1) now).1 = 0 ∧ (s.u.shrink cnt now).1 = 0 then
        (⟨(s.v.shrink (i + 1) now).2, (s.u.shrink cnt now).2⟩, total)
      else
        relaxLoop now cnt n (i + 1) ⟨(s.v.shrink (i + 1) now).2, (s.u.shrink cnt now).2⟩
          (total + (s.v.shrink (i + 1) now).1 + (s.u.shrink cnt now).1)
    else
      relaxLoop now cnt n (i + 1) ⟨(s.v.shrink (i + 1) now).2, s.u⟩
        (total + (s.v.shrink (i + 1) now).1)

/-- `lcache_relax_by_overpop` (lib/lcache.c 826-843). -/
def St.relaxOverpop (s : St) : St where
  v := if s.v.overpop > 0 then (s.v.shrink (min s.v.overpop 8) true).2 else s.v
  u := if s.u.overpop > 0 then (s.u.shrink (min s.u.overpop 2) true).2 else s.u

/-- `silofs_lcache_relax` (lib/lcache.c 852-864), without the map of addresses. -/
def St.relax (s : St) (pct : Nat) (f : RFlags) : St :=
  (s.relaxLoop f.now (if f.now ∨ calcNiter pct f > 1 then 2 else 1) (calcNiter pct f) 0 0).1.relaxOverpop

/-- `lcache_drop_evictables_once` (lib/lcache.c 872-876). -/
def St.dropOnce (s : St) : St := ⟨s.v.dropEvictable, s.u.dropEvictable⟩

/-- Loop of `lcache_drop_evictables` (lib/lcache.c 878-890): at most `n` rounds, while the number of
mapped elements changes. -/
def St.dropLoop : Nat → Nat → St → St
  | 0, _, s => s
  | n + 1, pre, s =>
    if s.v.size + s.u.size = pre then s
    else dropLoop n (s.v.size + s.u.size) s.dropOnce

/-- `silofs_lcache_drop` (lib/lcache.c 902-907), the objects. -/
def St.drop (s : St) : St := s.dropLoop 10 0

/-! ### The cache in use -/

/-- The cache over storage: `store v k` is what storage holds for key `k`. -/
structure World where
  s : St
  store : Bool → Nat → Nat

/-- One of the two maps. -/
def World.hq (w : World) (v : Bool) : HQ := if v then w.s.v else w.s.u

/-- Replace one of the two maps. -/
def World.setHq (w : World) (v : Bool) (h : HQ) : World :=
  if v then { w with s := ⟨h, w.s.u⟩ } else { w with s := ⟨w.s.v, h⟩ }

/-- What the rest of the file-system asks of the cache. Elements are named by their addresses. -/
inductive Op where
  | stage (v : Bool) (k size : Nat) (isInode : Bool) (fails : Nat)
  | incref (v : Bool) (i : Nat)
  | decref (v : Bool) (i : Nat)
  | write (v : Bool) (i d : Nat) (owner : Option Nat)
  | redirtify (i : Nat)
  | save (v : Bool) (i : Nat)
  | forget (v : Bool) (i : Nat)
  | opened (i : Nat)
  | closed (i : Nat)
  | pin (i : Nat)
  | unpin (i : Nat)
  | relax (pct : Nat) (f : RFlags)
  | drop

/-- Object of a key which the cache does not hold: create it and load it, `vstgc_stage_vnode_at`
(lib/vstage.c 2354-2394) and the like (lib/ustage.c 375-413, 495-534, 616-655). Simplification: the load does not fail (a failed
one is followed by `forget`) and nothing happens between creation and load. -/
def World.load (w : World) (v : Bool) (k size : Nat) (isInode : Bool) (fails : Nat) :
    Option (Nat × Nat) × World :=
  if (w.s.require fails).1 then
    (some ((({ w with s := (w.s.require fails).2 } : World).hq v).next, w.store v k),
      ({ w with s := (w.s.require fails).2 } : World).setHq v
        ((({ w with s := (w.s.require fails).2 } : World).hq v).create k size isInode (w.store v k)))
  else (none, { w with s := (w.s.require fails).2 })

/-- Object of a key: look up (`fetch_cached_vni` with `fixup_cached_vni`, lib/vstage.c 2404-2434;
`silofs_lcache_lookup_uni`), else load. Result: address and content. -/
def World.stage (w : World) (v : Bool) (k size : Nat) (isInode : Bool) (fails : Nat) :
    Option (Nat × Nat) × World :=
  match ((w.hq v).lookup k).1 with
  | none => (w.setHq v ((w.hq v).lookup k).2).load v k size isInode fails
  | some i =>
    if (((w.hq v).lookup k).2.heap i).forgot ∧ (((w.hq v).lookup k).2.heap i).refcnt = 0 then
      (w.setHq v (((w.hq v).lookup k).2.forget i)).load v k size isInode fails
    else
      (some (i, (((w.hq v).lookup k).2.heap i).data), w.setHq v ((w.hq v).lookup k).2)

/-- One request. `save`: the flusher has stored the content of a changed object and takes it off its
queue (`dset_undirtify_all`, lib/flush.c 229-237). `opened`, `closed`: `update_nopen`
(lib/namei.c 134-147). `pin`, `unpin`: lib/namei.c 51-69. -/
def World.step (w : World) : Op → Option (Nat × Nat) × World
  | .stage v k size isInode fails => w.stage v k size isInode fails
  | .incref v i => (none, w.setHq v ((w.hq v).upd i fun e => { e with refcnt := e.refcnt + 1 }))
  | .decref v i => (none, w.setHq v ((w.hq v).upd i fun e => { e with refcnt := e.refcnt - 1 }))
  | .write v i d owner =>
    (none, w.setHq v (((w.hq v).upd i fun e => { e with data := d }).dirtify i owner))
  | .redirtify i => (none, w.setHq true ((w.hq true).redirtify i))
  | .save v i =>
    (none, { w.setHq v ((w.hq v).undirtify i) with
      store := fun v' k' => if v' = v ∧ k' = ((w.hq v).heap i).key then ((w.hq v).heap i).data
        else w.store v' k' })
  | .forget v i => (none, w.setHq v ((w.hq v).forget i))
  | .opened i => (none, w.setHq true ((w.hq true).upd i fun e => { e with nopen := e.nopen + 1 }))
  | .closed i => (none, w.setHq true ((w.hq true).upd i fun e => { e with nopen := e.nopen - 1 }))
  | .pin i => (none, w.setHq true ((w.hq true).upd i fun e => { e with pinned := true }))
  | .unpin i => (none, w.setHq true ((w.hq true).upd i fun e => { e with pinned := false }))
  | .relax pct f => (none, { w with s := w.s.relax pct f })
  | .drop => (none, { w with s := w.s.drop })

/-! ### Addresses of unodes by the range they cover -/

/-- `struct silofs_uamap` (include/silofs/spxmap.h): entries are (key, address), the key computed from
the address; `htbl` and `lru` hold numbers of entries. Allocation of entries is not reused. -/
structure UaMap where
  cap : Nat
  hash : Nat → Nat
  keyOf : Nat → Nat
  ent : Nat → Nat
  next : Nat
  htbl : Nat → List Nat
  lru : List Nat

/-- `silofs_uamap_init` (lib/spxmap.c 755-769). -/
def UaMap.init (cap : Nat) (hash keyOf : Nat → Nat) : UaMap :=
  ⟨cap, hash, keyOf, fun _ => 0, 0, fun _ => [], []⟩

/-- `uamap_slot_of` (lib/spxmap.c 784-791). -/
def UaMap.slot (m : UaMap) (k : Nat) : Nat := m.hash k % m.cap

/-- `uamap_find` (lib/spxmap.c 812-830): the entry. -/
def UaMap.find (m : UaMap) (k : Nat) : Option Nat :=
  (m.htbl (m.slot k)).find? (fun e => decide (m.keyOf (m.ent e) = k))

/-- `silofs_uamap_lookup` (lib/spxmap.c 832-840): the address. -/
def UaMap.lookup (m : UaMap) (k : Nat) : Option Nat := (m.find k).map m.ent

/-- `uamap_remove` (lib/spxmap.c 871-876). -/
def UaMap.removeEnt (m : UaMap) (e : Nat) : UaMap :=
  { m with
    htbl := fun s => if s = m.slot (m.keyOf (m.ent e)) then (m.htbl s).erase e else m.htbl s
    lru := m.lru.erase e }

/-- `silofs_uamap_remove` (lib/spxmap.c 885-895): as long as one is found; the bound is the number of
entries. -/
def UaMap.removeLoop (k : Nat) : Nat → UaMap → UaMap
  | 0, m => m
  | n + 1, m =>
    match m.find k with
    | none => m
    | some e => removeLoop k n (m.removeEnt e)

def UaMap.remove (m : UaMap) (k : Nat) : UaMap := removeLoop k m.lru.length m

/-- `uamap_remove_lru`, `silofs_uamap_drop_lru` (lib/spxmap.c 916-926, 958-961). -/
def UaMap.dropLru (m : UaMap) : UaMap :=
  match m.lru.getLast? with
  | none => m
  | some e => m.removeEnt e

/-- `uamap_refresh` (lib/spxmap.c 928-933). -/
def UaMap.refresh (m : UaMap) : UaMap :=
  if 2 * m.lru.length > m.cap then m.dropLru else m

/-- `uamap_insert` (lib/spxmap.c 909-914) of a new entry. -/
def UaMap.push (m : UaMap) (a : Nat) : UaMap :=
  { m with
    ent := fun e => if e = m.next then a else m.ent e
    next := m.next + 1
    htbl := fun s => if s = m.slot (m.keyOf a) then m.next :: m.htbl s else m.htbl s
    lru := m.next :: m.lru }

/-- `silofs_uamap_insert` (lib/spxmap.c 935-947); `mem` tells whether memory for the entry was found.
The result is not looked at by `lcache_track_uaddr` (lib/lcache.c 276-280). -/
def UaMap.insert (m : UaMap) (a : Nat) (mem : Bool) : UaMap :=
  if mem then m.refresh.push a else m

/-- `lcache_track_uaddr_of` (lib/lcache.c 298-308). -/
def UaMap.track (m : UaMap) (a : Nat) (mem : Bool) : UaMap :=
  match m.lookup (m.keyOf a) with
  | some _ => m
  | none => m.insert a mem

/-- `silofs_uamap_drop_all` (lib/spxmap.c 949-956). -/
def UaMap.dropAllLoop : Nat → UaMap → UaMap
  | 0, m => m
  | n + 1, m => dropAllLoop n m.dropLru

def UaMap.dropAll (m : UaMap) : UaMap := dropAllLoop m.lru.length m

/-- What the file-system does with the map: `create a` when the unode at address `a` is created in the
cache (`lcache_create_uni`, lib/lcache.c 365-378), `found a` when it is looked up
(`lcache_lookup_uni`, 310-321), `forget a` (`lcache_forget_uni`, 390-395), `idle`
(`lcache_try_relax_uamap`, 845-850), `dropAll` (897-907). -/
inductive UaOp where
  | create (a : Nat) (mem : Bool)
  | found (a : Nat) (mem : Bool)
  | forget (a : Nat)
  | idle
  | dropAll

def UaMap.step (m : UaMap) : UaOp → UaMap
  | .create a mem => m.insert a mem
  | .found a mem => m.track a mem
  | .forget a => m.remove (m.keyOf a)
  | .idle => m.dropLru
  | .dropAll => m.dropAll

end Silofs.Lcache
