import Verif.Model.Avl
/-
Write-back of cached objects: lib/flush.c, lib/task.c (submission queue), lib/hmdq/dirtyq.c, and the requests that wait
for it (fsync, syncfs, write with O_SYNC).

Objects (blocks of data, nodes, inodes, space maps, super block) are named by `Id`.  Where an object is stored, its class
and its cipher are fixed (`Env`); that addresses may move with a snapshot is the subject of Model/Snap, and encryption
that of Model/EncDec.  Contents are byte strings; the checksum written by `lni_seal_meta` is left out (Model/Meta).  The
dirty queues are one list in the order in which objects became dirty: each queue of the code is the part of it with a
given class and owner.  Calls that may fail take their outcome from a list of answers (`true` is a failure, the empty
list means no failure); the five attempts at memory are one answer.  Low-memory flushes nested in a flush are left out.
-/
namespace Silofs.Flush
open Silofs.Avl

abbrev Id := Nat

/-- The types of objects as far as flushing tells them apart (flush.c:20-33, 268-284) -/
inductive Cls where
  | data | vnode | inode | unode
  deriving DecidableEq, Repr

/-- include/silofs/addr.h `struct silofs_lsid`: one segment file of the repository -/
structure Lsid where
  id : Nat
  lsize : Nat
  deriving DecidableEq, Repr

/-- include/silofs/addr.h `struct silofs_laddr` -/
structure Laddr where
  lsid : Lsid
  pos : Nat
  len : Nat
  deriving DecidableEq, Repr

abbrev Bytes := List UInt8
abbrev Disk := Lsid → Nat → UInt8

/-- What does not change while the file-system is mounted: address, class, encryption and decryption of each object, and
the comparison of keys of the sets of dirty objects (whatever it is). -/
structure Env where
  addr : Id → Laddr
  cls : Id → Cls
  enc : Id → Bytes → Bytes
  dec : Id → Bytes → Bytes
  cmp : Id → Id → Int

/-- include/silofs/task.h:57-71 `struct silofs_submitq_ent` -/
structure Sqe where
  id : Nat
  laddr : Laddr
  cls : Cls
  refs : List Id
  iov : List Bytes
  deriving DecidableEq, Repr

/-- Cache, dirty queues, submission queue and storage.  `owner n` is the queue that `n` joins when it becomes dirty
(`dqe->dq`): that of an inode, or `none` for the queue of its class.  `async n` counts the writes that will still copy
into `n` outside of the lock. -/
structure State where
  cache : Id → Option Bytes
  dq : List Id
  owner : Id → Option Id
  async : Id → Nat
  sq : List Sqe
  next : Nat
  disk : Disk

def State.cached (s : State) (n : Id) : Bool := (s.cache n).isSome
def State.cur (s : State) (n : Id) : Bytes := (s.cache n).getD []

def upd {β : Type} (f : Id → β) (n : Id) (b : β) : Id → β := fun m => if m = n then b else f m

/-! ### Storage -/

/-- `len` bytes at `pos` of a segment -/
def readAt (d : Disk) (a : Laddr) : Bytes := (List.range a.len).map fun k => d a.lsid (a.pos + k)

/-- repo.c:2683-2715 `silofs_repo_writev_at` with a vector of one, when nothing fails -/
def write1 (d : Disk) (l : Lsid) (pos : Nat) (b : Bytes) : Disk := fun l' p =>
  if l' = l ∧ pos ≤ p ∧ p < pos + b.length then b.getD (p - pos) 0 else d l' p

/-- The same with a vector -/
def writev (d : Disk) (l : Lsid) (pos : Nat) : List Bytes → Disk
  | [] => d
  | b :: bs => writev (write1 d l pos b) l (pos + b.length) bs

/-! ### Dirty queues -/

/-- lnodes.c:467-493 `silofs_vni_dirtify`, 362-367 `silofs_uni_dirtify`, hmdq/dirtyq.c:98-110 -/
def dirtify (s : State) (n : Id) (o : Option Id) : State :=
  if n ∈ s.dq then s
  else match o with
    | some i => { s with owner := upd s.owner n (some i), dq := s.dq ++ [n] }
    | none => { s with dq := s.dq ++ [n] }

/-- hmdq/dirtyq.c:32-51: what `dq_accum` counts -/
def accum (e : Env) (q : List Id) : Nat := (q.map fun n => (e.addr n).len).sum

/-- The queues: `dq_iis`, `dq_vnis`, `dq_unis` of the cache and `i_dq_vnis` of an inode -/
def dqIis (e : Env) (s : State) : List Id := s.dq.filter fun n => e.cls n = .inode ∧ s.owner n = none
def dqVnis (e : Env) (s : State) : List Id :=
  s.dq.filter fun n => (e.cls n = .data ∨ e.cls n = .vnode) ∧ s.owner n = none
def dqUnis (e : Env) (s : State) : List Id := s.dq.filter fun n => e.cls n = .unode ∧ s.owner n = none
def dqOf (s : State) (i : Id) : List Id := s.dq.filter fun n => s.owner n = some i

/-! ### When to flush -/

/-- include/silofs/types.h:46-56 -/
structure Flags where
  now : Bool := false
  fsync : Bool := false
  release : Bool := false
  opstart : Bool := false
  intern : Bool := false
  idle : Bool := false
  deriving DecidableEq, Repr

def LSEG_SIZE_MAX : Nat := 16 * 1024 * 1024

/-- flush.c:926-942 `flush_threshold_of` -/
def threshold (f : Flags) : Nat :=
  if f.now || f.idle || f.fsync then 0
  else if f.release then LSEG_SIZE_MAX / 2
  else if f.intern then LSEG_SIZE_MAX
  else if f.opstart then 2 * LSEG_SIZE_MAX
  else 4 * LSEG_SIZE_MAX

/-- flush.c:941-994 `need_flush_by`; `mem` says that more than half of the memory is in use -/
def needFlush (e : Env) (s : State) (ii : Option Id) (f : Flags) (mem : Bool) : Bool :=
  if f.now || mem then true
  else match ii with
    | some i => decide (accum e (dqOf s i) > threshold f)
    | none => decide (accum e (dqUnis e s) + accum e (dqIis e s) + accum e (dqVnis e s) > threshold f)

/-! ### Collecting -/

/-- flush.c:357-371 `flusher_add_dirty_vnis_of`: those without a write in progress (flush.c:58-63) -/
def mayFlush (s : State) (q : List Id) : List Id := q.filter fun n => s.async n = 0

/-- flush.c:373-378 `flusher_add_dirty_ii` -/
def ofInode (s : State) (i : Id) : List Id := mayFlush s (dqOf s i) ++ [i]

/-- flush.c:800-810 `flusher_fill_dsets` with 380-422: everything to be flushed, in the order of insertion -/
def collect (e : Env) (s : State) (ii : Option Id) (f : Flags) : List Id :=
  let alt := mayFlush s (dqVnis e s) ++ dqUnis e s
  match ii with
  | some i => if f.now then (dqIis e s).flatMap (ofInode s) ++ alt else ofInode s i ++ alt
  | none => (dqIis e s).flatMap (ofInode s) ++ alt

/-- flush.c:263-284 `flusher_dset_slot_of` -/
def slotOf : Cls → Nat
  | .data => 0
  | .vnode => 1
  | .inode => 1
  | .unode => 2

/-- flush.c:134-138 `dset_add_dirty` of each object -/
def insertAll (e : Env) : List Id → Avl Id → Option (Avl Id)
  | [], v => some v
  | n :: l, v => match v.insert e.cmp id n with
    | none => none
    | some v' => insertAll e l v'

/-- flush.c:211-227 `dset_mkfifo`: pushing each object of the set in order on a stack -/
def preq (v : Avl Id) : List Id := (walk v.root (v.size + 1) v.min).reverse

/-! ### Packing into submission entries -/

def SQENT_NREFS_MAX : Nat := 32
def COMMIT_LEN_MAX : Nat := 1024 * 1024

/-- addr/laddr.c:363-382 `silofs_laddr_isnext` -/
def isNext (a b : Laddr) : Bool :=
  decide (b.pos = a.pos + a.len) && decide (a.pos + a.len ≤ b.lsid.lsize) && decide (a.lsid = b.lsid)

/-- task.c:50-82 `sqe_isappendable`; the count of references is `q.refs.length` -/
def appendable (q : Sqe) (a : Laddr) : Bool :=
  if q.refs.length = 0 then true
  else if q.refs.length = SQENT_NREFS_MAX then false
  else if !isNext q.laddr a then false
  else if q.laddr.len + a.len > COMMIT_LEN_MAX then false
  else if q.cls = .inode ∧ q.laddr.pos + (q.laddr.len + a.len) > (q.laddr.pos + COMMIT_LEN_MAX) / COMMIT_LEN_MAX * COMMIT_LEN_MAX
    then false
  else true

/-- task.c:84-99 `silofs_sqe_append_ref` after the check; the limit of flush.c:563-565 is the same number. -/
def append (e : Env) (q : Sqe) (n : Id) : Sqe :=
  if q.refs.length = 0 then { q with laddr := e.addr n, cls := e.cls n, refs := [n] }
  else { q with laddr := { q.laddr with len := q.laddr.len + (e.addr n).len }, refs := q.refs ++ [n] }

/-- One call that may fail -/
def ask : List Bool → Bool × List Bool
  | [] => (false, [])
  | b :: r => (b, r)

/-- flush.c:610-636 `flusher_populate_sqe_refs`: `none` on failure (flush.c:462-518: resolving an address), otherwise the
entry, the objects that remain, and the rest of the answers -/
def populate (e : Env) : List Id → Sqe → List Bool → Option (Sqe × List Id × List Bool)
  | [], q, ans => some (q, [], ans)
  | n :: l, q, ans =>
    if (ask ans).1 then none
    else if appendable q (e.addr n) then populate e l (append e q n) (ask ans).2
    else some (q, n :: l, (ask ans).2)

/-- task.c:118-157 `silofs_sqe_assign_iovs`: encrypted copies of the contents -/
def assign (e : Env) (s : State) (q : Sqe) : Sqe :=
  { q with iov := q.refs.map fun n => e.enc n (s.cur n) }

/-- flush.c:760-781 `flusher_enqueue_dset`: `none` on failure.  Result: the entries made, the next unique id, the
answers left.  The loop runs at most once per object. -/
def enqueue (e : Env) (s : State) : Nat → List Id → Nat → List Bool → Option (List Sqe × Nat × List Bool)
  | _, [], next, ans => some ([], next, ans)
  | 0, _, _, _ => none
  | fuel + 1, n :: l, next, ans =>
    if (ask ans).1 then none   -- flusher_make_sqe
    else match populate e (n :: l) ⟨next, ⟨⟨0, 0⟩, 0, 0⟩, .data, [], []⟩ (ask ans).2 with
      | none => none
      | some (q, rest, ans) =>
        if (ask ans).1 then none   -- flusher_setup_sqe_by_refs
        else if (ask (ask ans).2).1 then none   -- flusher_prep_sqe
        else match enqueue e s fuel rest (next + 1) (ask (ask ans).2).2 with
          | none => none
          | some (tx, next, ans) => some (assign e s q :: tx, next, ans)

/-- flush.c:783-798 `flusher_process_dset_at` for the objects `l` of one slot: on success they are clean.  On failure the
ids used up do not matter and are not counted. -/
def processSlot (e : Env) (s : State) (l : List Id) (ans : List Bool) : Option (State × List Sqe × List Bool) :=
  match insertAll e l .empty with
  | none => none
  | some v =>
    if v.size = 0 then some (s, [], ans)
    else match enqueue e s (preq v).length (preq v) s.next ans with
      | none => none
      | some (tx, next, ans) => some ({ s with dq := s.dq.filter fun n => n ∉ preq v, next := next }, tx, ans)

def inSlot (e : Env) (k : Nat) (l : List Id) : List Id := l.filter fun n => slotOf (e.cls n) = k

/-- flush.c:812-837 `flusher_process_dsets` and `flusher_collect_flush_dirty`.  Result: whether it failed, the state, and
the greatest id submitted (task.c:402-408 `silofs_task_update_by`; 0 if nothing was). -/
def process (e : Env) (s : State) (l : List Id) (ans : List Bool) : Bool × State × Nat :=
  match processSlot e s (inSlot e 0 l) ans with
  | none => (true, s, 0)
  | some (s0, tx0, ans) =>
    match processSlot e s0 (inSlot e 1 l) ans with
    | none => (true, s0, 0)
    | some (s1, tx1, ans) =>
      match processSlot e s1 (inSlot e 2 l) ans with
      | none => (true, s1, 0)
      | some (s2, tx2, _) =>
        (false, { s2 with sq := s2.sq ++ (tx0 ++ tx1 ++ tx2) }, ((tx0 ++ tx1 ++ tx2).map Sqe.id).foldl max 0)

/-! ### Submission -/

/-- task.c:302-337 `submitq_apply` with the sequence of outcomes of the writes: whether one failed, the storage, what is
left of the queue.  The entry whose write fails is removed too. -/
def apply (d : Disk) (id : Nat) : List Sqe → List Bool → Bool × Disk × List Sqe
  | [], _ => (false, d, [])
  | q :: l, ans =>
    if q.id > id then (false, d, q :: l)
    else if (ask ans).1 then (true, d, l)
    else apply (writev d q.laddr.lsid q.laddr.pos q.iov) id l (ask ans).2

/-- task.c:410-420 `task_apply` for all entries: SILOFS_CID_ALL is greater than any id. -/
def applyAll (d : Disk) : List Sqe → List Bool → Bool × Disk × List Sqe
  | [], _ => (false, d, [])
  | q :: l, ans =>
    if (ask ans).1 then (true, d, l)
    else applyAll (writev d q.laddr.lsid q.laddr.pos q.iov) l (ask ans).2

/-- task.c:572-579 `silofs_task_submit` of a task whose greatest id is `apex` -/
def submit (s : State) (apex : Nat) (wans : List Bool) : Bool × State :=
  if apex = 0 then (false, s)
  else
    let r := apply s.disk apex s.sq wans
    (r.1, { s with disk := r.2.1, sq := r.2.2 })

def submitAll (s : State) (wans : List Bool) : Bool × State :=
  let r := applyAll s.disk s.sq wans
  (r.1, { s with disk := r.2.1, sq := r.2.2 })

/-- flush.c:996-1012 `silofs_flush_dirty` with 839-870.  Result: whether it failed, the state, the greatest id. -/
def flush (e : Env) (s : State) (ii : Option Id) (f : Flags) (mem : Bool) (ans wans : List Bool) : Bool × State × Nat :=
  if needFlush e s ii f mem = false then (false, s, 0)
  else
    match process e s (collect e s ii f) ans with
    | (true, s', a) => (true, s', a)
    | (false, s', a) =>
      if f.now then ((submitAll s' wans).1, (submitAll s' wans).2, a) else (false, s', a)

/-! ### Requests -/

/-- namei.c:1523-1533 `flush_dirty_of` -/
def flushOf (e : Env) (s : State) (i : Id) (f : Flags) (mem : Bool) (ans wans : List Bool) : Bool × State × Nat :=
  if i ∈ s.dq ∨ accum e (dqOf s i) ≠ 0 then flush e s (some i) f mem ans wans else (false, s, 0)

/-- namei.c:1680-1692 `do_fsync` and fuseq.c:2143-2153: the state when the caller is answered, the answer, and the ids to
wait for -/
def fsyncReply (e : Env) (s : State) (i : Id) (mem : Bool) (ans : List Bool) : Bool × State × Nat :=
  flushOf e s i { fsync := true } mem ans []

/-- fuseq.c:3425-3439 `fqd_do_exec_request`: the answer is followed by the submission. -/
def fsync (e : Env) (s : State) (i : Id) (mem : Bool) (ans wans : List Bool) : Bool × State :=
  ((fsyncReply e s i mem ans).1,
    (submit (fsyncReply e s i mem ans).2.1 (fsyncReply e s i mem ans).2.2 wans).2)

/-- namei.c:2338-2352 `flush_and_sync` for syncfs, without the fsync of the files of the repository -/
def syncfs (e : Env) (s : State) (ans wans : List Bool) : Bool × State :=
  ((flush e s none { now := true } false ans wans).1, (flush e s none { now := true } false ans wans).2.1)

/-- Change of an object in the cache by an operation: the new content, and it becomes dirty in the queue of `o`. -/
def modify (s : State) (n : Id) (o : Option Id) (c : Bytes) : State :=
  dirtify { s with cache := upd s.cache n (some c) } n o

/-- Begin of a write into the block `n` of file `i` that is to be copied later (file.c:368-379, 299) -/
def asyncBegin (s : State) (n i : Id) : State :=
  { dirtify s n (some i) with async := upd s.async n (s.async n + 1) }

/-- The copy, outside of the lock (fuseq.c:2650-2680, 2747-2755, file.c:381-387) -/
def asyncEnd (s : State) (n : Id) (c : Bytes) : State :=
  { s with cache := upd s.cache n (some c), async := upd s.async n (s.async n - 1) }

/-- file.c:2830-2860 `filc_write_iter` to the block `n` of file `i` with O_SYNC: the inode (size, times) is changed after
the flush.  A failing flush makes the request fail. -/
def writeSync (e : Env) (s : State) (i n : Id) (c ci : Bytes) (mem : Bool) (ans : List Bool) : Bool × State × Nat :=
  let r := flush e (modify s n (some i) c) (some i) { fsync := true } mem ans []
  (r.1, modify r.2.1 i none ci, r.2.2)

/-- vstage.c: reading an object that is not in the cache -/
def load (e : Env) (s : State) (n : Id) : State :=
  if s.cached n then s else { s with cache := upd s.cache n (some (e.dec n (readAt s.disk (e.addr n)))) }

/-- lnodes.c:181-189, inode.c:546-556: an object can leave the cache when it is clean, unused and not being written, and
an inode only when its queue is empty. -/
def evictable (s : State) (n : Id) : Bool :=
  decide (n ∉ s.dq) && decide (s.async n = 0) && decide (∀ q ∈ s.sq, n ∉ q.refs) && decide (dqOf s n = [])

def evict (s : State) (n : Id) : State :=
  if evictable s n then { s with cache := upd s.cache n none } else s

/-- The process ends; what is left is what was stored. -/
def crash (s : State) : State :=
  { s with cache := fun _ => none, dq := [], sq := [], async := fun _ => 0 }

end Silofs.Flush
