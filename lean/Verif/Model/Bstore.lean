import Verif.Model.Boot
import Verif.Model.Compare
import Verif.Model.Sysio
/-
The physical store below a file-system: lib/bstore.c, lib/pnodes.c, lib/pcache.c.

A file-system has one physical volume of segments; mkfs makes its first segment, with a
checkpoint, the root of a tree and a second checkpoint (lib/bstore.c:660-681), and the boot record
keeps the range of the volume in use (lib/execlib.c:1542-1549).  A mount starts from that range:
it loads the last checkpoint, from it the root, and the children of the root
(lib/bstore.c:776-794); nothing else of the file-system is looked at unless this succeeds
(lib/execlib.c:1621-1656).

Segments are files (`Sysio.File`) under their identities: what `silofs_repo_create_pseg`,
`silofs_repo_stage_pseg`, `silofs_repo_save_pobj` and `silofs_repo_load_pobj` do to the repository
is the subject of C54, where the relation `Repo.Own` says exactly what `Seg` below does; the cache
of open files is left out.  The kernel's answers to reads and writes are arbitrary.
-/
namespace Silofs.Bs
open Silofs Silofs.Addr Silofs.Boot Silofs.Sysio

/-- include/silofs/defs.h:355-362 `enum silofs_ptype` -/
def PT_NONE : Nat := 0
def PT_CHKPT : Nat := 1
def PT_BTNODE : Nat := 2
def PT_BTLEAF : Nat := 3

/-- lib/addr/paddr.c:23-39 `silofs_ptype_size` (include/silofs/defs.h:977-1012) -/
def ptypeSize (t : Nat) : Nat :=
  if t = PT_CHKPT then 4096 else if t = PT_BTNODE then 4096 else if t = PT_BTLEAF then 8192 else 0

def SEPERM : Nat := 1001
def SENOENT : Nat := 1002
def SENOMEM : Nat := 1012
def SEEXIST : Nat := 1017
def SEINVAL : Nat := 1022
def EINVAL : Nat := 22
/-- include/silofs/errors.h: `SILOFS_EFSCORRUPTED` -/
def EFSCORRUPTED : Nat := 1117

/-- lib/addr/paddr.c:221-231 `s_paddr_none` -/
def paddrNone : Paddr := ⟨⟨List.replicate 16 0, 0⟩, -1, 0, PT_NONE⟩

/-- lib/addr/paddr.c:233-237 `silofs_paddr_isnull` -/
def isNull (a : Paddr) : Bool := a.ptype == PT_NONE || a.len == 0 || decide (a.off < 0) || a.psid.index == 0

/-! ### The range of the volume, lib/bstore.c:37-165 -/

/-- lib/bstore.c:37-43 `prange_init` -/
def prangeInit (pvid : List Nat) : Prange := ⟨pvid, 1, 1, 0⟩

/-- lib/bstore.c:67-76 `prange_curr_paddr_at` with 61-65 `prange_curr_psid` -/
def currAt (p : Prange) (pos : Int) (t : Nat) : Paddr := ⟨⟨p.pvid, p.curr⟩, pos, ptypeSize t, t⟩

/-- lib/bstore.c:85-94 `prange_last_paddr` -/
def lastAddr (p : Prange) (t : Nat) : Paddr :=
  currAt p (if p.pos > ptypeSize t then p.pos - ptypeSize t else 0) t

/-- lib/bstore.c:102-107 `prange_carve` with 78-83 `prange_curr_paddr`, 96-100 `prange_advance_by` -/
def carve (p : Prange) (t : Nat) : Paddr × Prange :=
  (currAt p p.pos t, { p with pos := p.pos + ptypeSize t })

/-- lib/bstore.c:120-130 `prange_has_paddr` with 109-118; 214-223 `bstate_has_paddr` -/
def hasAddr (p : Prange) (a : Paddr) : Bool :=
  !isNull a && (p.pvid == a.psid.pvid && (decide (p.base ≤ a.psid.index) && decide (a.psid.index ≤ p.curr)))

/-- lib/bstore.c:132-144 `prange_check_valid` (`off_isnull` holds of negative offsets) -/
def rangeValid (p : Prange) : Bool :=
  decide (p.base ≤ p.curr) && (decide (p.base ≤ 2147483647) && decide (0 ≤ p.pos))

/-! ### Objects, lib/pnodes.c -/

/-- lib/addr/meta.c:244-254 `silofs_hdr_setup`: magic, type, size; no checksum and no flags -/
def hdr (type size : Nat) : List Nat :=
  leBytes 4 0x6F6C6973 ++ ([type % 256, 0, 0, 0] ++ (leBytes 4 size ++ [0, 0, 0, 0]))

/-- lib/pnodes.c:82-90 `cpn_init`, then 54-58 `cpn_set_btree_root`: a checkpoint (flags `META`) -/
def encChkpt (self root : Paddr) : List Nat :=
  hdr PT_CHKPT 4096 ++ (leBytes 4 1 ++ (List.replicate 44 0 ++ (paddr48Htox self ++ (List.replicate 16 0 ++
    (paddr48Htox root ++ List.replicate 3920 0)))))

/-- lib/pnodes.c:48-52 `cpn_btree_root` -/
def chkptRoot (d : List Nat) : Paddr := paddr48Xtoh ((d.drop 128).take 48)

/-- lib/addr/laddr.c:272-274 `s_laddr_none` -/
def laddrNone : Laddr := ⟨⟨List.replicate 16 0, 0, 0, 0, 0, 0⟩, -1, 0⟩

/-- lib/pnodes.c:314-322 `btn_init`, flags as given: no keys, no children -/
def encNode (flags : Nat) : List Nat :=
  hdr PT_BTNODE 4096 ++ (leBytes 4 flags ++ (leBytes 2 0 ++ (leBytes 2 0 ++ (List.replicate 40 0 ++
    ((List.replicate 42 (paddr48Htox paddrNone)).flatten ++ ((List.replicate 41 (laddr48Htox laddrNone)).flatten ++
      List.replicate 48 0))))))

/-- lib/pnodes.c:153-156 `btn_nchilds` -/
def nodeNchilds (d : List Nat) : Nat := leVal ((d.drop 22).take 2)

/-- lib/pnodes.c:272-278 `btn_child_at` -/
def nodeChild (d : List Nat) (slot : Nat) : Paddr := paddr48Xtoh ((d.drop (64 + 48 * slot)).take 48)

/-- lib/pnodes.c:525-531 `btl_init` -/
def encLeaf : List Nat :=
  hdr PT_BTLEAF 8192 ++ (leBytes 4 0 ++ (leBytes 2 0 ++ (List.replicate 106 0 ++
    (List.replicate 84 (laddr48Htox laddrNone ++ paddr48Htox paddrNone)).flatten)))

/-- What `silofs_cpi_new`, `silofs_bti_new` and `silofs_bli_new` (lib/pnodes.c:657-675, 767-785,
939-957) put in a new object of the type of `a`. -/
def fresh (a : Paddr) : List Nat :=
  if a.ptype = PT_CHKPT then encChkpt a paddrNone else if a.ptype = PT_BTNODE then encNode 0 else encLeaf

/-! ### Segments: lib/repo.c:3035-3303 -/

abbrev Segs := Psid → Option File

/-- What may happen in one call: error of making or opening each segment (0: none), answers of the
kernel to the reads and writes of each object, whether memory for an object is to be had, and
which cached objects the attempt to get it evicts. -/
structure Env where
  seg : Psid → Nat := fun _ => 0
  wr : Paddr → List Ans := fun _ => []
  rd : Paddr → List Ans := fun _ => []
  nomem : Paddr → Bool := fun _ => false
  evict : Paddr → List Paddr := fun _ => []

def setSeg (s : Segs) (p : Psid) (f : File) : Segs := fun q => if q = p then some f else s q

/-- lib/repo.c:3117-3126 `silofs_repo_create_pseg` (3035-3087); `ro`: 1850-1857 `repo_check_writable` -/
def segCreate (ro : Bool) (e : Env) (s : Segs) (p : Psid) : Res × Segs :=
  if ro then (.err SEPERM, s)
  else if (s p).isSome then (.err SEEXIST, s)
  else if e.seg p ≠ 0 then (.err (e.seg p), s)
  else (.ok, setSeg s p ⟨0, fun _ => 0⟩)

/-- lib/repo.c:3215-3225 `silofs_repo_stage_pseg` with 3194-3213 `repo_stage_pseg`: a repository
opened for reading only refuses -/
def segStage (ro : Bool) (e : Env) (s : Segs) (p : Psid) : Res :=
  if ro then .err SEPERM
  else if (s p).isNone then .err SENOENT
  else if e.seg p ≠ 0 then .err (e.seg p)
  else .ok

/-- lib/repo.c:3254-3264 `silofs_repo_save_pobj` with 3227-3252 `repo_save_pobj` -/
def segSave (ro : Bool) (e : Env) (s : Segs) (a : Paddr) (d : List Nat) : Res × Segs :=
  if ro then (.err SEPERM, s)
  else
    match s a.psid with
    | none => (.err SENOENT, s)
    | some f =>
      if e.seg a.psid ≠ 0 then (.err (e.seg a.psid), s)
      else if a.off < 0 then (.err EINVAL, s)
      else
        ((pwriten f (d.take a.len) a.off.toNat (e.wr a)).1,
          setSeg s a.psid (pwriten f (d.take a.len) a.off.toNat (e.wr a)).2)

/-- lib/repo.c:3293-3303 `silofs_repo_load_pobj` with 3266-3291 `repo_load_pobj`: `d` is the buffer,
whose first bytes are replaced -/
def segLoad (e : Env) (s : Segs) (a : Paddr) (d : List Nat) : Res × List Nat :=
  match s a.psid with
  | none => (.err SENOENT, d)
  | some f =>
    if e.seg a.psid ≠ 0 then (.err (e.seg a.psid), d)
    else if a.off < 0 then (.err EINVAL, d)
    else
      match preadn f (min a.len d.length) a.off.toNat (e.rd a) with
      | (.ok, l) => (.ok, l ++ d.drop l.length)
      | (r, _) => (r, d)

/-! ### An instance of the store -/

/-- `struct silofs_pnode_info` and what it is part of: address and content -/
structure Ent where
  addr : Paddr
  data : List Nat

/-- `struct silofs_bstore` (include/silofs/bstore.h:34-45) with the segments of its repository and
the way that was opened; `dq` is the queue of dirty objects, oldest first. -/
structure B where
  ro : Bool
  pr : Prange
  root : Paddr
  cache : List Ent
  dq : List Paddr
  segs : Segs

/-- lib/bstore.c:241-246 `silofs_bstore_init` with 167-171 `bstate_init` -/
def B.new (s : Segs) (ro : Bool) (pvid : List Nat) : B := ⟨ro, prangeInit pvid, paddrNone, [], [], s⟩

/-- lib/pcache.c:93-103 `pcache_search` -/
def lookup (b : B) (a : Paddr) : Option Ent := b.cache.find? (fun x => x.addr = a)

/-- lib/pcache.c:459-468 `pcache_find_evictable`, 422-444 `pcache_evict_by`: an object that is not
dirty is dropped -/
def evict (b : B) (a : Paddr) : B :=
  if a ∈ b.dq then b else { b with cache := b.cache.filter (fun x => x.addr ≠ a) }

/-- lib/pcache.c:470-485 `pcache_evict_some` -/
def evictAll (b : B) (l : List Paddr) : B := l.foldl evict b

/-- lib/pcache.c:200-212 `silofs_pcache_create_cpi`, 293-305 `silofs_pcache_create_bti`, 386-398
`silofs_pcache_create_bli` with their `pcache_require_*` and `pcache_new_*` (an assertion on the
offset of a checkpoint); lib/bstore.c:313-326, 464-477, 600-613.  `d` is what the caller puts in
the object next. -/
def create (e : Env) (b : B) (a : Paddr) (d : List Nat) : Res × B :=
  if a.ptype = PT_CHKPT ∧ a.off % 4096 ≠ 0 then (.undef, b)
  else if e.nomem a then (.err SENOMEM, evictAll b (e.evict a))
  else (.ok, { evictAll b (e.evict a) with cache := ⟨a, d⟩ :: (evictAll b (e.evict a)).cache })

/-- lib/pnodes.c:612-617 `silofs_pni_dirtify` -/
def dirtify (b : B) (a : Paddr) : B := if a ∈ b.dq then b else { b with dq := b.dq ++ [a] }

/-- lib/bstore.c:389-419 `bstore_stage_chkpt`, 525-555 `bstore_stage_btnode` (`hit`: a cached object
will do) and 621-647 `bstore_stage_btleaf` (which does not look): a cached object, or else a new
one whose content is loaded; it is not verified. -/
def stage (e : Env) (b : B) (hit : Bool) (a : Paddr) : Res × B × List Nat :=
  match if hit then lookup b a else none with
  | some x => (.ok, b, x.data)
  | none =>
    if hasAddr b.pr a = false then (.err SEINVAL, b, [])
    else
      match segStage b.ro e b.segs a.psid with
      | .ok =>
        match create e b a (segLoad e b.segs a (fresh a)).2 with
        | (.ok, b1) =>
          if (segLoad e b.segs a (fresh a)).1 = .ok then (.ok, b1, (segLoad e b.segs a (fresh a)).2)
          else ((segLoad e b.segs a (fresh a)).1, { b1 with cache := b1.cache.tail }, [])
        | (r, b1) => (r, b1, [])
      | r => (r, b, [])

/-- lib/bstore.c:853-867 `silofs_bstore_flush_dirty` and 810-834 `bstore_commit_pnode`: the queue is emptied from its front until an error -/
def flushLoop (e : Env) (b : B) : List Paddr → Res × B
  | [] => (.ok, { b with dq := [] })
  | a :: as =>
    match segSave b.ro e b.segs a (((lookup b a).map (·.data)).getD []) with
    | (.ok, s) => flushLoop e { b with segs := s } as
    | (r, s) => (r, { b with segs := s, dq := a :: as })

def flush (e : Env) (b : B) : Res × B := flushLoop e b b.dq

/-- lib/bstore.c:651-658 `bstore_spawn_next_chkpt` with 357-373 `bstore_spawn_chkpt`: the segment is
made when the checkpoint is at its start; the checkpoint refers to the root known by now -/
def spawnChkpt (e : Env) (b : B) : Res × B :=
  match if b.pr.pos = 0 then segCreate b.ro e b.segs (carve b.pr PT_CHKPT).1.psid
        else (segStage b.ro e b.segs (carve b.pr PT_CHKPT).1.psid, b.segs) with
  | (.ok, s) =>
    match create e { b with pr := (carve b.pr PT_CHKPT).2, segs := s } (carve b.pr PT_CHKPT).1
        (encChkpt (carve b.pr PT_CHKPT).1 b.root) with
    | (.ok, b1) => (.ok, dirtify b1 (carve b.pr PT_CHKPT).1)
    | r => r
  | (r, s) => (r, { b with pr := (carve b.pr PT_CHKPT).2, segs := s })

/-- lib/bstore.c:493-509 `bstore_spawn_btree_root` with 479-491 `bstore_create_btree_root_at` and
lib/pnodes.c:802-806 `silofs_bti_mark_root` (flags `META` and `BTROOT`) -/
def spawnRoot (e : Env) (b : B) : Res × B :=
  match segStage b.ro e b.segs (carve b.pr PT_BTNODE).1.psid with
  | .ok =>
    match create e { b with pr := (carve b.pr PT_BTNODE).2 } (carve b.pr PT_BTNODE).1 (encNode 3) with
    | (.ok, b1) => (.ok, { dirtify b1 (carve b.pr PT_BTNODE).1 with root := (carve b.pr PT_BTNODE).1 })
    | r => r
  | r => (r, { b with pr := (carve b.pr PT_BTNODE).2 })

/-- lib/bstore.c:660-681 `silofs_bstore_format` -/
def format (e : Env) (b : B) : Res × B :=
  match spawnChkpt e b with
  | (.ok, b1) =>
    match spawnRoot e b1 with
    | (.ok, b2) =>
      match spawnChkpt e b2 with
      | (.ok, b3) => flush e b3
      | r => r
    | r => r
  | r => r

/-- lib/bstore.c:696-712 `bstore_stage_last_chkpt` with 683-694 `bstore_update_btree_root_by` -/
def stageLast (e : Env) (b : B) : Res × B :=
  match stage e b true (lastAddr b.pr PT_CHKPT) with
  | (.ok, b1, d) =>
    if (chkptRoot d).ptype ≠ PT_BTNODE then (.err EFSCORRUPTED, b1) else (.ok, { b1 with root := chkptRoot d })
  | (r, b1, _) => (r, b1)

/-- lib/bstore.c:730-749 `bstore_stage_btnode_childs`: `k` children from `slot` on.  The node's own
content is read anew for each of them: it must still be there, and a slot outside of the array of
42 is read.  A child is a node if it says so, then a leaf. -/
def stageChilds (e : Env) (d : List Nat) (a : Paddr) : Nat → Nat → B → Res × B
  | 0, _, b => (.ok, b)
  | k + 1, slot, b =>
    if lookup b a = none ∨ 42 ≤ slot then (.undef, b)
    else if isNull (nodeChild d slot) then (.err EFSCORRUPTED, b)
    else if (nodeChild d slot).ptype = PT_BTNODE ∨ (nodeChild d slot).ptype = PT_BTLEAF then
      match stage e b ((nodeChild d slot).ptype == PT_BTNODE) (nodeChild d slot) with
      | (.ok, b1, _) => stageChilds e d a k (slot + 1) b1
      | (r, b1, _) => (r, b1)
    else (.err EFSCORRUPTED, b)

/-- lib/bstore.c:760-774 `bstore_reload_btree_root` with 751-758 `bstore_stage_btree_root` -/
def reloadRoot (e : Env) (b : B) : Res × B :=
  match stage e b true b.root with
  | (.ok, b1, d) => stageChilds e d b.root (nodeNchilds d) 0 b1
  | (r, b1, _) => (r, b1)

/-- lib/bstore.c:776-794 `silofs_bstore_reload` with 179-190 `bstate_assign_prange` -/
def reload (e : Env) (b : B) (p : Prange) : Res × B :=
  if rangeValid p = false then (.err SEINVAL, b)
  else
    match stageLast e { b with pr := p } with
    | (.ok, b1) => reloadRoot e b1
    | r => r

/-- lib/bstore.c:796-806 `silofs_bstore_close` with lib/pcache.c:497-505 `silofs_pcache_drop`: after
a flush without error nothing is dirty, everything is dropped -/
def close (e : Env) (b : B) : Res × B :=
  match flush e b with
  | (.ok, b1) => (.ok, { b1 with cache := [] })
  | r => r

/-- lib/bstore.c:869-874 `silofs_bstore_dropall` -/
def dropall (b : B) : B := { b with dq := [], cache := [] }

/-! ### What is done with it -/

inductive Op where
  /-- a new process makes a file-system (lib/execlib.c:1551-1595 `do_format_fs`); `pvid` is random -/
  | mkfs (pvid : List Nat)
  /-- a new process mounts (lib/execlib.c:1621-1656 `do_open_fs`), read-only or not, what a boot record
  with this range describes -/
  | mount (ro : Bool) (p : Prange)
  /-- the same process opens anew -/
  | reopen (p : Prange)
  /-- objects are evicted from the cache: lib/pcache.c:541-548 `silofs_pcache_relax` -/
  | relax (l : List Paddr)
  | flush
  | close
  | drop

/-- One step: result and next state. -/
def step (e : Env) (b : B) : Op → Res × B
  | .mkfs pvid => format e (B.new b.segs false pvid)
  | .mount ro p => reload e (B.new b.segs ro []) p
  | .reopen p => reload e b p
  | .relax l => (.ok, evictAll b l)
  | .flush => flush e b
  | .close => close e b
  | .drop => (.ok, dropall b)

def run (b : B) : List (Env × Op) → B
  | [] => b
  | x :: xs => run (step x.1 b x.2).2 xs

/-! ### The tree's nodes, lib/pnodes.c:126-358, 832-873 -/

/-- `struct silofs_btree_node`: 42 children, 41 keys -/
structure Node where
  nkeys : Nat
  child : Nat → Paddr
  key : Nat → Laddr

/-- lib/pnodes.c:314-322 `btn_init` -/
def Node.init : Node := ⟨0, fun _ => paddrNone, fun _ => laddrNone⟩

/-- lib/pnodes.c:239-250 `btn_resolve_slot_by` with 222-237: first slot from `i` on whose key is not
less than `k` -/
def slotBy (n : Node) (k : Laddr) : Nat → Nat → Nat
  | 0, i => i
  | m + 1, i => if Compare.laddrCompare k (n.key i) ≤ 0 then i else slotBy n k m (i + 1)

def Node.slot (n : Node) (k : Laddr) : Nat := slotBy n k n.nkeys 0

/-- lib/pnodes.c:832-848 `silofs_bti_resolve` -/
def Node.resolve (n : Node) (k : Laddr) : Option Paddr :=
  if n.nkeys = 0 then none else if isNull (n.child (n.slot k)) then none else some (n.child (n.slot k))

/-- lib/pnodes.c:300-312 `btn_insert_child`: the children above `slot` move up by one; the one at
`slot` is overwritten -/
def insertChild (n : Node) (slot : Nat) (a : Paddr) : Nat → Paddr := fun i =>
  if i = slot then a else if slot + 1 < i ∧ i ≤ n.nkeys + 1 then n.child (i - 1) else n.child i

/-- lib/pnodes.c:252-265 `btn_insert_key` -/
def insertKey (n : Node) (slot : Nat) (k : Laddr) : Nat → Laddr := fun i =>
  if i = slot then k else if slot < i ∧ i ≤ n.nkeys then n.key (i - 1) else n.key i

/-- lib/pnodes.c:850-865 `silofs_bti_expand`; false: `ENOSPC` -/
def Node.expand (n : Node) (k : Laddr) (a : Paddr) : Bool × Node :=
  if n.nkeys = 41 then (false, n)
  else (true, ⟨n.nkeys + 1, insertChild n (n.slot k) a, insertKey n (n.slot k) k⟩)

/-- lib/pnodes.c:867-873 `silofs_bti_setapex` -/
def Node.setapex (n : Node) (a : Paddr) : Node := { n with child := fun i => if i = n.nkeys then a else n.child i }

/-! ### The tree's leaves, lib/pnodes.c:377-540, 984-1016 -/

/-- `struct silofs_btree_leaf`: 84 pairs -/
structure Leaf where
  n : Nat
  ltop : Nat → Laddr × Paddr

/-- lib/pnodes.c:525-531 `btl_init` -/
def Leaf.init : Leaf := ⟨0, fun _ => (laddrNone, paddrNone)⟩

/-- lib/pnodes.c:475-491 `btl_find_slot_of`; `n` when there is none -/
def findSlot (l : Leaf) (k : Laddr) : Nat → Nat → Nat
  | 0, _ => l.n
  | m + 1, i =>
    if Compare.laddrCompare k (l.ltop i).1 = 0 then i
    else if 0 < Compare.laddrCompare k (l.ltop i).1 then l.n
    else findSlot l k m (i + 1)

/-- lib/pnodes.c:493-506 `btl_insert_slot_of` -/
def insertSlot (l : Leaf) (k : Laddr) : Nat → Nat → Nat
  | 0, i => i
  | m + 1, i => if 0 ≤ Compare.laddrCompare k (l.ltop i).1 then i else insertSlot l k m (i + 1)

/-- lib/pnodes.c:508-523 `btl_insert_ltop` -/
def insertLtop (l : Leaf) (slot : Nat) (x : Laddr × Paddr) : Leaf :=
  ⟨l.n + 1, fun i => if i = slot then x else if slot < i ∧ i ≤ l.n then l.ltop (i - 1) else l.ltop i⟩

/-- lib/pnodes.c:984-1001 `silofs_bli_resolve` -/
def Leaf.resolve (l : Leaf) (k : Laddr) : Option Paddr :=
  if l.n = 0 then none
  else if l.n ≤ findSlot l k l.n 0 then none
  else some (l.ltop (findSlot l k l.n 0)).2

/-- lib/pnodes.c:1003-1017 `silofs_bli_extend`; false: `ENOSPC` -/
def Leaf.extend (l : Leaf) (k : Laddr) (a : Paddr) : Bool × Leaf :=
  if l.n = 84 then (false, l) else (true, insertLtop l (insertSlot l k l.n 0) (k, a))

end Silofs.Bs
