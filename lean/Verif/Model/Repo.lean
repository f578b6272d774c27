import Verif.Model.Caddr
import Verif.Model.Sysio
/-
The repository on the host's file-system (lib/repo.c): segments of volumes kept open in a cache of
files (a hash table and an LRU queue), named objects (boot records, references, archives) written
and read as a whole.

The host's file-system is modelled by names, inodes and, per inode, what is in the page cache and
what is on stable storage.  Each operation runs under choices of the kernel (`K`): errors of its
system calls and, for transfers of data, the answers of Model/Sysio.  The lock of the repository
(1339-1349) makes operations atomic.  Permissions of files and the skeleton of directories
(1960-2340) are not modelled, nor are failures of memory allocation and of close(2).
-/
namespace Silofs.Repo
open Silofs Silofs.Addr Silofs.Sysio

/-! ### The host's file-system -/

/-- Components of a path below the repository's root. -/
abbrev Path := List (List Nat)

/-- A regular file: its content as seen by read(2), its content on stable storage, whether writes
wait to be stored, and whether it has blocks (st_blocks). -/
structure Node where
  cur : File
  stable : File
  dirty : Bool
  blocks : Bool

structure Disk where
  dir : Path → Option Nat
  node : Nat → Node
  next : Nat

def noBytes : File := ⟨0, fun _ => 0⟩

/-- ftruncate(2) -/
def truncFile (f : File) (len : Nat) : File := ⟨len, fun i => if i < len ∧ i < f.size then f.byte i else 0⟩

/-- fallocate(2) with FALLOC_FL_PUNCH_HOLE | FALLOC_FL_KEEP_SIZE from 0 on -/
def punchFile (f : File) (len : Nat) : File := ⟨f.size, fun i => if i < len then 0 else f.byte i⟩

def Disk.set (d : Disk) (n : Nat) (nd : Node) : Disk :=
  { d with node := fun m => if m = n then nd else d.node m }

/-- Change the content of inode `n`. -/
def Disk.modify (d : Disk) (n : Nat) (f : File) (blocks : Bool) : Disk :=
  d.set n { d.node n with cur := f, dirty := true, blocks := blocks }

/-- open(2) with O_CREAT | O_TRUNC -/
def Disk.creat (d : Disk) (p : Path) : Disk × Nat :=
  match d.dir p with
  | some n => (d.modify n (truncFile (d.node n).cur 0) false, n)
  | none =>
    ({ dir := fun q => if q = p then some d.next else d.dir q
       node := fun m => if m = d.next then ⟨noBytes, noBytes, false, false⟩ else d.node m
       next := d.next + 1 }, d.next)

/-- open(2) with O_CREAT -/
def Disk.openCreat (d : Disk) (p : Path) : Disk × Nat :=
  match d.dir p with
  | some n => (d, n)
  | none =>
    ({ dir := fun q => if q = p then some d.next else d.dir q
       node := fun m => if m = d.next then ⟨noBytes, noBytes, false, false⟩ else d.node m
       next := d.next + 1 }, d.next)

/-- unlink(2) -/
def Disk.unlink (d : Disk) (p : Path) : Disk :=
  { d with dir := fun q => if q = p then none else d.dir q }

/-- fsync(2) with result `e`: when it fails the waiting writes are dropped (the kernel marks the
pages clean and reports the error once). -/
def Disk.fsync (d : Disk) (n e : Nat) : Disk :=
  if e ≠ 0 then d.set n { d.node n with dirty := false }
  else if (d.node n).dirty then d.set n { d.node n with stable := (d.node n).cur, dirty := false }
  else d

/-- Choices of the kernel for one operation: error numbers (0: none) and answers to transfers. -/
structure K where
  stat : Nat := 0
  openf : Nat := 0
  trunc : Nat := 0
  trunc2 : Nat := 0
  unlink : Nat := 0
  punch : Nat := 0
  /-- fsync(2) of each inode -/
  sync : Nat → Nat := fun _ => 0
  data : List Ans := []

/-! ### Names -/

inductive Name where
  | lseg (l : Lsid)
  | pseg (p : Psid)
  | cobj (hash : List Nat)
  | ref (c : Caddr)
  | pack (c : Caddr)
  deriving DecidableEq

/-- The functions lib/repo.c calls on addresses: SHA-256 of an encoded address, the 64-bit hashes
and the 32-bit digest of a content address (`silofs_caddr_to_u32`). -/
structure Cfg where
  sha : List Nat → List Nat
  lhash : Lsid → Nat
  phash : Psid → Nat
  cu32 : Caddr → Nat

/-- "%02x" -/
def hex2 (i : Nat) : List Nat := if i < 16 then nibToAscii 0 :: Caddr.digits 16 i else Caddr.digits 16 i

/-- lib/repo.c:499-504 `lsid_to_index` (32-bit truncation, include/silofs/defs.h:93) -/
def lsidIndex (c : Cfg) (l : Lsid) : Nat := ((c.lhash l ^^^ (c.lhash l / 4294967296)) % 4294967296) % 256

/-- include/silofs/defs.h:81-90: "objs", "blobs", "refs", "pack" -/
def OBJS : List Nat := [111, 98, 106, 115]
def BLOBS : List Nat := [98, 108, 111, 98, 115]
def REFS : List Nat := [114, 101, 102, 115]
def PACK : List Nat := [112, 97, 99, 107]

/-- lib/repo.c:1639-1650 `repo_objs_sub_pathname_of` with 513-523 `make_pathname`; 2973-2982
`repo_pseg_pathname` (lib/addr/paddr.c:195-202); 2788-2798 `repo_cobj_pathname_of`; 2898-2907
`repo_ref_pathname_of`; 3394-3416 `repo_pack_pathname_of`. -/
def pathOf (c : Cfg) : Name → Path
  | .lseg l => [OBJS, hex2 (lsidIndex c l), memToAscii (c.sha (lsid32Htox l)) 255]
  | .pseg p => [BLOBS, uuidText p.pvid ++ (58 :: Caddr.digits 10 p.index)]
  | .cobj h => [BLOBS, memToAscii h 255]
  | .ref a => [REFS, Caddr.toName a]
  | .pack a => [PACK, hex2 (c.cu32 a % 256), Caddr.toName a]

/-! ### The cache of open files -/

/-- `struct silofs_psegf`, `struct silofs_lsegf`: key, size (of segments of volumes), the inode
the file descriptor refers to, and how it was opened. -/
structure Ent where
  key : Name
  size : Nat
  fd : Option Nat
  rdonly : Bool

/-- `struct silofs_repo`: elements by their address in memory, the lists of the hash table, the
LRU queue (front first). -/
structure Repo where
  disk : Disk
  heap : Nat → Ent
  nent : Nat
  htbl : Nat → List Nat
  lruq : List Nat
  /-- SILOFS_REPOF_RDONLY -/
  ro : Bool
  /-- re_root_dfd > 0 -/
  opened : Bool

/-- lib/repo.c:1129-1143 `repo_htbl_slot_of_psid`, `repo_htbl_slot_of_lsid`, with 4096 lists
(1105-1117) -/
def slotOf (c : Cfg) : Name → Nat
  | .lseg l => c.lhash l % 4096
  | .pseg p => c.phash p % 4096
  | _ => 0

/-- lib/repo.c:1173-1215 `repo_htbl_lookup_psegf`, `repo_htbl_lookup_lsegf` with 588-600
`rce_has_psid`, `rce_has_lsid` -/
def lookup (c : Cfg) (r : Repo) (key : Name) : Option Nat :=
  (r.htbl (slotOf c key)).find? (fun id => (r.heap id).key = key)

/-- lib/repo.c:1354-1368 `repo_create_lsegf`, 1511-1524 `repo_create_psegf`: a new element, not
yet bound to a file, at the front of its list and of the queue. -/
def newEnt (c : Cfg) (r : Repo) (key : Name) : Repo :=
  { r with heap := fun i => if i = r.nent then ⟨key, 0, none, false⟩ else r.heap i
           nent := r.nent + 1
           htbl := fun s => if s = slotOf c key then r.nent :: r.htbl s else r.htbl s
           lruq := r.nent :: r.lruq }

def setEnt (r : Repo) (id : Nat) (e : Ent) : Repo := { r with heap := fun i => if i = id then e else r.heap i }

/-- Closing the file of an element: lib/repo.c:1066-1076 `lsegf_close2` for segments of volumes
(an error of fsync is dropped by 1098-1103 `lsegf_del`), 674-679 `psegf_del` for the others. -/
def closeEnt (k : K) (d : Disk) (e : Ent) : Disk :=
  match e.key, e.fd with
  | .lseg _, some n => if e.rdonly then d else d.fsync n (k.sync n)
  | _, _ => d

/-- lib/repo.c:1370-1376 `repo_evict_lsegf`, 1526-1532 `repo_evict_psegf` -/
def evict (c : Cfg) (k : K) (r : Repo) (id : Nat) : Repo :=
  { r with disk := closeEnt k r.disk (r.heap id)
           htbl := fun s => if s = slotOf c (r.heap id).key then (r.htbl s).erase id else r.htbl s
           lruq := r.lruq.erase id }

/-- lib/repo.c:1468-1480 `repo_evict_some`: from the back of the queue. -/
def evictLast (c : Cfg) (k : K) : Nat → Repo → Repo
  | 0, r => r
  | n + 1, r =>
    match r.lruq.getLast? with
    | none => r
    | some id => evictLast c k n (evict c k r id)

def evictSome (c : Cfg) (k : K) (r : Repo) (n : Nat) : Repo := evictLast c k (min n r.lruq.length) r

/-- lib/repo.c:1493-1501 `repo_try_evict_overpop` -/
def overpop (c : Cfg) (k : K) (r : Repo) : Repo :=
  if r.lruq.length > 256 then evictSome c k r (min (r.lruq.length - 256) 2) else r

/-- lib/repo.c:1307-1314 `repo_lruq_requeue` -/
def requeue (r : Repo) (id : Nat) : Repo :=
  if r.lruq.head? = some id then r else { r with lruq := id :: r.lruq.erase id }

/-- lib/repo.c:1503-1508 `silofs_repo_relax` -/
def relax (c : Cfg) (k : K) (r : Repo) : Repo := evictSome c k r 1

/-- lib/repo.c:1393-1416 `repo_do_fsync_all`: every open file, from the back of the queue; the
result is 1, not an error number, when any fails. -/
def fsyncEnt (k : K) (d : Disk) (e : Ent) : Nat × Disk :=
  match e.key, e.fd with
  | .lseg _, some n => if e.rdonly then (0, d) else (k.sync n, d.fsync n (k.sync n))
  | .pseg _, some n => (k.sync n, d.fsync n (k.sync n))
  | _, _ => (0, d)

def fsyncList (k : K) (heap : Nat → Ent) : List Nat → Nat → Disk → Nat × Disk
  | [], ret, d => (ret, d)
  | id :: ids, ret, d =>
    fsyncList k heap ids (if (fsyncEnt k d (heap id)).1 ≠ 0 ∨ ret ≠ 0 then 1 else 0) (fsyncEnt k d (heap id)).2

def fsyncAll (k : K) (r : Repo) : Nat × Repo :=
  ((fsyncList k r.heap r.lruq.reverse 0 r.disk).1, { r with disk := (fsyncList k r.heap r.lruq.reverse 0 r.disk).2 })

/-- lib/repo.c:1950-1956 `silofs_repo_drop_some` -/
def dropSome (c : Cfg) (k : K) (r : Repo) : Repo :=
  evictSome c k (fsyncAll k r).2 (fsyncAll k r).2.lruq.length

/-! ### Error numbers (include/silofs/errors.h) -/

def EBADF : Nat := 9
def ENOENT : Nat := 2
def SENOENT : Nat := 1002
def SEEXIST : Nat := 1017
def SEINVAL : Nat := 1022
def SERANGE : Nat := 1034
def SEIO : Nat := 1005
def SEPERM : Nat := 1001
def SEBADF : Nat := 1009
def SEBADREF : Nat := 10004
def ERDONLY : Nat := 10012
def ELSEG : Nat := 10013

def LBK : Nat := 65536

/-- lib/addr/offlba.c `silofs_off_align_to_lbk` of `off + LBK - 1`, lib/repo.c:793 -/
def alignUp (n : Nat) : Nat := (n + LBK - 1) / LBK * LBK

/-- `silofs_off_next_lbk` -/
def nextLbk (off : Nat) : Nat := off / LBK * LBK + LBK

/-- lib/repo.c:1859-1875 `repo_check_open` (1845-1860) -/
def checkOpen (r : Repo) (rw : Bool) : Res :=
  if ¬ r.opened then .err SEBADF
  else if rw ∧ r.ro then .err SEPERM
  else .ok

/-- lib/repo.c:736-749 `lsegf_check_range` -/
def checkRange (l : Lsid) (off len : Nat) : Res := if off + len > l.lsize + LBK then .err ELSEG else .ok

/-! ### Segments of volumes -/

/-- lib/repo.c:1712-1743 `repo_objs_open_lseg_of` with 757-778 `lsegf_inspect_size`: binds the
element `id`. -/
def openLsegOf (c : Cfg) (k : K) (r : Repo) (id : Nat) (rw : Bool) (l : Lsid) : Res × Repo :=
  match r.disk.dir (pathOf c (.lseg l)) with
  | none => (.err SENOENT, r)
  | some n =>
    if k.openf ≠ 0 then (.err (if k.openf = ENOENT then SENOENT else k.openf), r)
    else if k.stat ≠ 0 then (.err k.stat, setEnt r id ⟨.lseg l, 0, some n, !rw⟩)
    else if (r.disk.node n).cur.size % LBK ≠ 0 then (.err ELSEG, setEnt r id ⟨.lseg l, 0, some n, !rw⟩)
    else if (r.disk.node n).cur.size > l.lsize + LBK then (.err ELSEG, setEnt r id ⟨.lseg l, 0, some n, !rw⟩)
    else (.ok, setEnt r id ⟨.lseg l, (r.disk.node n).cur.size, some n, !rw⟩)

/-- lib/repo.c:1769-1789 `repo_objs_open_lseg`; the element is `nent` of the repository after
making room. -/
def openLseg (c : Cfg) (k : K) (r : Repo) (rw : Bool) (l : Lsid) : Res × Repo × Nat :=
  match openLsegOf c k (newEnt c (overpop c k r) (.lseg l)) (overpop c k r).nent rw l with
  | (.ok, r2) => (.ok, r2, (overpop c k r).nent)
  | (e, r2) => (e, evict c k r2 (overpop c k r).nent, (overpop c k r).nent)

/-- lib/repo.c:2498-2513 `repo_stage_lseg_of` -/
def stageOf (c : Cfg) (k : K) (r : Repo) (rw : Bool) (l : Lsid) : Res × Repo × Nat :=
  match lookup c r (.lseg l) with
  | some id => (.ok, requeue r id, id)
  | none => openLseg c k r rw l

/-- lib/repo.c:2532-2541 `silofs_repo_stage_lseg` -/
def stage (c : Cfg) (k : K) (r : Repo) (rw : Bool) (l : Lsid) : Res × Repo :=
  match checkOpen r false with
  | .ok => ((stageOf c k r rw l).1, (stageOf c k r rw l).2.1)
  | e => (e, r)

/-- lib/repo.c:1662-1684 `repo_objs_require_notexists` and 1701-1727 `repo_objs_create_lseg_of` with
785-803 `lsegf_reassign_size`: the file gets its whole size at once. -/
def createLsegOf (c : Cfg) (k : K) (r : Repo) (id : Nat) (l : Lsid) : Res × Repo :=
  match r.disk.dir (pathOf c (.lseg l)) with
  | some _ => (.err SEEXIST, r)
  | none =>
    if k.stat ≠ 0 ∧ k.stat ≠ ENOENT then (.err k.stat, r)
    else if k.openf ≠ 0 then (.err k.openf, r)
    else if k.trunc ≠ 0 then
      (.err k.trunc,
        setEnt { r with disk := (r.disk.creat (pathOf c (.lseg l))).1.unlink (pathOf c (.lseg l)) } id
          ⟨.lseg l, 0, some (r.disk.creat (pathOf c (.lseg l))).2, false⟩)
    else
      (.ok,
        setEnt { r with disk := (r.disk.creat (pathOf c (.lseg l))).1.modify (r.disk.creat (pathOf c (.lseg l))).2
                                  (truncFile noBytes (alignUp l.lsize)) false } id
          ⟨.lseg l, alignUp l.lsize, some (r.disk.creat (pathOf c (.lseg l))).2, false⟩)

/-- lib/repo.c:2466-2485 `repo_do_spawn_lseg` with 1844-1866 `repo_objs_create_lseg` -/
def spawn (c : Cfg) (k : K) (r : Repo) (l : Lsid) : Res × Repo :=
  match checkOpen r true with
  | .ok =>
    match lookup c r (.lseg l) with
    | some id => (.ok, requeue r id)
    | none =>
      match createLsegOf c k (newEnt c (overpop c k r) (.lseg l)) (overpop c k r).nent l with
      | (.ok, r2) => (.ok, r2)
      | (e, r2) => (e, evict c k r2 (overpop c k r).nent)
  | e => (e, r)

/-- lib/repo.c:2432-2452 `repo_do_stat_lseg` with 1812-1841 `repo_objs_stat_lseg`: result and size -/
def statLseg (c : Cfg) (k : K) (r : Repo) (l : Lsid) (cache : Bool) : Res × Nat :=
  match checkOpen r false with
  | .ok =>
    match lookup c r (.lseg l), cache with
    | some id, true =>
      match (r.heap id).fd with
      | some n => if k.stat ≠ 0 then (.err k.stat, 0) else (.ok, (r.disk.node n).cur.size)
      | none => (.err EBADF, 0)
    | _, _ =>
      match r.disk.dir (pathOf c (.lseg l)) with
      | none => (.err SENOENT, 0)
      | some n =>
        if k.stat ≠ 0 then (.err (if k.stat = ENOENT then SENOENT else k.stat), 0)
        else if (r.disk.node n).cur.size > l.lsize + LBK then (.err SEIO, 0)
        else (.ok, (r.disk.node n).cur.size)
  | e => (e, 0)

/-- lib/repo.c:2543-2562 `repo_do_remove_lseg` with 1766-1788 `repo_objs_unlink_lseg` -/
def remove (c : Cfg) (k : K) (r : Repo) (l : Lsid) : Res × Repo :=
  match checkOpen r true with
  | .ok =>
    match r.disk.dir (pathOf c (.lseg l)) with
    | none => (.err ENOENT, r)
    | some _ =>
      if k.stat ≠ 0 then (.err k.stat, r)
      else if k.unlink ≠ 0 then (.err k.unlink, r)
      else
        match lookup c r (.lseg l) with
        | some id => (.ok, evict c k { r with disk := r.disk.unlink (pathOf c (.lseg l)) } id)
        | none => (.ok, { r with disk := r.disk.unlink (pathOf c (.lseg l)) })
  | e => (e, r)

/-- lib/repo.c:1023-1044 `lsegf_do_punch_all` with 1004-1017 `lsegf_punch_with_ftruncate` -/
def punchEnt (k : K) (d : Disk) (n size : Nat) (rdonly : Bool) : Res × Disk :=
  if k.stat ≠ 0 then (.err k.stat, d)
  else if ¬ (d.node n).blocks then (.ok, d)
  else if rdonly then (.err EBADF, d)
  else if k.punch = 0 then (.ok, d.modify n (punchFile (d.node n).cur size) false)
  else if k.punch ≠ 95 then (.err k.punch, d)
  else if k.trunc ≠ 0 then (.err k.trunc, d)
  else if k.trunc2 ≠ 0 then (.err k.trunc2, d.modify n (truncFile (d.node n).cur 0) false)
  else (.ok, d.modify n (truncFile (truncFile (d.node n).cur 0) size) false)

/-- lib/repo.c:2575-2594 `repo_do_punch_lseg` -/
def punch (c : Cfg) (k : K) (r : Repo) (l : Lsid) : Res × Repo :=
  match checkOpen r true with
  | .ok =>
    match stageOf c k r true l with
    | (.ok, r1, id) =>
      match (r1.heap id).fd with
      | some n =>
        ((punchEnt k r1.disk n (r1.heap id).size (r1.heap id).rdonly).1,
          { r1 with disk := (punchEnt k r1.disk n (r1.heap id).size (r1.heap id).rdonly).2 })
      | none => (.err EBADF, r1)
    | (e, r1, _) => (e, r1)
  | e => (e, r)

/-- lib/repo.c:807-818 `lsegf_require_size_ge` with 785-803 `lsegf_reassign_size` -/
def requireSize (k : K) (r : Repo) (id : Nat) (l : Lsid) (off len : Nat) : Res × Repo :=
  if (r.heap id).size ≥ max (off + len) (nextLbk off) then (.ok, r)
  else
    match checkRange l (max (off + len) (nextLbk off)) 0 with
    | .ok =>
      if (r.heap id).rdonly then (.err ERDONLY, r)
      else
        match (r.heap id).fd with
        | some n =>
          if k.trunc ≠ 0 then (.err k.trunc, r)
          else
            (.ok, setEnt { r with disk := r.disk.modify n (truncFile (r.disk.node n).cur (alignUp (max (off + len) (nextLbk off)))) (r.disk.node n).blocks } id
              { r.heap id with size := alignUp (max (off + len) (nextLbk off)) })
        | none => (.err EBADF, r)
    | e => (e, r)

/-- lib/repo.c:2651-2670 `repo_do_require_laddr` -/
def requireLaddr (c : Cfg) (k : K) (r : Repo) (l : Lsid) (pos len : Nat) : Res × Repo :=
  match checkOpen r false with
  | .ok =>
    match stageOf c k r true l with
    | (.ok, r1, id) => requireSize k r1 id l pos len
    | (e, r1, _) => (e, r1)
  | e => (e, r)

/-- lib/repo.c:2609-2638 `repo_do_require_lseg`, `repo_do_spawn_stage_lseg` -/
def requireLseg (c : Cfg) (k : K) (r : Repo) (l : Lsid) : Res × Repo :=
  match (statLseg c k r l true).1 with
  | .ok => stage c k r true l
  | .err e =>
    if e = SENOENT then
      match spawn c k r l with
      | (.ok, r1) => stage c k r1 true l
      | (x, r1) => (x, r1)
    else (.err e, r)
  | .undef => (.undef, r)

/-- lib/repo.c:930-947 `lsegf_writev` (879-929): the file of a bound element -/
def writeEnt (k : K) (r : Repo) (id : Nat) (l : Lsid) (pos : Nat) (bufs : List (List Nat)) : Res × Repo :=
  match requireSize k r id l pos bufs.flatten.length with
  | (.ok, r1) =>
    match checkRange l pos bufs.flatten.length with
    | .ok =>
      match (r1.heap id).fd with
      | none => (.err EBADF, r1)
      | some n =>
        -- pwrite(2) on a descriptor opened O_RDONLY
        if (r1.heap id).rdonly then (if bufs.flatten = [] then .ok else .err EBADF, r1)
        else
          match bufs with
          | [buf] =>
            ((pwriten (r1.disk.node n).cur buf pos k.data).1,
              { r1 with disk := r1.disk.modify n (pwriten (r1.disk.node n).cur buf pos k.data).2 true })
          | _ =>
            ((pwritevn (r1.disk.node n).cur bufs pos k.data).1,
              { r1 with disk := r1.disk.modify n (pwritevn (r1.disk.node n).cur bufs pos k.data).2 true })
    | e => (e, r1)
  | (e, r1) => (e, r1)

/-- lib/repo.c:2705-2715 `silofs_repo_writev_at`; 2720-2729 `silofs_repo_write_at` is the case of one
buffer -/
def write (c : Cfg) (k : K) (r : Repo) (l : Lsid) (pos : Nat) (bufs : List (List Nat)) : Res × Repo :=
  match checkOpen r true with
  | .ok =>
    match stageOf c k r true l with
    | (.ok, r1, id) => writeEnt k r1 id l pos bufs
    | (e, r1, _) => (e, r1)
  | e => (e, r)

/-- lib/repo.c:826-833 `lsegf_check_size_ge` and 949-995 `lsegf_load_bb` -/
def readEnt (k : K) (r : Repo) (id : Nat) (l : Lsid) (pos len : Nat) : Res × List Nat :=
  if (r.heap id).size < pos + len then (.err SERANGE, [])
  else
    match checkRange l pos len with
    | .ok =>
      match (r.heap id).fd with
      | none => (.err EBADF, [])
      | some n =>
        -- `silofs_bytebuf_has_free(bb, !len)`: refuses nothing but the empty request
        if len = 0 then (.err SEINVAL, [])
        else if k.stat ≠ 0 then (.err k.stat, [])
        else if pos + len > (r.disk.node n).cur.size then (.ok, List.replicate len 0)
        else preadn (r.disk.node n).cur len pos k.data
    | e => (e, [])

/-- lib/repo.c:2754-2763 `silofs_repo_read_at` -/
def read (c : Cfg) (k : K) (r : Repo) (l : Lsid) (pos len : Nat) : Res × List Nat × Repo :=
  match checkOpen r false with
  | .ok =>
    match stageOf c k r false l with
    | (.ok, r1, id) => ((readEnt k r1 id l pos len).1, (readEnt k r1 id l pos len).2, r1)
    | (e, r1, _) => (e, [], r1)
  | e => (e, [], r)

/-! ### Objects saved as a whole -/

/-- lib/repo.c:444-477 `do_save_obj` (the changes of permissions are left out): no truncation of
what was there. -/
def saveObj (c : Cfg) (k : K) (r : Repo) (nm : Name) (l : List Nat) : Res × Repo :=
  if k.openf ≠ 0 then (.err k.openf, r)
  else if l = [] then (.ok, { r with disk := (r.disk.openCreat (pathOf c nm)).1 })
  else
    match pwriten ((r.disk.openCreat (pathOf c nm)).1.node (r.disk.openCreat (pathOf c nm)).2).cur l 0 k.data with
    | (.ok, f) =>
      (if k.sync (r.disk.openCreat (pathOf c nm)).2 ≠ 0 then .err (k.sync (r.disk.openCreat (pathOf c nm)).2) else .ok,
        { r with disk := ((r.disk.openCreat (pathOf c nm)).1.modify (r.disk.openCreat (pathOf c nm)).2 f true).fsync
                          (r.disk.openCreat (pathOf c nm)).2 (k.sync (r.disk.openCreat (pathOf c nm)).2) })
    | (e, f) => (e, { r with disk := (r.disk.openCreat (pathOf c nm)).1.modify (r.disk.openCreat (pathOf c nm)).2 f true })

/-- lib/repo.c:479-495 `do_load_obj` -/
def loadObj (c : Cfg) (k : K) (r : Repo) (nm : Name) (len : Nat) : Res × List Nat :=
  match r.disk.dir (pathOf c nm) with
  | none => (.err ENOENT, [])
  | some n => if k.openf ≠ 0 then (.err k.openf, []) else preadn (r.disk.node n).cur len 0 k.data

/-- lib/repo.c:2883-2894 `silofs_repo_unlink_cobj`, 2930-2949 `silofs_repo_remove_ref` -/
def unlinkObj (c : Cfg) (k : K) (r : Repo) (nm : Name) : Res × Repo :=
  match r.disk.dir (pathOf c nm) with
  | none => (.err ENOENT, r)
  | some _ => if k.unlink ≠ 0 then (.err k.unlink, r) else (.ok, { r with disk := r.disk.unlink (pathOf c nm) })

/-- lib/repo.c:2820-2831 `silofs_repo_stat_cobj`, 3418-3447 `silofs_repo_stat_pack`: size -/
def statObj (c : Cfg) (k : K) (r : Repo) (nm : Name) : Res × Nat :=
  match r.disk.dir (pathOf c nm) with
  | none => (.err ENOENT, 0)
  | some n => if k.stat ≠ 0 then (.err k.stat, 0) else (.ok, (r.disk.node n).cur.size)

/-- lib/repo.c:2958-2969 `silofs_repo_lookup_ref` -/
def lookupRef (c : Cfg) (k : K) (r : Repo) (a : Caddr) : Res :=
  match (statObj c k r (.ref a)).1 with
  | .ok => if (statObj c k r (.ref a)).2 ≠ 0 then .err SEBADREF else .ok
  | e => e

/-! ### Segments of the physical store -/

/-- lib/repo.c:3162-3185 `repo_do_stage_pseg` -/
def pstageOf (c : Cfg) (k : K) (r : Repo) (p : Psid) : Res × Repo × Nat :=
  match lookup c r (.pseg p) with
  | some id => (.ok, requeue r id, id)
  | none =>
    match (overpop c k r).disk.dir (pathOf c (.pseg p)) with
    | none => (.err ENOENT, evict c k (newEnt c (overpop c k r) (.pseg p)) (overpop c k r).nent, (overpop c k r).nent)
    | some n =>
      if k.openf ≠ 0 then (.err k.openf, evict c k (newEnt c (overpop c k r) (.pseg p)) (overpop c k r).nent, (overpop c k r).nent)
      else (.ok, setEnt (newEnt c (overpop c k r) (.pseg p)) (overpop c k r).nent ⟨.pseg p, 0, some n, false⟩, (overpop c k r).nent)

/-- lib/repo.c:3128-3144 `repo_check_has_pseg` with 3005-3021 `repo_stat_pseg` -/
def hasPseg (c : Cfg) (k : K) (r : Repo) (p : Psid) : Res :=
  match lookup c r (.pseg p) with
  | some _ => .ok
  | none =>
    match r.disk.dir (pathOf c (.pseg p)) with
    | none => .err SENOENT
    | some _ => if k.stat ≠ 0 then .err (if k.stat = ENOENT then SENOENT else k.stat) else .ok

/-- lib/repo.c:3117-3126 `silofs_repo_create_pseg` (3035-3087) -/
def pcreate (c : Cfg) (k : K) (r : Repo) (p : Psid) : Res × Repo :=
  match checkOpen r true with
  | .ok =>
    match hasPseg c k r p with
    | .ok => (.err SEEXIST, r)
    | .err e =>
      if e ≠ SENOENT then (.err e, r)
      else if k.openf ≠ 0 then (.err k.openf, evict c k (newEnt c (overpop c k r) (.pseg p)) (overpop c k r).nent)
      else
        (.ok, setEnt (newEnt c { overpop c k r with disk := ((overpop c k r).disk.creat (pathOf c (.pseg p))).1 } (.pseg p)) (overpop c k r).nent
          ⟨.pseg p, 0, some ((overpop c k r).disk.creat (pathOf c (.pseg p))).2, false⟩)
    | .undef => (.undef, r)
  | e => (e, r)

/-- lib/repo.c:3152-3160 `repo_open_pseg_of`, 3219-3254 `silofs_repo_stage_pseg` -/
def pstage (c : Cfg) (k : K) (r : Repo) (p : Psid) : Res × Repo :=
  match checkOpen r true with
  | .ok =>
    match hasPseg c k r p with
    | .ok => ((pstageOf c k r p).1, (pstageOf c k r p).2.1)
    | e => (e, r)
  | e => (e, r)

/-- lib/repo.c:3254-3264 `silofs_repo_save_pobj`: `l` is what `min` leaves of the data -/
def psave (c : Cfg) (k : K) (r : Repo) (p : Psid) (off : Nat) (l : List Nat) : Res × Repo :=
  match checkOpen r true with
  | .ok =>
    match hasPseg c k r p with
    | .ok =>
      match pstageOf c k r p with
      | (.ok, r1, id) =>
        match (r1.heap id).fd with
        | none => (.err EBADF, r1)
        | some n =>
          ((pwriten (r1.disk.node n).cur l off k.data).1,
            { r1 with disk := r1.disk.modify n (pwriten (r1.disk.node n).cur l off k.data).2 true })
      | (e, r1, _) => (e, r1)
    | e => (e, r)
  | e => (e, r)

/-- lib/repo.c:3293-3303 `silofs_repo_load_pobj` -/
def pload (c : Cfg) (k : K) (r : Repo) (p : Psid) (off len : Nat) : Res × List Nat × Repo :=
  match checkOpen r false with
  | .ok =>
    match hasPseg c k r p with
    | .ok =>
      match pstageOf c k r p with
      | (.ok, r1, id) =>
        match (r1.heap id).fd with
        | none => (.err EBADF, [], r1)
        | some n => ((preadn (r1.disk.node n).cur len off k.data).1, (preadn (r1.disk.node n).cur len off k.data).2, r1)
      | (e, r1, _) => (e, [], r1)
    | e => (e, [], r)
  | e => (e, [], r)

/-- lib/repo.c:3345-3354 `silofs_repo_remove_pseg` -/
def premove (c : Cfg) (k : K) (r : Repo) (p : Psid) : Res × Repo :=
  match checkOpen r true with
  | .ok =>
    match hasPseg c k r p with
    | .ok =>
      match pstageOf c k r p with
      | (.ok, r1, id) =>
        match (r1.heap id).fd with
        | none => (.err EBADF, r1)
        | some n =>
          if k.trunc ≠ 0 then (.err k.trunc, r1)
          else if k.unlink ≠ 0 then (.err k.unlink, { r1 with disk := r1.disk.modify n (truncFile (r1.disk.node n).cur 0) false })
          else
            (.ok, evict c k { r1 with disk := (r1.disk.modify n (truncFile (r1.disk.node n).cur 0) false).unlink (pathOf c (.pseg p)) } id)
      | (e, r1, _) => (e, r1)
    | e => (e, r)
  | e => (e, r)

/-- lib/repo.c:3381-3390 `silofs_repo_flush_pseg` -/
def pflush (c : Cfg) (k : K) (r : Repo) (p : Psid) : Res × Repo :=
  match checkOpen r true with
  | .ok =>
    match hasPseg c k r p with
    | .ok =>
      match pstageOf c k r p with
      | (.ok, r1, id) =>
        match (r1.heap id).fd with
        | none => (.err EBADF, r1)
        | some n => (if k.sync n ≠ 0 then .err (k.sync n) else .ok, { r1 with disk := r1.disk.fsync n (k.sync n) })
      | (e, r1, _) => (e, r1)
    | e => (e, r)
  | e => (e, r)

/-! ### Operations -/

inductive Op where
  | spawn (l : Lsid)
  | stage (rw : Bool) (l : Lsid)
  | stat (cache : Bool) (l : Lsid)
  | remove (l : Lsid)
  | punch (l : Lsid)
  | require (l : Lsid)
  | requireAt (l : Lsid) (pos len : Nat)
  | write (l : Lsid) (pos : Nat) (bufs : List (List Nat))
  | read (l : Lsid) (pos len : Nat)
  | save (nm : Name) (l : List Nat)
  | load (nm : Name) (len : Nat)
  | unlink (nm : Name)
  | size (nm : Name)
  | pcreate (p : Psid)
  | pstage (p : Psid)
  | psave (p : Psid) (off : Nat) (l : List Nat)
  | pload (p : Psid) (off len : Nat)
  | premove (p : Psid)
  | pflush (p : Psid)
  | relax
  | drop
  | sync

/-- Result of an operation: status, bytes read, number (size of an object or segment). -/
structure Out where
  res : Res
  bytes : List Nat := []
  num : Nat := 0

def step (c : Cfg) (r : Repo) (k : K) : Op → Out × Repo
  | .spawn l => (⟨(spawn c k r l).1, [], 0⟩, (spawn c k r l).2)
  | .stage rw l => (⟨(stage c k r rw l).1, [], 0⟩, (stage c k r rw l).2)
  | .stat cache l => (⟨(statLseg c k r l cache).1, [], (statLseg c k r l cache).2⟩, r)
  | .remove l => (⟨(remove c k r l).1, [], 0⟩, (remove c k r l).2)
  | .punch l => (⟨(punch c k r l).1, [], 0⟩, (punch c k r l).2)
  | .require l => (⟨(requireLseg c k r l).1, [], 0⟩, (requireLseg c k r l).2)
  | .requireAt l pos len => (⟨(requireLaddr c k r l pos len).1, [], 0⟩, (requireLaddr c k r l pos len).2)
  | .write l pos bufs => (⟨(write c k r l pos bufs).1, [], 0⟩, (write c k r l pos bufs).2)
  | .read l pos len => (⟨(read c k r l pos len).1, (read c k r l pos len).2.1, 0⟩, (read c k r l pos len).2.2)
  | .save nm l => (⟨(saveObj c k r nm l).1, [], 0⟩, (saveObj c k r nm l).2)
  | .load nm len => (⟨(loadObj c k r nm len).1, (loadObj c k r nm len).2, 0⟩, r)
  | .unlink nm => (⟨(unlinkObj c k r nm).1, [], 0⟩, (unlinkObj c k r nm).2)
  | .size nm => (⟨(statObj c k r nm).1, [], (statObj c k r nm).2⟩, r)
  | .pcreate p => (⟨(pcreate c k r p).1, [], 0⟩, (pcreate c k r p).2)
  | .pstage p => (⟨(pstage c k r p).1, [], 0⟩, (pstage c k r p).2)
  | .psave p off l => (⟨(psave c k r p off l).1, [], 0⟩, (psave c k r p off l).2)
  | .pload p off len => (⟨(pload c k r p off len).1, (pload c k r p off len).2.1, 0⟩, (pload c k r p off len).2.2)
  | .premove p => (⟨(premove c k r p).1, [], 0⟩, (premove c k r p).2)
  | .pflush p => (⟨(pflush c k r p).1, [], 0⟩, (pflush c k r p).2)
  | .relax => (⟨.ok, [], 0⟩, relax c k r)
  | .drop => (⟨.ok, [], 0⟩, dropSome c k r)
  | .sync => (⟨if (fsyncAll k r).1 = 0 then .ok else .err (fsyncAll k r).1, [], 0⟩, (fsyncAll k r).2)

def run (c : Cfg) : Repo → List (K × Op) → List Out × Repo
  | r, [] => ([], r)
  | r, (k, o) :: xs => ((step c r k o).1 :: (run c (step c r k o).2 xs).1, (run c (step c r k o).2 xs).2)

/-- A repository just opened: nothing cached (lib/repo.c:1909-1938 `silofs_repo_init`). -/
def fresh (d : Disk) (ro : Bool) : Repo := ⟨d, fun _ => ⟨.cobj [], 0, none, false⟩, 0, fun _ => [], [], ro, true⟩

end Silofs.Repo
