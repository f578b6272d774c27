/-
The memory allocator (lib/infra/qalloc.c).  All objects in memory -- inodes, tree nodes, blocks, buffers of
the FUSE queue, records of pending writes -- are cut out of one region which is set aside at start.

The region is divided into pages of 64K.  Requests of more than 32K take whole pages: the page pool keeps
the pages in runs, each described by the record of its first page, with the free runs on a list; a freed
run is merged with its free neighbours.  Smaller requests go to one of 12 slabs, one per power of two from
16 bytes to 32K; a slab cuts single pages of the pool into elements of its size and keeps the free ones
on a list, whose links are in the free memory itself; a page of which no element is used goes back.

Positions are counted from the start of the region: a byte by its offset, a segment of 16 bytes by
offset/16, a page by offset/65536.  Simplifications: an operation is one atomic step (the pool is changed
only under its mutex, a slab under its own); the system calls which provide the region do not fail; size_t
does not wrap (all sums are below 2^40).  The pool is in its `NOFAIL` mode, the only one used
(lib/execlib.c 179-192): a detected misuse stops the process, which is `none` here, as is a failed
assertion.
-/
namespace Silofs.Qalloc

/-- lib/infra/qalloc.c:34-48: page of 64K, slabs up to 32K, 16 bytes to a segment, 12 slabs. -/
def PGSZ : Nat := 65536
def SLABMAX : Nat := 32768
def NSEGS : Nat := 4096
def NSLABS : Nat := 12
def MAXSZ : Nat := 67108864

/-- `struct silofs_qpage_info` (lib/infra/qalloc.c:63-74); `prev` is the first page of the run before. -/
structure Pg where
  prev : Option Nat
  count : Nat
  free : Bool
  sidx : Option Nat
  nused : Nat
  nelems : Nat
  deriving DecidableEq, Inhabited

/-- `struct silofs_qpool`: number of pages, their records, the list of free runs, pages in use by multi-page
requests. -/
structure Pool where
  max : Nat
  pg : Nat → Pg
  fl : List Nat
  use : Nat

/-- lib/infra/qalloc.c:96-99 `nbytes_to_npgs` -/
def npgs (nb : Nat) : Nat := (nb + PGSZ - 1) / PGSZ

/-- Change one record. -/
def Pool.set (p : Pool) (i : Nat) (x : Pg) : Pool := { p with pg := fun j => if j = i then x else p.pg j }

/-- lib/infra/qalloc.c:360-371 `qpool_next` -/
def Pool.next (p : Pool) (i n : Nat) : Option Nat := if i + n < p.max then some (i + n) else none

/-- lib/infra/qalloc.c:406-415 `qpool_update` -/
def Pool.update (p : Pool) (i n : Nat) : Pool :=
  match p.next i n with
  | some j => p.set j { p.pg j with prev := some i }
  | none => p

/-- lib/infra/qalloc.c:417-430 `qpool_add_free` with `qpgi_update` (lib/infra/qalloc.c:244-250): long runs to the head, single
pages to the tail of the list. -/
def Pool.addFree (p : Pool) (i : Nat) (prev : Option Nat) (n : Nat) : Pool :=
  { (p.set i { p.pg i with prev := prev, count := n, free := true }).update i n with
    fl := if 2 ≤ n then i :: p.fl else p.fl ++ [i] }

/-- lib/infra/qalloc.c:257-268 `qpgi_init` -/
def Pg.blank : Pg := ⟨none, 0, true, none, 0, 0⟩

/-- lib/infra/qalloc.c:432-444 `qpool_init_page_infos`: one free run. -/
def Pool.init (n : Nat) : Pool := (⟨n, fun _ => Pg.blank, [], 0⟩ : Pool).addFree 0 none n

/-- lib/infra/qalloc.c:544-557 `qpool_search_free_list` with 508-542 `qpool_search_free_from_tail`, `qpool_search_free_from_head` -/
def Pool.search (p : Pool) (n : Nat) : Option Nat :=
  if p.use + n ≤ p.max then
    if 2 ≤ n then p.fl.find? (fun i => decide (n ≤ (p.pg i).count))
    else p.fl.reverse.find? (fun i => decide (n ≤ (p.pg i).count))
  else none

/-- lib/infra/qalloc.c:252-255, 287-291 `qpgi_mute`, `qpgi_unlink_mute` -/
def Pool.mute (p : Pool) (i : Nat) : Pool :=
  p.set i { p.pg i with prev := none, count := 0, free := true }

/-- lib/infra/qalloc.c:282-285 `qpgi_unlink` -/
def Pool.unlink (p : Pool) (i : Nat) : Pool := { p with fl := p.fl.erase i }

/-- Rest of a run of which the first `n` pages are taken (lib/infra/qalloc.c:559-581, the body of the inner `if`). -/
def Pool.splitOff (p : Pool) (i n : Nat) : Pool :=
  match p.next i n with
  | some j => p.addFree j (some i) ((p.pg i).count - n)
  | none => p

/-- lib/infra/qalloc.c:559-581 `qpool_do_alloc_npgs`, once a run is found -/
def Pool.take (p : Pool) (i n : Nat) : Pool :=
  if n < (p.pg i).count then
    ((p.unlink i).splitOff i n).set i { ((p.unlink i).splitOff i n).pg i with count := n, free := false }
  else (p.unlink i).set i { p.pg i with free := false }

/-- lib/infra/qalloc.c:559-581 `qpool_do_alloc_npgs` -/
def Pool.alloc (p : Pool) (n : Nat) : Option (Nat × Pool) :=
  match p.search n with
  | some i => some (i, p.take i n)
  | none => none

/-- Flags of a request (include/silofs/infra/qalloc.h 25-30). -/
structure Flags where
  bzero : Bool
  trypunch : Bool
  nopunch : Bool

/-- lib/infra/qalloc.c:720-748 `qpool_may_punch_hole_at`: the memory of a long free run is given back to the
system. -/
def mayPunch (i n : Nat) (f : Flags) : Bool :=
  if f.nopunch then false
  else if i % 16 = 0 then decide (16 ≤ n)
  else if f.trypunch then decide (32 ≤ n)
  else decide (128 ≤ n)

/-- First half of `qpool_do_free_npgs`: merge with a free successor; length of the run. -/
def Pool.mergeNext (p : Pool) (i n : Nat) : Pool × Nat :=
  match p.next i n with
  | some j =>
    if (p.pg j).free then ((p.unlink j).mute j, n + (p.pg j).count) else (p, n)
  | none => (p, n)

/-- Second half: merge with a free predecessor; first page of the run, its predecessor and its length. -/
def Pool.mergePrev (p : Pool) (i n : Nat) : Pool × Nat × Option Nat × Nat :=
  match (p.pg i).prev with
  | some w =>
    if (p.pg w).free then
      (((p.mute i).unlink w).mute w, w, (p.pg w).prev, n + (p.pg w).count)
    else (p, i, some w, n)
  | none => (p, i, none, n)

/-- lib/infra/qalloc.c:762-785 `qpool_do_free_npgs`: the pool, and the run which is free now (for
`qpool_update_released`). -/
def Pool.release (p : Pool) (i n : Nat) : Pool × Nat × Nat :=
  ((((p.mergeNext i n).1.mergePrev i (p.mergeNext i n).2).1.addFree
      ((p.mergeNext i n).1.mergePrev i (p.mergeNext i n).2).2.1
      ((p.mergeNext i n).1.mergePrev i (p.mergeNext i n).2).2.2.1
      ((p.mergeNext i n).1.mergePrev i (p.mergeNext i n).2).2.2.2),
    ((p.mergeNext i n).1.mergePrev i (p.mergeNext i n).2).2.1,
    ((p.mergeNext i n).1.mergePrev i (p.mergeNext i n).2).2.2.2)

/-- lib/infra/qalloc.c:668-699 `qpool_check_by_page`: the checks before a run is freed. -/
def Pool.check (p : Pool) (off nb : Nat) : Bool :=
  decide (npgs nb ≤ p.use) && decide (off / PGSZ < p.max) && !(p.pg (off / PGSZ)).free
    && decide ((p.pg (off / PGSZ)).count = npgs nb)

/-! ### Slabs -/

/-- `struct silofs_slab`: list of free elements (by their first segment), counts. -/
structure Slab where
  fl : List Nat
  nfree : Nat
  nused : Nat

/-- include/silofs/infra/utility.h 83-86 `silofs_clz_u32` -/
def clz32 (x : Nat) : Nat := if x = 0 then 32 else 31 - Nat.log2 x

/-- lib/infra/qalloc.c:897-926 `slab_size_to_sindex`, `slab_issize`, `slab_size_to_nlz` -/
def sindex (size : Nat) : Option Nat :=
  if ¬(0 < size ∧ size ≤ SLABMAX) then none
  else if clz32 ((size - 1) / 16) = 0 ∨ 32 < clz32 ((size - 1) / 16) then none
  else if NSLABS ≤ 32 - clz32 ((size - 1) / 16) then none
  else some (32 - clz32 ((size - 1) / 16))

/-- Size of the elements of a slab (lib/infra/qalloc.c:1184-1207 `qalloc_init_slabs`). -/
def elemsz (k : Nat) : Nat := 2 ^ (4 + k)

/-- lib/infra/qalloc.c:951-956 `slab_step_nsegs` -/
def step (k : Nat) : Nat := (elemsz k + 15) / 16

/-- First segments of the elements of a page: the loop of `slab_expand` and `slab_shrink`. -/
def segsOf (k p : Nat) : List Nat := (List.range (NSEGS / step k)).map (fun i => p * NSEGS + i * step k)

/-- The allocator: pool, slabs, bytes in use, and the content of the region. `demask` is
`SILOFS_QALLOCF_DEMASK`. -/
structure St where
  pool : Pool
  slab : Nat → Slab
  bytes : Nat
  mem : Nat → Nat
  demask : Bool

/-- lib/infra/qalloc.c:1241-1267 `silofs_qalloc_init` for a region of `n` pages. -/
def St.init (n : Nat) (demask : Bool) : St := ⟨Pool.init n, fun _ => ⟨[], 0, 0⟩, 0, fun _ => 0, demask⟩

def St.setSlab (s : St) (k : Nat) (x : Slab) : St := { s with slab := fun j => if j = k then x else s.slab j }

/-- The links of these free elements are written with values of no interest. -/
def scribble (m : Nat → Nat) (segs : List Nat) (g : Nat → Nat) : Nat → Nat :=
  fun a => if a / 16 ∈ segs then g a else m a

/-- memset of a range -/
def fill (m : Nat → Nat) (off n v : Nat) : Nat → Nat :=
  fun a => if off ≤ a ∧ a < off + n then v else m a

/-- lib/infra/qalloc.c:958-974 `slab_expand`. The links written are those of the list afterwards (in fact
only some of them). -/
def St.expand (s : St) (k p : Nat) (g : Nat → Nat) : St :=
  { (({ s with
        pool := s.pool.set p { s.pool.pg p with sidx := some k, nelems := PGSZ / elemsz k, nused := 0 } } : St).setSlab k
      { (s.slab k) with
        fl := (s.slab k).fl ++ segsOf k p
        nfree := (s.slab k).nfree + (segsOf k p).length }) with
    mem := scribble s.mem ((s.slab k).fl ++ segsOf k p) g }

/-- lib/infra/qalloc.c:1038-1051 `slab_require_space`; `none`: no memory. -/
def St.require (s : St) (k : Nat) (g : Nat → Nat) : Option St :=
  if 0 < (s.slab k).nfree then some s
  else
    match s.pool.alloc 1 with
    | some (p, pool') => some (({ s with pool := pool' } : St).expand k p g)
    | none => none

/-- Answer of the allocator: a pointer, NULL, or the process is stopped. -/
inductive Ret where
  | ptr (off : Nat)
  | null
  | panic
  deriving DecidableEq

/-- lib/infra/qalloc.c:998-1015 `slab_alloc` and `slab_alloc_and_update` (lib/infra/qalloc.c:1053-1067) -/
def St.pop (s : St) (k : Nat) (g : Nat → Nat) : Ret × St :=
  match (s.slab k).fl with
  | [] => (.null, s)
  | e :: r =>
    if ¬(0 < (s.slab k).nfree) then (.panic, s)
    else if ¬((s.pool.pg (e * 16 / PGSZ)).nused < (s.pool.pg (e * 16 / PGSZ)).nelems) then (.panic, s)
    else
      (.ptr (e * 16),
        { (({ s with
              pool := s.pool.set (e * 16 / PGSZ)
                { s.pool.pg (e * 16 / PGSZ) with nused := (s.pool.pg (e * 16 / PGSZ)).nused + 1 } } : St).setSlab k
            { fl := r, nfree := (s.slab k).nfree - 1, nused := (s.slab k).nused + 1 }) with
          mem := scribble s.mem (e :: r) g })

/-- lib/infra/qalloc.c:1069-1085 `slab_do_alloc_seg`, for the slab of this size (lib/infra/qalloc.c:1279-1314 `qalloc_slab_slot_of`, `qalloc_slab_of`, `qalloc_alloc_by_slab`). -/
def St.mallocSub (s : St) (nb : Nat) (g : Nat → Nat) : Ret × St :=
  match sindex nb with
  | none => (.null, s)
  | some k =>
    match s.require k g with
    | none => (.null, s)
    | some s' => s'.pop k g

/-- lib/infra/qalloc.c:594-609 `qpool_do_alloc_multi_pg` -/
def St.mallocMulti (s : St) (nb : Nat) : Ret × St :=
  match s.pool.alloc (npgs nb) with
  | none => (.null, s)
  | some (i, pool') =>
    if pool'.use + npgs nb ≤ pool'.max then
      (.ptr (i * PGSZ), { s with pool := { pool' with use := pool'.use + npgs nb } })
    else (.panic, { s with pool := { pool' with use := pool'.use + npgs nb } })

/-- Sub-page or multi-page (lib/infra/qalloc.c:106-109 `is_slab_size`). -/
def St.mallocAny (s : St) (nb : Nat) (g : Nat → Nat) : Ret × St :=
  if 0 < nb ∧ nb ≤ SLABMAX then s.mallocSub nb g else s.mallocMulti nb

/-- lib/infra/qalloc.c:1375-1396 `qalloc_malloc` and `silofs_qalloc_malloc` (lib/infra/qalloc.c:1411-1425), with
`qalloc_check_alloc` (lib/infra/qalloc.c:1316-1330). -/
def St.malloc (s : St) (nb : Nat) (f : Flags) (g : Nat → Nat) : Ret × St :=
  if nb = 0 then (.null, s)
  else if MAXSZ < nb then (.null, s)
  else
    match s.mallocAny nb g with
    | (.ptr o, s') =>
      (.ptr o, { s' with bytes := s'.bytes + nb, mem := if f.bzero then fill s'.mem o nb 0 else s'.mem })
    | (r, s') => (r, s')

/-- Remove these elements from a list (`silofs_list_head_remove` of each). -/
def eraseAll (l : List Nat) : List Nat → List Nat
  | [] => l
  | x :: xs => eraseAll (l.erase x) xs

/-- lib/infra/qalloc.c:976-996 `slab_shrink`; `none`: an assertion fails -/
def St.shrink (s : St) (k p : Nat) : Option St :=
  if (s.pool.pg p).sidx ≠ some k ∨ (s.pool.pg p).nused ≠ 0 ∨ (s.slab k).nfree < (segsOf k p).length then none
  else
    some
      (({ s with pool := s.pool.set p { s.pool.pg p with sidx := none, nelems := 0 } } : St).setSlab k
        { (s.slab k) with
          fl := eraseAll (s.slab k).fl (segsOf k p)
          nfree := (s.slab k).nfree - (segsOf k p).length })

/-- `qpool_free_npgs` (lib/infra/qalloc.c:787-797) and the punched hole: `qpool_punch_hole_at` (lib/infra/qalloc.c:701-718),
`qpool_update_released` (lib/infra/qalloc.c:750-760). -/
def St.releasePgs (s : St) (i n : Nat) (f : Flags) : St :=
  { s with
    pool := (s.pool.release i n).1
    mem :=
      if mayPunch (s.pool.release i n).2.1 (s.pool.release i n).2.2 f then
        fill s.mem ((s.pool.release i n).2.1 * PGSZ) ((s.pool.release i n).2.2 * PGSZ) 0
      else s.mem }

/-- lib/infra/qalloc.c:1116-1144 `slab_check_seg` -/
def St.checkSeg (s : St) (k e nb : Nat) : Bool :=
  decide (0 < (s.slab k).nused) && decide (nb ≤ elemsz k)
    && decide ((s.pool.pg (e * 16 / PGSZ)).sidx = some k) && decide (0 < (s.pool.pg (e * 16 / PGSZ)).nused)

/-- lib/infra/qalloc.c:1017-1026 `slab_free` and the count of the page (lib/infra/qalloc.c:1098-1114, first part) -/
def St.push (s : St) (k e : Nat) (g : Nat → Nat) : St :=
  { (({ s with
        pool := s.pool.set (e * 16 / PGSZ)
          { s.pool.pg (e * 16 / PGSZ) with nused := (s.pool.pg (e * 16 / PGSZ)).nused - 1 } } : St).setSlab k
      { fl := e :: (s.slab k).fl, nfree := (s.slab k).nfree + 1, nused := (s.slab k).nused - 1 }) with
    mem := scribble s.mem (e :: (s.slab k).fl) g }

/-- lib/infra/qalloc.c:1098-1114 `slab_free_and_update`; `none`: an assertion fails -/
def St.freeSeg (s : St) (k e : Nat) (f : Flags) (g : Nat → Nat) : Option St :=
  if (s.pool.pg (e * 16 / PGSZ)).nelems < (s.pool.pg (e * 16 / PGSZ)).nused then none
  else if ((s.push k e g).pool.pg (e * 16 / PGSZ)).nused = 0 then
    match (s.push k e g).shrink k (e * 16 / PGSZ) with
    | none => none
    | some s' => some (s'.releasePgs (e * 16 / PGSZ) 1 f)
  else some (s.push k e g)

/-- lib/infra/qalloc.c:1146-1158 `slab_do_free_seg`, for the slab of this size (lib/infra/qalloc.c:1458-1480). -/
def St.freeSub (s : St) (off nb : Nat) (f : Flags) (g : Nat → Nat) : Option St :=
  match sindex nb with
  | none => none
  | some k => if s.checkSeg k (off / 16) nb then s.freeSeg k (off / 16) f g else none

/-- lib/infra/qalloc.c:799-815 `qpool_do_free_multi_pg` -/
def St.freeMulti (s : St) (off nb : Nat) (f : Flags) : Option St :=
  if s.pool.check off nb then
    some
      { (s.releasePgs (off / PGSZ) (npgs nb) f) with
        pool := { (s.releasePgs (off / PGSZ) (npgs nb) f).pool with
          use := (s.releasePgs (off / PGSZ) (npgs nb) f).pool.use - npgs nb } }
  else none

/-- lib/infra/qalloc.c:1492-1500 `qalloc_pre_free`: the memory is wiped, or its first bytes masked. -/
def St.preFree (s : St) (off nb : Nat) (f : Flags) : St :=
  { s with
    mem :=
      if f.bzero || f.trypunch || f.nopunch then (if f.bzero then fill s.mem off nb 0 else s.mem)
      else if s.demask then fill s.mem off (min 512 nb) 0x6f else s.mem }

/-- lib/infra/qalloc.c:1502-1528 `qalloc_free` and `silofs_qalloc_free` (lib/infra/qalloc.c:1548-1557), with
`qalloc_check_free` (lib/infra/qalloc.c:1427-1442); `none`: the process is stopped -/
def St.free (s : St) (off nb : Nat) (f : Flags) (g : Nat → Nat) : Option St :=
  if nb = 0 then some s
  else if MAXSZ < nb ∨ s.pool.max * PGSZ < off + nb then none
  else
    match (if 0 < nb ∧ nb ≤ SLABMAX then (s.preFree off nb f).freeSub off nb f g
           else (s.preFree off nb f).freeMulti off nb f) with
    | none => none
    | some s' => if s'.bytes < nb then none else some { s' with bytes := s'.bytes - nb }

/-- A byte is written by its owner. -/
def St.write (s : St) (a v : Nat) : St := { s with mem := fun x => if x = a then v else s.mem x }

end Silofs.Qalloc
