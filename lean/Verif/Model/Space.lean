import Verif.Model.Addr
import Verif.Model.FreeCache
/-
Model of the space allocator: block references and space leaves (lib/spmaps.c),
claim / reclaim / addref / rescan (lib/claim.c), and space statistics
(lib/stats.c).

A "kind" is an `enum silofs_ltype` of a vnode (5..12).  Every kind has its own
virtual space with its own tree of space maps and its own free-range cache; only
the statistics are shared.
-/
namespace Silofs.Space
open Silofs.Addr Silofs.FreeCache

/-- SILOFS_KB_SIZE -/
def KB : Nat := 1024
/-- SILOFS_LBK_SIZE -/
def LBK : Nat := 65536
/-- SILOFS_SPMAP_NCHILDS: logical blocks per space leaf -/
def NBK : Nat := 256
/-- spleaf_span, lib/claim.c:34-37 (also SILOFS_LSEG_SIZE_MAX) -/
def SPAN : Nat := 16777216

/-- silofs_ltype_nkbs, lib/addr/ltype.c:217-222. -/
def nkbs (t : Nat) : Nat := (ltypeSize t + 1023) / 1024

/-- silofs_ltype_isvnode, lib/addr/ltype.c:121-147. -/
def isVnode (t : Nat) : Bool := 5 ≤ t && t ≤ 12
/-- silofs_ltype_isdata, lib/addr/ltype.c:149-175. -/
def isData (t : Nat) : Bool := t == LTYPE_DATA1K || t == LTYPE_DATA4K || t == LTYPE_DATABK
/-- vaddr_isdatabk -/
def isBk (t : Nat) : Bool := t == LTYPE_DATABK

/-! ### Bit masks of a logical block, lib/spmaps.c:298-381 -/

/-- uint64_t with one bit per KB of a block. -/
abbrev Mask := BitVec 64

/-- mask_of, lib/spmaps.c:300-311. -/
def maskOf0 (ki nk : Nat) : Mask :=
  if nk < 64 then ((1#64 <<< nk) - 1#64) <<< ki else ~~~ 0#64

/-- bk_state_mask_of, lib/spmaps.c:313-323. -/
def maskOf (ki nk : Nat) : Mask :=
  if ki < 64 then maskOf0 ki (min nk (64 - ki)) else 0#64

/-- bk_state_mask_of_other, lib/spmaps.c:330-337. -/
def maskOther (ki nk : Nat) : Mask := ~~~ (maskOf ki nk)

/-- bk_state_has_mask, lib/spmaps.c:344-348. -/
def hasMask (s m : Mask) : Bool := (s &&& m) == m
/-- bk_state_has_mask_none, lib/spmaps.c:350-354. -/
def hasNone (s m : Mask) : Bool := (s &&& m) == 0#64
/-- bk_state_has_mask_any, lib/spmaps.c:356-360. -/
def hasAny (s m : Mask) : Bool := decide (0#64 < (s &&& m))

/-- bk_state_popcount, lib/spmaps.c:374-377. -/
def popcount (s : Mask) : Nat := (List.range 64).countP (fun i => s.getLsbD i)

/-! ### Block reference, `struct silofs_bk_ref` -/

/-- include/silofs/defs.h `struct silofs_bk_ref` without the physical reference.
`dbkref` is a 64-bit counter in C; overflow (2^64 references to one block) is not
modelled. -/
structure Bkr where
  alloc : Mask
  unwr : Mask
  dbkref : Nat
deriving DecidableEq, Repr

/-- bkr_reset, lib/spmaps.c:591-596. -/
def Bkr.init : Bkr := ⟨0, 0, 0⟩

/-- bkr_test_allocated_at, lib/spmaps.c:452-461. -/
def Bkr.testAlloc (b : Bkr) (kbn nkb : Nat) : Bool := hasMask b.alloc (maskOf kbn nkb)
/-- bkr_test_allocated_other, lib/spmaps.c:468-477. -/
def Bkr.testOther (b : Bkr) (kbn nkb : Nat) : Bool := hasAny b.alloc (maskOther kbn nkb)
/-- bkr_set_allocated_at, lib/spmaps.c:479-489. -/
def Bkr.setAlloc (b : Bkr) (kbn nkb : Nat) : Bkr := { b with alloc := b.alloc ||| maskOf kbn nkb }
/-- bkr_clear_allocated_at, lib/spmaps.c:491-501. -/
def Bkr.clearAlloc (b : Bkr) (kbn nkb : Nat) : Bkr :=
  { b with alloc := b.alloc &&& ~~~ (maskOf kbn nkb) }
/-- bkr_usecnt, lib/spmaps.c:503-509. -/
def Bkr.usecnt (b : Bkr) : Nat := popcount b.alloc
/-- bkr_freecnt, lib/spmaps.c:516-519. -/
def Bkr.freecnt (b : Bkr) : Nat := 64 - b.usecnt
/-- bkr_isfull, lib/spmaps.c:521-524. -/
def Bkr.isFull (b : Bkr) : Bool := b.testAlloc 0 64
/-- bkr_isunused, lib/spmaps.c:526-532. -/
def Bkr.isUnused (b : Bkr) : Bool := !(decide (0#64 < b.alloc))
/-- bkr_test_unwritten_at, lib/spmaps.c:546-555. -/
def Bkr.testUnwr (b : Bkr) (kbn nkb : Nat) : Bool := hasMask b.unwr (maskOf kbn nkb)
/-- bkr_set_unwritten_at, lib/spmaps.c:557-567. -/
def Bkr.setUnwr (b : Bkr) (kbn nkb : Nat) : Bkr := { b with unwr := b.unwr ||| maskOf kbn nkb }
/-- bkr_clear_unwritten_at, lib/spmaps.c:569-579. -/
def Bkr.clearUnwr (b : Bkr) (kbn nkb : Nat) : Bkr :=
  { b with unwr := b.unwr &&& ~~~ (maskOf kbn nkb) }
/-- bkr_may_alloc, lib/spmaps.c:610-613. -/
def Bkr.mayAlloc (b : Bkr) (nkb : Nat) : Bool := !b.isFull && decide (nkb ≤ b.freecnt)

/-- bkr_find_free, lib/spmaps.c:615-631.  The C loop visits `kbn = 0, nkb, 2*nkb, ..`
while `kbn + nkb <= 64`; those are `64 / nkb` positions. -/
def Bkr.findFree (b : Bkr) (nkb : Nat) : Option Nat :=
  ((List.range (64 / nkb)).find? (fun i => hasNone b.alloc (maskOf (i * nkb) nkb))).map (· * nkb)

/-- spleaf_ref_allocated_at, lib/spmaps.c:838-849. -/
def Bkr.ref (b : Bkr) (t kbn : Nat) : Bkr :=
  let b1 := b.setAlloc kbn (nkbs t)
  if isBk t then { b1 with dbkref := b1.dbkref + 1 } else b1

/-- spleaf_unref_allocated_at, lib/spmaps.c:851-864. -/
def Bkr.unref (b : Bkr) (t kbn : Nat) : Bkr :=
  let b1 := if isBk t then { b with dbkref := b.dbkref - 1 } else b
  if b1.dbkref = 0 ∨ nkbs t < 64 then b1.clearAlloc kbn (nkbs t) else b1

/-- spleaf_is_allocated_at, lib/spmaps.c:753-768. -/
def Bkr.isAllocated (b : Bkr) (t kbn : Nat) : Bool :=
  if isBk t then decide (b.dbkref > 0) else b.testAlloc kbn (nkbs t)

/-- spleaf_has_allocated_with, lib/spmaps.c:770-785. -/
def Bkr.hasAllocWith (b : Bkr) (t kbn : Nat) : Bool :=
  if isBk t then decide (b.dbkref > 0) else b.testOther kbn (nkbs t)

/-- spleaf_is_last_allocated, lib/spmaps.c:787-802. -/
def Bkr.isLast (b : Bkr) (t kbn : Nat) : Bool :=
  if isBk t then decide (b.dbkref = 1) else !b.testOther kbn (nkbs t)

/-! ### Virtual space of one kind -/

/-- All space leaves of one kind: `spawned k` says that leaf `k` (covering
`[k*16M, (k+1)*16M)`) exists, `bk lba` is the block reference of a 64K block and
`nused k` is `sl_nused_bytes`. -/
structure VSpace where
  spawned : Nat → Bool
  bk : Nat → Bkr
  nused : Nat → Nat
  cache : Cache

/-- Shared state: one virtual space per kind, the object gauges (`sp_objs` of the
current and of the base statistics), the block gauge `sp_bks`, capacity and
size of the virtual spaces. -/
structure Sys where
  vs : Nat → VSpace
  objs : Nat → Int
  objsBase : Nat → Int
  bks : Nat → Int
  cap : Nat
  vend : Nat

/-- Function update. -/
def upd {α : Type} (f : Nat → α) (i : Nat) (v : α) : Nat → α := fun j => if j = i then v else f j

/-- vaddr -> block number, lib/addr/offlba.c `silofs_off_to_lba`. -/
def lbaOf (off : Nat) : Nat := off / LBK
/-- kbn_of, lib/spmaps.c:42-45: KB position of an offset inside its block. -/
def kbnOf (off : Nat) : Nat := off % LBK / KB
/-- Index of the space leaf covering an offset. -/
def leafOf (off : Nat) : Nat := off / SPAN

/-- spleaf_find_free over blocks `bnBeg..256` of leaf `k`, lib/spmaps.c:889-906. -/
def leafFindFree (v : VSpace) (t k bnBeg : Nat) : Option Nat :=
  (List.range' bnBeg (NBK - bnBeg)).findSome? fun bn =>
    let b := v.bk (k * NBK + bn)
    if b.mayAlloc (nkbs t) then
      (b.findFree (nkbs t)).map fun kbn => (k * NBK + bn) * LBK + kbn * KB
    else none

/-- silofs_sli_find_free_space + sli_find_free_space_from + sli_cap_allocate,
lib/spmaps.c:1188-1252. -/
def sliFindFree (v : VSpace) (t k fromOff : Nat) : Option Nat :=
  if v.nused k + ltypeSize t ≤ SPAN then
    let beg := max fromOff (k * SPAN)
    if beg ≥ (k + 1) * SPAN then none
    else leafFindFree v t k ((beg - k * SPAN) / LBK)
  else none

/-- Error codes. -/
inductive Err where
  | enospc | enoent | other
deriving DecidableEq, Repr

/-- Outcome of a (require/stage) of the space maps of one offset. `fail`: the
error, if any; `spn`: number of space nodes created on the way; `newM/newI`:
memory outcomes when a freshly created leaf is added to the free cache. -/
structure ReqO where
  fail : Option Err
  spn : Nat
  newM : Bool
  newI : Bool
deriving DecidableEq, Repr

/-- silofs_require_spmaps_of for leaf `k` of kind `t`: lib/vstage.c:1734-1774 and
1801-1822 and 1934-1959.  An absent leaf is created empty (spleaf_init), counted in the
statistics (lib/vstage.c:1626) and its whole range is added to the free cache
(lib/vstage.c:1711-1732).  Reading, cloning and binding of existing maps does not
change the state modelled here.  `none` is undefined behaviour. -/
def require (s : Sys) (t k : Nat) (o : ReqO) : Option (Sys × Option Err) :=
  let s := { s with objs := upd s.objs LTYPE_SPNODE (s.objs LTYPE_SPNODE + o.spn) }
  match o.fail with
  | some e => some (s, some e)
  | none =>
    let v := s.vs t
    if v.spawned k then some (s, none)
    else match add v.cache (k * SPAN) SPAN o.newM o.newI with
      | .ub => none
      | .done _ c =>
        let v' : VSpace := { spawned := upd v.spawned k true
                             bk := fun l => if l / NBK = k then Bkr.init else v.bk l
                             nused := upd v.nused k 0
                             cache := c }
        some ({ s with vs := upd s.vs t v'
                       objs := upd s.objs LTYPE_SPLEAF (s.objs LTYPE_SPLEAF + 1) }, none)

/-! ### Statistics, lib/stats.c -/

/-- spgs_sum over collected statistics, lib/stats.c:421-434 and 620-634, as the
mathematical integer. -/
def usedBytes (s : Sys) : Int :=
  ((List.range 13).map fun t =>
    if t = LTYPE_NONE ∨ t = LTYPE_BOOTREC then 0
    else (s.objsBase t + s.objs t) * (ltypeSize t : Int)).sum

/-- silofs_sti_bytes_used, lib/stats.c:620-634: cast to size_t. -/
def usedU (s : Sys) : Nat := toU64 (usedBytes s)

/-- silofs_sti_mayalloc_some, lib/stats.c:658-666 (size_t arithmetic). -/
def mayallocSome (s : Sys) (want : Nat) : Bool :=
  (want + usedU s + LBK) % 18446744073709551616 < s.cap

/-- silofs_sti_mayalloc_data, lib/stats.c:668-675. -/
def mayallocData (s : Sys) (want : Nat) : Bool :=
  (usedU s + want) % 18446744073709551616 ≤ (31 * s.cap) % 18446744073709551616 / 32

/-- silofs_sti_mayalloc_meta, lib/stats.c:677-694; inode limits 636-648. -/
def mayallocMeta (s : Sys) (want : Nat) (newFile : Bool) : Bool :=
  if (usedU s + want) % 18446744073709551616 > s.cap then false
  else if newFile then
    toU64 (s.objsBase LTYPE_INODE + s.objs LTYPE_INODE) < s.cap / 1024 / 4
  else true

/-- spac_check_avail_space, lib/claim.c:313-331. -/
def checkAvail (s : Sys) (t : Nat) : Bool :=
  mayallocSome s (ltypeSize t) &&
    (if isData t then mayallocData s (ltypeSize t)
     else mayallocMeta s (ltypeSize t) (t == LTYPE_INODE))

/-- silofs_sti_fill_statvfs, lib/stats.c:712-735: free bytes as size_t. -/
def statvfsFree (s : Sys) : Nat := toU64 ((s.cap : Int) - (usedU s : Int)) / 4096

/-! ### claim / reclaim, lib/claim.c -/

/-- Oracle of one operation: outcomes of the require steps along the search
(`req i` for the i-th leaf tried), of the final require, of resolving the
physical location, and memory outcomes of the cache insertion. -/
structure Oracle where
  req : Nat → ReqO
  last : ReqO
  resolve : Option Err
  newM : Bool
  newI : Bool

/-- spac_require_vspace_by_spmaps + spac_require_vspace_at, lib/claim.c:231-274.
`i` numbers the attempts, `fuel` bounds them (the C loop ends because the offset
grows to the end of the virtual space). -/
def slow (t : Nat) (req : Nat → ReqO) : (fuel i : Nat) → (s : Sys) → (voff : Nat) →
    Option (Sys × Except Err Nat)
  | 0, _, s, _ => some (s, .error .enospc)
  | fuel + 1, i, s, voff =>
    if voff < s.vend then
      match require s t (leafOf voff) (req i) with
      | none => none
      | some (s1, some .enospc) => slow t req fuel (i + 1) s1 ((voff + SPAN) / SPAN * SPAN)
      | some (s1, some e) => some (s1, .error e)
      | some (s1, none) =>
        match sliFindFree (s1.vs t) t (leafOf voff) voff with
        | some off =>
          if off + ltypeSize t ≤ s1.vend then some (s1, .ok off)
          else slow t req fuel (i + 1) s1 ((voff + SPAN) / SPAN * SPAN)
        | none => slow t req fuel (i + 1) s1 ((voff + SPAN) / SPAN * SPAN)
    else some (s, .error .enospc)

/-- spac_claim_vspace_from_cache, lib/claim.c:276-289. -/
def popCache (s : Sys) (t : Nat) : Option (Nat × Sys) :=
  match pop (s.vs t).cache (ltypeSize t) with
  | none => none
  | some (off, c) => some (off, { s with vs := upd s.vs t { s.vs t with cache := c } })

/-- spac_require_unalloc_vspace, lib/claim.c:291-311. -/
def findUnalloc (s : Sys) (t : Nat) (o : Oracle) : Option (Sys × Except Err Nat) :=
  match popCache s t with
  | some (off, s1) => some (s1, .ok off)
  | none =>
    match slow t o.req (s.vend + 1) 0 s ((s.vs t).cache.hint) with
    | none => none
    | some (s1, .error e) => some (s1, .error e)
    | some (s1, .ok off) =>
      match popCache s1 t with
      | some (off2, s2) => some (s2, .ok off2)
      | none => some (s1, .ok off)

/-- silofs_sli_mark_allocated_space + spac_set_hint, lib/spmaps.c:1254-1268 and
lib/claim.c:345-352, on the maps of one kind.  `none`: an assertion fails. -/
def markV (v : VSpace) (t off : Nat) : Option VSpace :=
  let k := leafOf off
  if ¬ (v.nused k < SPAN ∧ v.nused k + ltypeSize t ≤ SPAN) then none
  else
    let b1 := (v.bk (lbaOf off)).ref t (kbnOf off)
    let b2 := if isData t then b1.setUnwr (kbnOf off) (nkbs t) else b1
    some { v with nused := upd v.nused k (v.nused k + ltypeSize t)
                  bk := upd v.bk (lbaOf off) b2
                  cache := { v.cache with hint := off } }

/-- sbi_mark_allocated_at, lib/claim.c:115-123: mark and count. -/
def mark (s : Sys) (t off : Nat) : Option Sys :=
  match markV (s.vs t) t off with
  | none => none
  | some v' =>
    let first := !((s.vs t).bk (lbaOf off)).hasAllocWith t (kbnOf off)
    some { s with vs := upd s.vs t v'
                  objs := upd s.objs t (s.objs t + 1)
                  bks := upd s.bks t (s.bks t + (if first then 1 else 0)) }

/-- spac_claim_vspace, lib/claim.c:377-403 (silofs_claim_vspace). -/
def claim (s : Sys) (t : Nat) (o : Oracle) : Option (Sys × Except Err Nat) :=
  if !checkAvail s t then some (s, .error .enospc)
  else match findUnalloc s t o with
    | none => none
    | some (s1, .error e) => some (s1, .error e)
    | some (s1, .ok off) =>
      if off + ltypeSize t > s1.vend then some (s1, .error .enospc)
      else match require s1 t (leafOf off) o.last with
        | none => none
        | some (s2, some e) => some (s2, .error e)
        | some (s2, none) =>
          match o.resolve with
          | some e => some (s2, .error e)
          | none =>
            match mark s2 t off with
            | none => none
            | some s3 => some (s3, .ok off)

/-- silofs_sli_unref_allocated_space, lib/spmaps.c:1281-1299, on the maps of one
kind.  `none`: an assertion or expectation fails. -/
def unrefAt (v : VSpace) (t off : Nat) : Option VSpace :=
  let k := leafOf off
  let b := v.bk (lbaOf off)
  let last := b.isLast t (kbnOf off)
  if isBk t ∧ b.dbkref = 0 then none
  else
    let b1 := b.unref t (kbnOf off)
    if !(b1.isAllocated t (kbnOf off)) ∧ v.nused k < ltypeSize t then none
    else
      let nu := if b1.isAllocated t (kbnOf off) then v.nused k else v.nused k - ltypeSize t
      if last ∧ !b1.isUnused then none
      else
        let b2 := if last then Bkr.init else b1
        some { v with nused := upd v.nused k nu, bk := upd v.bk (lbaOf off) b2 }

/-- silofs_sli_dbkref_at, lib/spmaps.c:1301-1310. -/
def dbkrefAt (v : VSpace) (t off : Nat) : Nat :=
  if isBk t then (v.bk (lbaOf off)).dbkref else 0

/-- spac_try_recache_vspace, lib/claim.c:428-441: the return code is ignored by
the callers. -/
def recache (v : VSpace) (t off : Nat) (newM newI : Bool) : Option VSpace :=
  if dbkrefAt v t off > 0 then some v
  else match add v.cache off (ltypeSize t) newM newI with
    | .ub => none
    | .done _ c => some { v with cache := c }

/-- spac_reclaim_vspace, lib/claim.c:496-552 (silofs_reclaim_vspace).  Punching
the underlying segment is modelled with the data, not here. -/
def reclaim (s : Sys) (t off : Nat) (o : Oracle) : Option (Sys × Option Err) :=
  match require s t (leafOf off) o.last with
  | none => none
  | some (s1, some e) => some (s1, some e)
  | some (s1, none) =>
    match o.resolve with
    | some e => some (s1, some e)
    | none =>
      match unrefAt (s1.vs t) t off with
      | none => none
      | some v1 =>
        let objs' := if dbkrefAt v1 t off > 0 then s1.objs else upd s1.objs t (s1.objs t - 1)
        match recache v1 t off o.newM o.newI with
        | none => none
        | some v2 => some ({ s1 with vs := upd s1.vs t v2, objs := objs' }, none)

/-- silofs_addref_vspace, lib/claim.c:554-589 with silofs_sli_reref_allocated_space,
lib/spmaps.c:1270-1279. -/
def addref (s : Sys) (t off : Nat) (o : Oracle) : Option (Sys × Option Err) :=
  match require s t (leafOf off) o.last with
  | none => none
  | some (s1, some e) => some (s1, some e)
  | some (s1, none) =>
    match o.resolve with
    | some e => some (s1, some e)
    | none =>
      let v := s1.vs t
      if ¬ (isBk t ∧ v.nused (leafOf off) ≥ LBK ∧ v.nused (leafOf off) ≤ SPAN) then none
      else
        let v' : VSpace := { v with bk := upd v.bk (lbaOf off)
                                            ((v.bk (lbaOf off)).ref t (kbnOf off)) }
        some ({ s1 with vs := upd s1.vs t v' }, none)

/-- spac_rescan_free_vspace, lib/claim.c:593-612: stage (never create) the leaves
from offset 0 upward, moving the hint, until one has free space. -/
def rescanLoop (t : Nat) (req : Nat → ReqO) : (fuel i : Nat) → (s : Sys) → (voff : Nat) →
    Sys × Except Err Nat
  | 0, _, s, _ => (s, .error .enospc)
  | fuel + 1, i, s, voff =>
    if voff < s.vend then
      match (req i).fail with
      | some e => (s, .error e)
      | none =>
        if (s.vs t).spawned (leafOf voff) then
          let v := s.vs t
          let s1 := { s with vs := upd s.vs t { v with cache := { v.cache with hint := voff } } }
          match sliFindFree v t (leafOf voff) voff with
          | some off =>
            if off + ltypeSize t ≤ s1.vend then (s1, .ok off)
            else rescanLoop t req fuel (i + 1) s1 ((voff + SPAN) / SPAN * SPAN)
          | none => rescanLoop t req fuel (i + 1) s1 ((voff + SPAN) / SPAN * SPAN)
        else (s, .error .enoent)
    else (s, .error .enospc)

/-- reload_free_vspace for one kind at mount time (lib/execlib.c:783-816,
silofs_rescan_vspace_of lib/claim.c:614-626): it runs right after the caches were
dropped (lib/execlib.c:818-829). -/
def remount (s : Sys) (t : Nat) (o : Oracle) : Option Sys :=
  let v := s.vs t
  let s0 := { s with vs := upd s.vs t { v with cache := { clear v.cache with hint := 0 } } }
  match rescanLoop t o.req (s.vend + 1) 0 s0 0 with
  | (s1, .error _) => some s1
  | (s1, .ok off) =>
    match recache (s1.vs t) t off o.newM o.newI with
    | none => none
    | some v2 => some { s1 with vs := upd s1.vs t v2 }

/-- silofs_sli_clear_unwritten_at, lib/spmaps.c:1335-1344. -/
def clearUnwritten (s : Sys) (t off : Nat) : Sys :=
  let v := s.vs t
  let b := v.bk (lbaOf off)
  if b.testUnwr (kbnOf off) (nkbs t) then
    { s with vs := upd s.vs t { v with bk := upd v.bk (lbaOf off)
                                               (b.clearUnwr (kbnOf off) (nkbs t)) } }
  else s

/-- silofs_sli_mark_unwritten_at, lib/spmaps.c:1346-1355. -/
def markUnwritten (s : Sys) (t off : Nat) : Sys :=
  let v := s.vs t
  let b := v.bk (lbaOf off)
  if !b.testUnwr (kbnOf off) (nkbs t) then
    { s with vs := upd s.vs t { v with bk := upd v.bk (lbaOf off)
                                               (b.setUnwr (kbnOf off) (nkbs t)) } }
  else s

/-- Σ of the block usage counts of leaf `k`; spleaf_calc_total_usecnt,
lib/spmaps.c:952-963. -/
def leafUsecnt (bk : Nat → Bkr) (k : Nat) : Nat :=
  ((List.range NBK).map fun bn => (bk (k * NBK + bn)).usecnt).sum

/-- Eviction of a space leaf and re-loading it from storage: the only state not
stored is the byte counter, recomputed by silofs_sli_update_nused,
lib/spmaps.c:1150-1154. -/
def reload (s : Sys) (t k : Nat) : Sys :=
  let v := s.vs t
  { s with vs := upd s.vs t { v with nused := upd v.nused k (leafUsecnt v.bk k * KB) } }

/-- silofs_sti_renew_stats, lib/stats.c:553-561: on snapshot the current gauges
are moved into the base gauges. -/
def renewStats (s : Sys) : Sys :=
  { s with objsBase := fun t => s.objsBase t + s.objs t, objs := fun _ => 0, bks := fun _ => 0 }

/-- The empty allocator (a formatted file-system before the first claim). -/
def initSys (cap vend capMax speSize : Nat) : Sys :=
  { vs := fun t => { spawned := fun _ => false, bk := fun _ => Bkr.init, nused := fun _ => 0
                     cache := { ulen := ltypeSize t, capMax := capMax, speSize := speSize } }
    objs := fun _ => 0, objsBase := fun _ => 0, bks := fun _ => 0, cap := cap, vend := vend }

/-! ### Gauges, lib/stats.c:29-55 -/

/-- silofs_cpu_to_gauge (before the byte-order conversion). -/
def gaugeEnc (k : Int) : Nat := if k < 0 then (-k).toNat + 9223372036854775808 else k.toNat

/-- silofs_gauge_to_cpu. -/
def gaugeDec (n : Nat) : Int :=
  if n ≥ 9223372036854775808 then - ((n - 9223372036854775808 : Nat) : Int) else (n : Int)

end Silofs.Space
