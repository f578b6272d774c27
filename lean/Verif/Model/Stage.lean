/-
Bringing space maps and objects into memory, and letting a volume grow: lib/ustage.c, lib/vstage.c,
with the segment files of the repository they create and read.

Levels as in Snap.lean: 0 is the space node below the super block, 1 to 3 the other space nodes, 4 the
space leaf, 5 a 64K block; node `i` of level `k` has 256 children and is child `i % 256` of node
`i / 256`.  A node of volume `v` is stored at an address given by `v`, its level and its index
(vstage.c:426-447), so a reference is a volume id.  The nodes of level `k` of volume `v` below parent `p`
are stored in one segment file `(v, k, p)`; `main` of a node (or of the super block) says that it has
recorded the segment of its own children.

One address space is modelled.  A file which was created is sparse and as long as it may get
(repo.c:1704), so it reads as zeros.  Calls to the storage take their outcome from the list `io`
(0 or the end of the list is success).  Simplifications: memory is found for every node and range entry
(C55 has the failing case), and the retries after a shortage are left out; nodes are not evicted within
a request (C56 has the pointers), but between any two.
-/
namespace Silofs.Stage

/-- `SILOFS_ENOENT`, `SILOFS_EEXIST`, `SILOFS_ERANGE`, `SILOFS_EFSCORRUPTED`, `SILOFS_EPERM`. -/
def ENOENT : Nat := 1002
def EEXIST : Nat := 1017
def ERANGE : Nat := 1034
def EFSCORRUPTED : Nat := 10002
def EPERM : Nat := 1001

/-- Space-map node: own segment for its children recorded, references to the children, and for a leaf
the allocated blocks. -/
structure Node where
  main : Bool := false
  child : Nat → Option Nat := fun _ => none
  used : Nat → Bool := fun _ => false

/-- Node in memory. -/
structure Ent where
  n : Node
  dirty : Bool

/-- Super block, as far as one address space is concerned. -/
structure Sb where
  root : Option Nat := none
  main : Bool := false

/-- `mem`, `rng`, `sb`, `sbDirty`: in memory (nodes by address, addresses by range with the newest first,
the super block of the mounted volume `cur`).  `dsk`, `seg`, `dat`, `sbD`: on storage (nodes, `none`
when the place does not hold a valid one; segment files; encrypted blocks; super blocks).  `half`
remembers which leaves were left half-made; nothing looks at it. -/
structure St where
  cur : Nat
  sb : Sb
  sbDirty : Bool
  mem : Nat → Nat → Nat → Option Ent
  rng : Nat → Nat → List Nat
  sbD : Nat → Sb
  dsk : Nat → Nat → Nat → Option Node
  seg : Nat → Nat → Nat → Bool
  dat : Nat → Nat → Nat
  io : List Nat := []
  half : Nat → Bool := fun _ => false

/-- Outcome of a function that returns an error code. -/
inductive Res (α : Type) where
  | ok (a : α)
  | err (e : Nat)
  deriving DecidableEq

abbrev M (α : Type) := St → Res α × St

def M.pure (a : α) : M α := fun s => (.ok a, s)

/-- `if (err) return err;` -/
def M.bind (m : M α) (f : α → M β) : M β := fun s =>
  match m s with
  | (.ok a, s') => f a s'
  | (.err e, s') => (.err e, s')

instance : Monad M where
  pure := M.pure
  bind := M.bind

def fail (e : Nat) : M α := fun s => (.err e, s)
def upd (f : St → St) : M Unit := fun s => (.ok (), f s)
def get (f : St → α) : M α := fun s => (.ok (f s), s)

/-- A call to the storage. -/
def sys : M Unit := fun s =>
  match s.io with
  | [] => (.ok (), s)
  | e :: io => (if e = 0 then .ok () else .err e, { s with io })

/-! ### Segment files -/

/-- The file of a segment is made: all zeros, so that no node in it is valid. -/
def St.mkSeg (s : St) (v k p : Nat) : St :=
  { s with
    seg := fun v' k' p' => if v' = v ∧ k' = k ∧ p' = p then true else s.seg v' k' p'
    dsk := fun v' k' i' => if v' = v ∧ k' = k ∧ i' / 256 = p then none else s.dsk v' k' i'
    dat := fun v' b' => if v' = v ∧ k = 5 ∧ b' / 256 = p then 0 else s.dat v' b' }

/-- ustage.c:697-711 `silofs_stage_lseg`, 227-238: the file must be there. -/
def stageLseg (v k p : Nat) : M Unit := do
  sys
  if (← get (·.seg v k p)) then pure () else fail ENOENT

/-- ustage.c:666-695 `require_no_lseg`, `silofs_spawn_lseg`, repo.c:1662-1710: the file must not be there.
When its size cannot be set it is removed again. -/
def spawnLseg (v k p : Nat) : M Unit := do
  if (← get (·.seg v k p)) then fail EEXIST
  sys
  upd (·.mkSeg v k p)

/-- ustage.c:252-264 `require_lseg`, and repo.c:2625-2638 `repo_do_require_lseg` with 2651-2670
`repo_do_require_laddr`: a missing file is made. -/
def requireLseg (v k p : Nat) : M Unit := do
  if (← get (·.seg v k p)) then sys
  else do
    sys
    upd (·.mkSeg v k p)

/-! ### Nodes in memory -/

def St.setMem (s : St) (v k i : Nat) (e : Option Ent) : St :=
  { s with mem := fun v' k' i' => if v' = v ∧ k' = k ∧ i' = i then e else s.mem v' k' i' }

/-- lcache.c:276-280 `lcache_track_uaddr`: the newest address of the range. -/
def St.push (s : St) (v k i : Nat) : St :=
  { s with rng := fun k' i' => if k' = k ∧ i' = i then v :: s.rng k i else s.rng k' i' }

/-- lcache.c:298-308 `lcache_track_uaddr_of`, upon each look-up. -/
def St.track (s : St) (v k i : Nat) : St :=
  if s.rng k i = [] then s.push v k i else s

/-- lcache.c:390-395 `lcache_forget_uni`: all addresses of the range, and the node. -/
def St.forget (s : St) (v k i : Nat) : St :=
  { s.setMem v k i none with
    rng := fun k' i' => if k' = k ∧ i' = i then [] else s.rng k' i' }

/-- Change of a node in memory, with the mark that it is to be written. -/
def St.modNode (s : St) (v k i : Nat) (f : Node → Node) : St :=
  match s.mem v k i with
  | none => s
  | some e => s.setMem v k i (some ⟨f e.n, true⟩)

/-- What `stage_spnode_at` and `stage_spleaf_at` do for a node that is not in memory: segment, read,
decrypt and verify (ustage.c:496-534, 617-655). -/
def loadU (v k i : Nat) : M Node := do
  requireLseg v k (i / 256)
  sys
  match (← get (·.dsk v k i)) with
  | none => fail EFSCORRUPTED
  | some n => pure n

/-- ustage.c:496-534 `stage_spnode_at`, 617-655 `stage_spleaf_at`.  The node is created in memory before
it is loaded, and forgotten when that fails. -/
def stageU (v k i : Nat) : M Unit := fun s =>
  match s.mem v k i with
  | some _ => (.ok (), s.track v k i)
  | none =>
    match loadU v k i s with
    | (.err e, s') => (.err e, s'.forget v k i)
    | (.ok n, s') => (.ok (), (s'.push v k i).setMem v k i (some ⟨n, false⟩))

/-- ustage.c:448-474 `spawn_spnode_at`, 569-595 `spawn_spleaf_at`, followed by the callers'
`silofs_sni_setup_spawned` (spmaps.c:1527-1539) or `silofs_sli_setup_spawned` (1128-1140), which clear the
node whether it was in memory or not. -/
def spawnU (v k i : Nat) : M Unit := fun s =>
  match s.mem v k i with
  | some _ => (.ok (), (s.track v k i).setMem v k i (some ⟨{}, true⟩))
  | none =>
    match requireLseg v k (i / 256) s with
    | (.err e, s') => (.err e, s'.forget v k i)
    | (.ok _, s') => (.ok (), (s'.push v k i).setMem v k i (some ⟨{}, true⟩))

/-! ### The parent: super block for level 0, else the node of volume `pv` -/

def St.getMain (s : St) (pv k p : Nat) : Bool :=
  match k with
  | 0 => s.sb.main
  | k + 1 => match s.mem pv k p with
    | none => false
    | some e => e.n.main

/-- super.c:734-740 `silofs_sbi_bind_main_lseg`, spmaps.c:1652-1657 `silofs_sni_bind_main_lseg`. -/
def St.setMain (s : St) (pv k p : Nat) : St :=
  match k with
  | 0 => { s with sb := { s.sb with main := true }, sbDirty := true }
  | k + 1 => s.modNode pv k p fun n => { n with main := true }

/-- super.c:822-829 `silofs_sbi_resolve_child`, spmaps.c:1632-1644 `silofs_sni_resolve_child`. -/
def St.getChild (s : St) (pv k i : Nat) : Option Nat :=
  match k with
  | 0 => s.sb.root
  | k + 1 => match s.mem pv k (i / 256) with
    | none => none
    | some e => e.n.child (i % 256)

/-- super.c:831-837 `silofs_sbi_bind_child`, spmaps.c:1556-1568 `silofs_sni_bind_child`. -/
def St.setChild (s : St) (pv k i c : Nat) : St :=
  match k with
  | 0 => { s with sb := { s.sb with root := some c }, sbDirty := true }
  | k + 1 => s.modNode pv k (i / 256) fun n =>
      { n with child := fun j => if j = i % 256 then some c else n.child j }

/-- vstage.c:460-497 `vstgc_require_super_main_lseg`, 501-542 `vstgc_require_spnode_main_lseg`: the segment
of the parent's children, which is made when the parent has not recorded it. -/
def requireMain (pv k p : Nat) : M Unit := do
  let cur ← get (·.cur)
  if (← get (·.getMain pv k p)) then stageLseg cur k p
  else do
    spawnLseg cur k p
    upd (·.setMain pv k p)

/-- spmaps.c:1370-1376 `silofs_sli_bind_main_lseg`: all blocks of the leaf are those of its segment. -/
def bindBlocks (v : Nat) (n : Node) : Node := { n with main := true, child := fun _ => some v }

/-- vstage.c:1579-1611 `vstgc_require_spleaf_main_lseg`, on a leaf of the mounted volume: here a file left
over is taken. -/
def leafMain (i : Nat) : M Unit := do
  let cur ← get (·.cur)
  if (← get (·.getMain cur 5 i)) then stageLseg cur 5 i
  else do
    requireLseg cur 5 i
    upd (·.modNode cur 4 i (bindBlocks cur))

/-- A failure here leaves the new leaf in memory (vstage.c:1618-1627). -/
def leafMain' (i : Nat) : M Unit := fun s =>
  match leafMain i s with
  | (.err e, s') => (.err e, { s' with half := fun j => j == i || s'.half j })
  | r => r

/-- vstage.c:821-840 `vstgc_spawn_spnode4_of` and its copies for the other levels (1009-1028, 1192-1211,
1375-1394), 1558-1577 `vstgc_spawn_spleaf_of`; for a leaf also 1613-1628 `vstgc_spawn_spleaf`. -/
def spawnNode (pv k i : Nat) : M Unit := do
  requireMain pv k (i / 256)
  spawnU (← get (·.cur)) k i
  if k = 4 then leafMain' i else pure ()

/-- spmaps.c:1695-1702 `silofs_sni_clone_from`, 1378-1385 `silofs_sli_clone_from`: the references and marks of
the old node; `main` stays that of the new one. -/
def cloneFrom (old n : Node) : Node := { n with child := old.child, used := old.used }

/-- vstage.c:855-880 `vstgc_clone_spnode4` and its copies, 1630-1655 `vstgc_clone_spleaf`.  The old node
is referred to meanwhile, so it is in memory. -/
def cloneNode (pv k i w : Nat) : M Unit := do
  let old ← get (·.mem w k i)
  spawnNode pv k i
  let cur ← get (·.cur)
  match old with
  | none => pure ()
  | some e => upd (·.modNode cur k i (cloneFrom e.n))
  upd (·.setChild pv k i cur)

/-- vstage.c:636-671 `vstgc_fetch_cached_spnode`, `vstgc_fetch_cached_spleaf` with lcache.c:403-415
`lcache_find_uni_by`: a node of the range that is in memory, and in mode COW is of the mounted volume. -/
def St.fetch (s : St) (cow : Bool) (k i : Nat) : Option Nat :=
  match s.rng k i with
  | [] => none
  | v :: _ =>
    match s.mem v k i with
    | none => none
    | some _ => if cow = true ∧ v ≠ s.cur then none else some v

/-- vstage.c:888-915 `vstgc_do_stage_spnode4` and its copies (1076-1102, 1259-1285, 1442-1468),
1657-1683 `vstgc_do_stage_spleaf`: by the reference in the parent; in mode COW a node of another volume is
cloned. -/
def stageDown (cow : Bool) (pv k i : Nat) : M Nat := do
  match (← get (·.getChild pv k i)) with
  | none => fail (if k = 0 then EFSCORRUPTED else ENOENT)
  | some w =>
    stageU w k i
    let cur ← get (·.cur)
    if cow = true ∧ w ≠ cur then do
      cloneNode pv k i w
      pure cur
    else pure w

/-- vstage.c:933-942 `vstgc_stage_spnode4_of` and its copies, 1700-1709. -/
def stageNode (cow : Bool) (pv k i : Nat) : M Nat := do
  match (← get (·.fetch cow k i)) with
  | some v => pure v
  | none => stageDown cow pv k i

/-- vstage.c:1778-1799 `vstgc_stage_spnodes_of`, 1826-1839 `vstgc_stage_spmaps_of`, down to level `k`.  An
offset beyond the range of the root is refused (spmaps.c:1632-1644). -/
def stagePath (cow : Bool) : Nat → Nat → M Nat
  | 0, i => if i = 0 then stageNode cow 0 0 0 else fail ERANGE
  | k + 1, i => do
    let pv ← stagePath cow k (i / 256)
    stageNode cow pv (k + 1) i

/-- vstage.c:944-976 `vstgc_do_require_spnode4` and its copies, 1734-1764 `vstgc_do_require_spleaf`: stage
the child, or make one. -/
def requireDown (pv k i : Nat) : M Nat := do
  match (← get (·.getChild pv k i)) with
  | some _ => stageNode true pv k i
  | none => do
    spawnNode pv k i
    let cur ← get (·.cur)
    upd (·.setChild pv k i cur)
    pure cur

/-- vstage.c:988-997 `vstgc_require_spnode4_of` and its copies; a leaf (1766-1774) is not looked up first. -/
def requireNode (pv k i : Nat) : M Nat := do
  match (← get fun s => if k < 4 then s.fetch true k i else none) with
  | some v => pure v
  | none => requireDown pv k i

/-- vstage.c:1934-1959 `silofs_require_spmaps_of`, 1801-1822: the maps for leaf `i` come into being. -/
def requirePath : Nat → Nat → M Nat
  | 0, i => if i = 0 then requireNode 0 0 0 else fail ERANGE
  | k + 1, i => do
    let pv ← requirePath k (i / 256)
    requireNode pv (k + 1) i

/-! ### Objects -/

/-- Decryption of what is stored, and verification by kind (`silofs_lni_verify_view`; data blocks have no
header to verify). -/
structure Kind where
  dec : Nat → Nat
  good : Nat → Bool

/-- vstage.c:1961-1990 `require_stable_at`. -/
def requireStable (b : Nat) : M Unit := do
  let v ← stagePath false 4 (b / 256)
  let e ← get (·.mem v 4 (b / 256))
  match e with
  | none => fail EFSCORRUPTED
  | some e => if e.n.used (b % 256) then pure () else fail EFSCORRUPTED

/-- vstage.c:1841-1886 `vstgc_resolve_llink`, in mode CUR: the volume that block `b` is stored in. -/
def resolve (b : Nat) : M Nat := do
  let v ← match (← get (·.fetch false 4 (b / 256))) with
    | some v => pure v
    | none => stagePath false 4 (b / 256)
  let e ← get (·.mem v 4 (b / 256))
  match e with
  | none => fail ENOENT
  | some e => match e.n.child (b % 256) with
    | none => fail ENOENT
    | some w => pure w

/-- vstage.c:2355-2396 `vstgc_stage_vnode_at` with 2058-2095 and 296-317, in mode CUR, after 2459-2475: an object
that is not in memory.  The segment file is made when it is missing. -/
def readObj (K : Kind) (b : Nat) : M Nat := do
  requireStable b
  let w ← resolve b
  requireLseg w 5 (b / 256)
  sys
  let c ← get (·.dat w b)
  if K.good (K.dec c) then pure (K.dec c) else fail EFSCORRUPTED

/-- file.c:1912-1940 `filc_read_from_leaf`, 1975-1992 `filc_read_by_tree`: content of a leaf that the file
refers to; ENOENT is taken for a hole. -/
def readLeaf (K : Kind) (b : Nat) : M Nat := fun s =>
  match readObj K b s with
  | (.err e, s') => if e = ENOENT then (.ok 0, s') else (.err e, s')
  | r => r

/-! ### Everything that happens to a volume -/

/-- One block of a leaf in memory is marked allocated or free (claim.c:115-123). -/
def St.mark (s : St) (v i j : Nat) (x : Bool) : St :=
  s.modNode v 4 i fun n => { n with used := fun j' => if j' = j then x else n.used j' }

/-- vstage.c:2138-2154 `vstgc_clone_rebind_lbk`: a block of a leaf of the mounted volume is moved to the
leaf's own segment before it is written. -/
def St.rebind (s : St) (i j : Nat) : St :=
  if s.getMain s.cur 5 i then
    s.modNode s.cur 4 i fun n => { n with child := fun j' => if j' = j then some s.cur else n.child j' }
  else s

/-- A block is written to its segment. -/
def St.put (s : St) (v b c : Nat) : St :=
  if s.seg v 5 (b / 256) then { s with dat := fun v' b' => if v' = v ∧ b' = b then c else s.dat v' b' }
  else s

/-- Nothing in memory is newer than storage. -/
def St.clean (s : St) : Prop := s.sbDirty = false ∧ ∀ v k i e, s.mem v k i = some e → e.dirty = false

/-- Everything in memory is lost, and the volume mounted again. -/
def St.crash (s : St) : St :=
  { s with
    sb := s.sbD s.cur, sbDirty := false, half := fun _ => false
    mem := fun _ _ _ => none, rng := fun _ _ => [] }

/-- A segment file is lost. -/
def St.lose (s : St) (v k p : Nat) : St :=
  { s with seg := fun v' k' p' => if v' = v ∧ k' = k ∧ p' = p then false else s.seg v' k' p' }

/-- flush.c:476-541, 643-709: a node is written; its segment must be there (`flusher_prep_sqe`). -/
def St.flush (s : St) (v k i : Nat) : St :=
  match s.mem v k i with
  | none => s
  | some e =>
    if s.seg v k (i / 256) then
      { s.setMem v k i (some ⟨e.n, false⟩) with
        dsk := fun v' k' i' => if v' = v ∧ k' = k ∧ i' = i then some e.n else s.dsk v' k' i' }
    else s

def St.flushSb (s : St) : St :=
  { s with sbD := fun v => if v = s.cur then s.sb else s.sbD v, sbDirty := false }

/-- Everything is written (C39 has the order). -/
def St.flushAll (s : St) : St :=
  { s with
    mem := fun v k i => (s.mem v k i).map fun e => ⟨e.n, e.dirty && !s.seg v k (i / 256)⟩
    dsk := fun v k i =>
      match s.mem v k i with
      | none => s.dsk v k i
      | some e => if s.seg v k (i / 256) then some e.n else s.dsk v k i
    sbD := fun v => if v = s.cur then s.sb else s.sbD v, sbDirty := false }

/-- lcache.c: a clean node leaves memory.  The address of its range stays. -/
def St.evict (s : St) (v k i : Nat) : St :=
  match s.mem v k i with
  | none => s
  | some e => if e.dirty then s else s.setMem v k i none

/-- spxmap.c:916-926 `uamap_remove_lru`: the oldest address of a range is dropped. -/
def St.dropRng (s : St) (k i : Nat) : St :=
  { s with rng := fun k' i' => if k' = k ∧ i' = i then (s.rng k i).dropLast else s.rng k' i' }

/-- fsenv.c:582-643: the volume is forked: the ranges are forgotten (613-616) and a new volume with the same root
and no segments is mounted (Snap.lean has the fork in full). -/
def St.fork (s : St) (n : Nat) : St :=
  { s with
    cur := n, sb := { root := s.sb.root, main := false }, sbDirty := false, rng := fun _ _ => []
    sbD := fun v => if v = n then { root := s.sb.root, main := false } else s.sbD v }

/-- A volume was never used. -/
def St.fresh (s : St) (n : Nat) : Prop :=
  (∀ k i, s.mem n k i = none) ∧ (∀ k i, s.dsk n k i = none) ∧ ∀ k p, s.seg n k p = false

/-- Steps other than a crash; `io` is what the storage answers meanwhile. -/
inductive Step : St → St → Prop where
  | grow (i : Nat) (io : List Nat) : Step s (requirePath 4 i { s with io }).2
  | stage (cow : Bool) (i : Nat) (io : List Nat) : Step s (stagePath cow 4 i { s with io }).2
  | mark (i j : Nat) (x : Bool) : Step s (s.mark s.cur i j x)
  | rebind (i j : Nat) : Step s (s.rebind i j)
  | put (v b c : Nat) : Step s (s.put v b c)
  | flush (v k i : Nat) : Step s (s.flush v k i)
  | flushSb : Step s s.flushSb
  | flushAll : Step s s.flushAll
  | evict (v k i : Nat) : Step s (s.evict v k i)
  | dropRng (k i : Nat) : Step s (s.dropRng k i)

end Silofs.Stage
