/-
Volumes, snapshots and copy-on-write of space maps and blocks: lib/vstage.c,
lib/super.c:839-852 and 1003-1018, lib/fsenv.c:582-641, lib/namei.c:2281-2415,
lib/flush.c:476-530.

A block or space-map node is stored at an address that its volume id, its level and
its position in the address space determine (vstage.c:427-447), so a reference is a
volume id.  Level 0 is the space node below the super block, levels 1 to 3 the other
space nodes, level 4 the space leaf, level 5 a 64K block.  Each node has 256 children.
One address space (one type of objects) is modelled; a block holds `per` objects,
and `big` says that they are 64K data blocks.

Simplifications: the cache of space-map nodes is transparent; allocation is one mark
per object (Space.lean models the bitmaps); a request that fails on the way is a
history of the shorter steps listed in `Step`; a failure between claiming and
staging a new object is not modelled.
-/
namespace Silofs.Snap

/-- Volume id (`silofs_lvid`), random and unique. -/
abbrev Lvid := Nat

/-- Space-map node: references to its children, and for a leaf the allocated objects
(slot, position in the block). -/
structure UNode where
  child : Nat → Option Lvid := fun _ => none
  used : Nat → Nat → Bool := fun _ _ => false

/-- Super block: root of the space maps, and the flag set by a fork (fsenv.c:600-603). -/
structure Vol where
  root : Option Lvid := none
  fossil : Bool := false

/-- Cached object: content, volume its address is in, dirty mark. -/
structure Ent where
  val : Nat → Nat
  link : Lvid
  dirty : Bool

/-- All storage of a repository and the cache of the mounted volume `cur`. -/
structure St where
  vol : Lvid → Option Vol
  un : Lvid → Nat → Nat → UNode
  dat : Lvid → Nat → Nat → Nat → Nat
  cur : Lvid
  cache : Nat → Nat → Option Ent
  big : Bool := false
  per : Nat := 1

/-! ### Resolving -/

/-- Volume in which node `i` of level `k` is stored, from a root: vstage.c:1777-1840,
spmaps.c `silofs_sni_resolve_child`, `silofs_sli_resolve_child`. -/
def walk (un : Lvid → Nat → Nat → UNode) (root : Option Lvid) : Nat → Nat → Option Lvid
  | 0, i => if i = 0 then root else none
  | k + 1, i =>
    match walk un root k (i / 256) with
    | none => none
    | some w => (un w k (i / 256)).child (i % 256)

/-- Root of a volume. -/
def St.root (s : St) (v : Lvid) : Option Lvid := (s.vol v).bind (·.root)

/-- Where volume `v` finds node `i` of level `k`. -/
def St.loc (s : St) (v : Lvid) (k i : Nat) : Option Lvid := walk s.un (s.root v) k i

/-- Object `j` of block `b` is allocated in volume `v`. -/
def St.used (s : St) (v : Lvid) (b j : Nat) : Bool :=
  decide (j < s.per) &&
    match s.loc v 4 (b / 256) with
    | none => false
    | some w => (s.un w 4 (b / 256)).used (b % 256) j

/-- Stored content of an object of volume `v`. -/
def St.disk (s : St) (v : Lvid) (b j : Nat) : Option (Nat → Nat) :=
  (s.loc v 5 b).map fun w => s.dat w b j

/-- super.c:686-698 `silof_sbi_check_mut_fs`, the mount flags left out. -/
def St.mut (s : St) : Bool :=
  match s.vol s.cur with
  | none => false
  | some V => !V.fossil

/-! ### Updates -/

def St.setUn (s : St) (k i : Nat) (n : UNode) : St :=
  { s with un := fun v k' i' => if v = s.cur ∧ k' = k ∧ i' = i then n else s.un v k' i' }

def St.setRoot (s : St) : St :=
  { s with vol := fun v => if v = s.cur then (s.vol v).map fun V => { V with root := some s.cur } else s.vol v }

def St.setCache (s : St) (b j : Nat) (e : Option Ent) : St :=
  { s with cache := fun b' j' => if b' = b ∧ j' = j then e else s.cache b' j' }

/-- Bind a child of a node of the mounted volume to that volume (`silofs_sni_bind_child`,
`silofs_sli_bind_child`). -/
def St.bind (s : St) (k i c : Nat) : St :=
  s.setUn k i { s.un s.cur k i with
    child := fun c' => if c' = c then some s.cur else (s.un s.cur k i).child c' }

/-- A new node (`silofs_sni_setup_spawned`); a new leaf has all blocks bound to the volume
(vstage.c:1577-1607, `spleaf_bind_bks_to_main`). -/
def freshNode (v : Lvid) (k : Nat) : UNode :=
  { child := fun _ => if k = 4 then some v else none }

/-! ### Copy-on-write of the space maps -/

/-- vstage.c:813-1730: make the nodes from the root down to node `i` of level `k` belong to the
mounted volume.  A node of another volume is copied and rebound (`silofs_sni_clone_from`,
`silofs_sli_clone_from`); a missing node is created if `mk` (`vstgc_require_…`), otherwise it is
an error. -/
def cow (mk : Bool) : Nat → Nat → St → St × Bool
  | 0, i, s =>
    if i = 0 then
      match s.root s.cur with
      | some w => if w = s.cur then (s, true) else ((s.setUn 0 0 (s.un w 0 0)).setRoot, true)
      | none => if mk then ((s.setUn 0 0 (freshNode s.cur 0)).setRoot, true) else (s, false)
    else (s, false)
  | k + 1, i, s =>
    match cow mk k (i / 256) s with
    | (s', false) => (s', false)
    | (s', true) =>
      match (s'.un s'.cur k (i / 256)).child (i % 256) with
      | some w =>
        if w = s'.cur then (s', true)
        else ((s'.setUn (k + 1) i (s'.un w (k + 1) i)).bind k (i / 256) (i % 256), true)
      | none =>
        if mk then ((s'.setUn (k + 1) i (freshNode s'.cur (k + 1))).bind k (i / 256) (i % 256), true)
        else (s', false)

/-! ### Objects -/

/-- vstage.c:2355-2396 `vstgc_stage_vnode_at` in mode CUR, with 2431-2443 and 2509-2523: load an
allocated object unless it is cached. -/
def load (b j : Nat) (s : St) : Option St :=
  match s.cache b j with
  | some _ => some s
  | none =>
    if s.used s.cur b j then
      match s.loc s.cur 5 b with
      | none => none
      | some w => some (s.setCache b j (some ⟨s.dat w b j, w, false⟩))
    else none

/-- vstage.c:2200-2222 `vstgc_pre_clone_stage_at`: object `j'` of the block is not loaded when it is
the one being staged and is a new object or a 64K data block; neither is the object at
offset 0. -/
def skip (raw : Bool) (b j j' : Nat) (s : St) : Bool :=
  (b == 0 && j' == 0) || (j' == j && (raw || s.big))

/-- vstage.c:2224-2246 `vstgc_do_pre_clone_lbk`, over the first `n` objects of the block. -/
def preClone (raw : Bool) (b j : Nat) : Nat → St → Option St
  | 0, s => some s
  | n + 1, s =>
    match preClone raw b j n s with
    | none => none
    | some s' =>
      if s'.used s'.cur b n && !skip raw b j n s' then load b n s' else some s'

/-- vstage.c:2265-2280 `vstgc_post_clone_lbk`: mark the loaded objects dirty. -/
def redirty (raw : Bool) (b j : Nat) (s : St) : St :=
  { s with cache := fun b' j' =>
      if b' = b ∧ j' < s.per ∧ s.used s.cur b j' ∧ skip raw b j j' s = false then
        (s.cache b' j').map fun e => { e with dirty := true }
      else s.cache b' j' }

/-- vstage.c:2302-2333 `vstgc_resolve_inspect_llink` in mode COW with 2282-2300
`vstgc_clone_lbk_of`: make the block of an object belong to the mounted volume.  The block
is rebound, not copied; the loaded objects will be written to the new place. -/
def cowBlk (raw : Bool) (b j : Nat) (s : St) : Option St :=
  match cow false 4 (b / 256) s with
  | (_, false) => none
  | (s1, true) =>
    match (s1.un s1.cur 4 (b / 256)).child (b % 256) with
    | none => none
    | some w =>
      if w = s1.cur then some s1
      else
        match preClone raw b j s1.per s1 with
        | none => none
        | some s2 => some (redirty raw b j (s2.bind 4 (b / 256) (b % 256)))

/-- The state when the rebinding fails after the objects were loaded
(vstage.c:2282-2293: they are marked dirty all the same). -/
def failClone (raw : Bool) (b j : Nat) (s : St) : Option St :=
  match cow false 4 (b / 256) s with
  | (_, false) => none
  | (s1, true) =>
    match preClone raw b j s1.per s1 with
    | none => none
    | some s2 => some (redirty raw b j s2)

/-- vstage.c:2446-2558 `silofs_stage_vnode` in mode COW: a cached object whose address is in
the mounted volume is used as it is; otherwise its block is made mutable, and the object is
read from the block if it is still not cached. -/
def stageCow (raw : Bool) (b j : Nat) (s : St) : Option St :=
  match s.cache b j with
  | some e =>
    if e.link = s.cur then some s
    else
      match cowBlk raw b j s with
      | none => none
      | some s' => some (s'.setCache b j ((s'.cache b j).map fun e => { e with link := s'.cur }))
  | none =>
    if s.used s.cur b j then
      match cowBlk raw b j s with
      | none => none
      | some s' =>
        some (s'.setCache b j
          (match s'.cache b j with
          | some e => some { e with link := s'.cur }
          | none => some ⟨if raw then fun _ => 0 else s'.dat s'.cur b j, s'.cur, false⟩))
    else none

/-- Change the content of a staged object and mark it dirty. -/
def update (b j : Nat) (g : (Nat → Nat) → Nat → Nat) (s : St) : St :=
  s.setCache b j ((s.cache b j).map fun e => { e with val := g e.val, dirty := true })

/-- Modify an object: stage for writing, then change it. -/
def write (b j : Nat) (g : (Nat → Nat) → Nat → Nat) (s : St) : Option St :=
  (stageCow false b j s).map (update b j g)

/-- Allocation mark of an object in the leaf of the mounted volume. -/
def setUsed (b j : Nat) (x : Bool) (s : St) : St :=
  s.setUn 4 (b / 256) { s.un s.cur 4 (b / 256) with
    used := fun c j' => if c = b % 256 ∧ j' = j then x else (s.un s.cur 4 (b / 256)).used c j' }

/-- vstage.c:2743-2762 `do_spawn_vnode`: claim an unused object, stage it, mark it dirty. -/
def spawn (b j : Nat) (s : St) : Option St :=
  match cow true 4 (b / 256) s with
  | (_, false) => none
  | (s1, true) =>
    if s1.used s1.cur b j || s1.per ≤ j then none
    else (stageCow true b j (setUsed b j true s1)).map (update b j id)

/-- vstage.c:2848-2913 `silofs_remove_vnode_at`: make the block mutable, clear the
allocation mark, forget the cached object. -/
def free (b j : Nat) (s : St) : Option St :=
  match cowBlk false b j s with
  | none => none
  | some s' => if s'.used s'.cur b j then some ((setUsed b j false s').setCache b j none) else none

/-- flush.c:476-530 and vstage.c:2949-2968 `silofs_refresh_llink`, for one dirty object: the
address must be in the mounted volume. -/
def flush (b j : Nat) (s : St) : Option St :=
  match s.cache b j with
  | none => none
  | some e =>
    if e.dirty then
      if e.link = s.cur ∨ s.loc s.cur 5 b = some s.cur then
        some { s.setCache b j (some { e with link := s.cur, dirty := false }) with
          dat := fun v b' j' => if v = s.cur ∧ b' = b ∧ j' = j then e.val else s.dat v b' j' }
      else none
    else none

/-- Evict a clean object (lcache.c). -/
def evict (b j : Nat) (s : St) : Option St :=
  match s.cache b j with
  | none => none
  | some e => if e.dirty then none else some (s.setCache b j none)

/-- fsenv.c:619-641 `silofs_fsenv_forkfs` with super.c:1003-1018: two new volumes with the
maps of the mounted one, which becomes a fossil; the second is mounted. -/
def fork (a n : Lvid) (s : St) : St :=
  { s with
    vol := fun v => if v = a ∨ v = n then some { root := s.root s.cur }
      else if v = s.cur then (s.vol v).map fun V => { V with fossil := true } else s.vol v
    cur := n }

/-- Unmount and mount another volume. -/
def mount (v : Lvid) (s : St) : St := { s with cur := v, cache := fun _ _ => none }

/-- No dirty object. -/
def St.clean (s : St) : Prop := ∀ b j e, s.cache b j = some e → e.dirty = false

/-- What a user asked for.  `touch` only makes the block of an object mutable: file.c:925-931
`filc_require_mut_vaddr`, and writes that fail later. -/
inductive Act where
  | internal
  | touch (b j : Nat)
  | write (b j : Nat) (g : (Nat → Nat) → Nat → Nat)
  | spawn (b j : Nat)
  | free (b j : Nat)
  | fork (a n : Lvid)
  | mount (v : Lvid)

/-- One step.  Internal steps happen as part of requests, also of failing ones, and in the
background. -/
inductive Step : Act → St → St → Prop
  | cow {s : St} (mk : Bool) (k i : Nat) (h : s.mut = true) (hk : k ≤ 4) : Step .internal s (cow mk k i s).1
  | load {s s' : St} (b j : Nat) (h : load b j s = some s') : Step .internal s s'
  | touch {s s' : St} (b j : Nat) (h : s.mut = true) (hs : cowBlk false b j s = some s') : Step (.touch b j) s s'
  | failClone {s s' : St} (raw : Bool) (b j : Nat) (h : s.mut = true) (hs : failClone raw b j s = some s') :
      Step .internal s s'
  | flush {s s' : St} (b j : Nat) (h : flush b j s = some s') : Step .internal s s'
  | evict {s s' : St} (b j : Nat) (h : evict b j s = some s') : Step .internal s s'
  | write {s s' : St} (b j : Nat) (g) (h : s.mut = true) (hs : write b j g s = some s') : Step (.write b j g) s s'
  | spawn {s s' : St} (b j : Nat) (h : s.mut = true) (hs : spawn b j s = some s') : Step (.spawn b j) s s'
  | free {s s' : St} (b j : Nat) (h : s.mut = true) (hs : free b j s = some s') : Step (.free b j) s s'
  | fork {s : St} (a n : Lvid) (h : s.mut = true) (hc : s.clean) (ha : s.vol a = none) (hn : s.vol n = none)
      (hne : a ≠ n) : Step (.fork a n) s (fork a n s)
  | mount {s : St} (v : Lvid) (hc : s.clean) (hv : (s.vol v).isSome) : Step (.mount v) s (mount v s)

end Silofs.Snap
