/-
Extended attributes: lib/xattr.c.  Attributes are stored in up to eight nodes of 4K, each an array of
504 units of 8 bytes; an entry is a unit with the lengths, followed by the name and the value, both
padded to whole units.

Simplifications: access checks are in Access.lean; the name spaces `security`, `system` and `trusted`
are assumed to be allowed (`SILOFS_ENVF_ALLOWXACL`); names are not empty (the kernel and
`silofs_make_namestr` see to it); the cache holds or does not hold a node, and a node that is not
dirty may be evicted between requests.
-/
namespace Silofs.Xattr

abbrev Bytes := List Nat

/-- defs.h:299-302 -/
def nentsMax : Nat := 504
def valueMax : Nat := 2048
/-- xattr.c:643 `min(SILOFS_NAME_MAX, NAME_MAX)` -/
def nameMax : Nat := 255
/-- defs.h: slots in an inode (defs.h:788 `ix_vaddr[8]`). -/
def nslots : Nat := 8

/-- `struct silofs_xattr_node`: number of used units and their bytes. -/
structure Node where
  buf : Nat → Nat
  nents : Nat

/-! ### Entries (xattr.c:86-310) -/

/-- xattr.c:86-91 `xe_aligned_size` -/
def up8 (n : Nat) : Nat := 8 * ((n + 7) / 8)

/-- xattr.c:93-104 `xe_calc_nents` -/
def units (nameLen valSize : Nat) : Nat := 1 + (up8 nameLen + up8 valSize) / 8

/-- xattr.c:134-137 `xe_name_len` (16 bits, little endian) -/
def nameLen (buf : Nat → Nat) (u : Nat) : Nat := buf (8 * u) + 256 * buf (8 * u + 1)

/-- xattr.c:144-147 `xe_value_size` (32 bits, little endian) -/
def valSize (buf : Nat → Nat) (u : Nat) : Nat :=
  buf (8 * u + 4) + 256 * (buf (8 * u + 5) + 256 * (buf (8 * u + 6) + 256 * buf (8 * u + 7)))

/-- Bytes `[o, o + n)`. -/
def bytesAt (buf : Nat → Nat) (o n : Nat) : Bytes := (List.range n).map fun i => buf (o + i)

/-- xattr.c:154-159 `xe_name` -/
def nameOf (buf : Nat → Nat) (u : Nat) : Bytes := bytesAt buf (8 * u + 8) (nameLen buf u)

/-- xattr.c:161-166 `xe_value` -/
def valueOf (buf : Nat → Nat) (u : Nat) : Bytes :=
  bytesAt buf (8 * u + 8 + up8 (nameLen buf u)) (valSize buf u)

/-- xattr.c:175-178 `xe_nents` -/
def entUnits (buf : Nat → Nat) (u : Nat) : Nat := units (nameLen buf u) (valSize buf u)

/-- xattr.c:168-173 `xe_has_name` -/
def hasName (buf : Nat → Nat) (u : Nat) (name : Bytes) : Bool :=
  name.length == nameLen buf u && bytesAt buf (8 * u + 8) name.length == name

/-- xattr.c:226-238 `xe_search` -/
def search (buf : Nat → Nat) (name : Bytes) (u tip : Nat) : Option Nat :=
  if u < tip then
    if hasName buf u name then some u else search buf name (u + entUnits buf u) tip
  else none
termination_by tip - u
decreasing_by
  have : 1 ≤ entUnits buf u := by unfold entUnits units; omega
  omega

/-- `memcpy` into the node. -/
def blit (buf : Nat → Nat) (o : Nat) (bs : Bytes) : Nat → Nat :=
  fun x => if o ≤ x ∧ x < o + bs.length then bs.getD (x - o) 0 else buf x

/-- xattr.c:185-195 `xe_assign` -/
def assign (buf : Nat → Nat) (u : Nat) (name value : Bytes) : Nat → Nat :=
  let n := name.length
  let v := value.length
  let b1 := blit buf (8 * u) [n % 256, n / 256 % 256]
  let b2 := blit b1 (8 * u + 4) [v % 256, v / 256 % 256, v / 65536 % 256, v / 16777216 % 256]
  let b3 := blit b2 (8 * u + 8) name
  blit b3 (8 * u + 8 + up8 (nameLen b3 u)) value

/-- xattr.c:209-218 `xe_squeeze`: move what follows the entry down, clear the end. -/
def squeeze (buf : Nat → Nat) (u last : Nat) : Nat → Nat :=
  let z := entUnits buf u
  let move := last - (u + z)
  fun x =>
    if 8 * u ≤ x ∧ x < 8 * (u + move) then buf (x + 8 * z)
    else if 8 * (u + move) ≤ x ∧ x < 8 * (u + move + z) then 0
    else buf x

/-! ### Nodes (xattr.c:338-398) -/

/-- xattr.c:335-340 `xan_setup` -/
def emptyNode : Node := ⟨fun _ => 0, 0⟩

/-- xattr.c:358-369 `xan_search` -/
def Node.search (n : Node) (name : Bytes) : Option Nat :=
  if units name.length 0 ≤ n.nents then Xattr.search n.buf name 0 n.nents else none

/-- xattr.c:371-384 `xan_insert` -/
def Node.insert (n : Node) (name value : Bytes) : Option Node :=
  if nentsMax - n.nents < units name.length value.length then none
  else
    let buf := assign n.buf n.nents name value
    some ⟨buf, n.nents + entUnits buf n.nents⟩

/-- xattr.c:386-393 `xan_remove` -/
def Node.remove (n : Node) (u : Nat) : Node :=
  ⟨squeeze n.buf u n.nents, n.nents - entUnits n.buf u⟩

/-- xattr.c:1142-1152 `xac_emit_range`: the names from a unit on. -/
def names (buf : Nat → Nat) (u tip : Nat) : List Bytes :=
  if u < tip then nameOf buf u :: names buf (u + entUnits buf u) tip else []
termination_by tip - u
decreasing_by
  have : 1 ≤ entUnits buf u := by unfold entUnits units; omega
  omega

/-! ### An inode -/

/-- A bound slot: the stored node, and the cached one with its dirty mark. -/
structure Slot where
  disk : Node
  cache : Option (Node × Bool)

/-- Slots of an inode (`silofs_inode_xattr`, eight of them). -/
structure St where
  slot : Nat → Option Slot

/-- The node as a request sees it. -/
def Slot.node (x : Slot) : Node :=
  match x.cache with
  | some c => c.1
  | none => x.disk

def St.set (s : St) (i : Nat) (x : Slot) : St := ⟨fun k => if k = i then some x else s.slot k⟩

/-- Errors; `io` is any failure of staging or allocating a node. -/
inductive Err where
  | nodata | exist | nospc | inval | nametoolong | range | io
  deriving DecidableEq, Repr

/-- Result of a request. -/
inductive Res (α : Type) where
  | ok (a : α)
  | err (e : Err)

/-- xattr.c:562-598 `xac_stage_xanode`: bring a node into the cache, unless that fails. -/
def stage (io : Nat → Bool) (i : Nat) (x : Slot) : Option Slot :=
  if io i then
    match x.cache with
    | some _ => some x
    | none => some { x with cache := some (x.disk, false) }
  else none

/-- xattr.c:692-731 `xac_lookup_entry_at_nodes`, over the `k` slots from `i` on: slot and unit of the
entry. -/
def lookup (io : Nat → Bool) (name : Bytes) : Nat → Nat → St → St × Res (Option (Nat × Nat))
  | 0, _, s => (s, .ok none)
  | k + 1, i, s =>
    match s.slot i with
    | none => lookup io name k (i + 1) s
    | some x =>
      match stage io i x with
      | none => (s, .err .io)
      | some x' =>
        match x'.node.search name with
        | some u => (s.set i x', .ok (some (i, u)))
        | none => lookup io name k (i + 1) (s.set i x')

/-- xattr.c:814-870 `xac_require_xanode`: a missing node is allocated, with `junk` stored at its place. -/
def require (io : Nat → Bool) (junk : Nat → Node) (i : Nat) (s : St) : Option Slot :=
  match s.slot i with
  | some x => stage io i x
  | none => if io i then some ⟨junk i, some (emptyNode, true)⟩ else none

/-- xattr.c:881-899 `xac_try_insert_at_nodes` over the `k` slots from `i` on: slot of the new entry. -/
def insertAt (io : Nat → Bool) (junk : Nat → Node) (name value : Bytes) : Nat → Nat → St → St × Res Nat
  | 0, _, s => (s, .err .nospc)
  | k + 1, i, s =>
    match require io junk i s with
    | none => (s, .err .io)
    | some x =>
      match x.node.insert name value with
      | some n => (s.set i { x with cache := some (n, true) }, .ok i)
      | none => insertAt io junk name value k (i + 1) (s.set i x)

/-- xattr.c:535-542 `xei_discard_entry`: remove an entry from the cached node; the dirty mark is not
touched. -/
def discard (i u : Nat) (s : St) : St :=
  match s.slot i with
  | none => s
  | some x => s.set i { x with cache := some (x.node.remove u, match x.cache with
      | some c => c.2
      | none => false) }

/-- `xai_dirtify` -/
def dirtify (i : Nat) (s : St) : St :=
  match s.slot i with
  | none => s
  | some x => s.set i { x with cache := some (x.node, true) }

/-- Flags of setxattr. -/
inductive Flag where
  | any | create | replace
  deriving DecidableEq, Repr

/-- xattr.c:640-690 `xac_check_op`: name and size. -/
def checkOp (name : Bytes) (size : Nat) : Option Err :=
  if nameMax < name.length then some .nametoolong
  else if valueMax < size then some .inval
  else none

/-- xattr.c:919-1000 `xac_setxattr_apply`.  Each of the two walks over the nodes may fail (`io1`,
`io2`).  The result is the slot of a replaced entry and the slot of the new one. -/
def setxattr (io1 io2 : Nat → Bool) (junk : Nat → Node) (name value : Bytes) (flag : Flag) (s : St) :
    St × Res (Option Nat × Nat) :=
  match checkOp name value.length with
  | some e => (s, .err e)
  | none =>
    match lookup io1 name nslots 0 s with
    | (s1, .err e) => (s1, .err e)
    | (s1, .ok (some (i, u))) =>
      if flag = .create then (s1, .err .exist)
      else
        match insertAt io2 junk name value nslots 0 s1 with
        | (s2, .err e) => (s2, .err e)
        | (s2, .ok j) => (dirtify j (discard i u s2), .ok (some i, j))
    | (s1, .ok none) =>
      if flag = .replace then (s1, .err .nodata)
      else
        match insertAt io2 junk name value nslots 0 s1 with
        | (s2, .err e) => (s2, .err e)
        | (s2, .ok j) => (s2, .ok (none, j))

/-- xattr.c:1085-1103 `xac_do_removexattr`, without the exception for POSIX ACL names, which report
success if absent. -/
def removexattr (io : Nat → Bool) (name : Bytes) (s : St) : St × Res Unit :=
  match checkOp name 0 with
  | some e => (s, .err e)
  | none =>
    match lookup io name nslots 0 s with
    | (s1, .err e) => (s1, .err e)
    | (s1, .ok none) => (s1, .err .nodata)
    | (s1, .ok (some (i, u))) => (dirtify i (discard i u s1), .ok ())

/-- xattr.c:753-776 `xac_do_getxattr`: size and, unless the buffer is empty, the value. -/
def getxattr (io : Nat → Bool) (name : Bytes) (cap : Nat) (s : St) : St × Res (Nat × Bytes) :=
  match checkOp name 0 with
  | some e => (s, .err e)
  | none =>
    match lookup io name nslots 0 s with
    | (s1, .err e) => (s1, .err e)
    | (s1, .ok none) => (s1, .err .nodata)
    | (s1, .ok (some (i, u))) =>
      match s1.slot i with
      | none => (s1, .err .nodata)
      | some x =>
        if cap = 0 then (s1, .ok (valSize x.node.buf u, []))
        else if cap < valSize x.node.buf u then (s1, .err .range)
        else (s1, .ok (valSize x.node.buf u, valueOf x.node.buf u))

/-- xattr.c:1160-1200 `xac_emit_by_nodes`, over the `k` slots from `i` on; all names fit. -/
def listAt (io : Nat → Bool) : Nat → Nat → St → St × Res (List Bytes)
  | 0, _, s => (s, .ok [])
  | k + 1, i, s =>
    match s.slot i with
    | none => listAt io k (i + 1) s
    | some x =>
      match stage io i x with
      | none => (s, .err .io)
      | some x' =>
        match listAt io k (i + 1) (s.set i x') with
        | (s1, .err e) => (s1, .err e)
        | (s1, .ok ns) => (s1, .ok (names x'.node.buf 0 x'.node.nents ++ ns))

/-- xattr.c:1223-1236 `xac_do_listxattr` -/
def listxattr (io : Nat → Bool) (s : St) : St × Res (List Bytes) := listAt io nslots 0 s

/-- Write a dirty node back (flush.c). -/
def flush (i : Nat) (s : St) : St :=
  match s.slot i with
  | none => s
  | some x =>
    match x.cache with
    | some (n, true) => s.set i ⟨n, some (n, false)⟩
    | _ => s

/-- Drop a clean node from the cache (lcache.c). -/
def evict (i : Nat) (s : St) : St :=
  match s.slot i with
  | none => s
  | some x =>
    match x.cache with
    | some (_, false) => s.set i { x with cache := none }
    | _ => s

/-- xattr.c:478-497 `silofs_setup_xattr` -/
def fresh : St := ⟨fun _ => none⟩

end Silofs.Xattr
