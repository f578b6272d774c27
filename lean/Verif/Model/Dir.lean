import Verif.Model.DirIndex
/-
Directory hash-tree: lookup, add and remove of entries (lib/dir.c:1424-2066 and
2518-2725) over abstract nodes.

Simplifications, all of the model:
* A node is a list of slots (an inactive table slot is `none`) plus the number
  of name bytes in use.  That the byte-packed node of the code behaves like this
  is proved separately (Verif.Props.DirNode).
* Child pointers are represented by node indexes: the child pointer of node `i`
  at ordinal `o` is non-null iff `nodes (child i o)` is present.  (The code binds
  a spawned node of index `child i o` at exactly that pointer,
  `dirc_do_spawn_bind_child` 1779-1802.)  So `dni_check_child_depth` never fails.
* Failing I/O (staging a node or inode) and failing allocation (spawning a node)
  are decided by an oracle, per depth; they may fail in any pattern.
* Time stamps, isize, iblocks of the directory inode are left out.
-/
namespace Silofs.Dir

abbrev Name := List Nat

/-- Result of an operation. `die`: the process is killed by a failed
`silofs_expect_*`.  `undef`: the code would follow pointers to freed nodes. -/
inductive Res (α : Type) where
  | ok (a : α)
  | enoent
  | eexist
  | enospc
  | einval
  | enametoolong
  | emlink
  | eio
  | die
  | undef
  deriving Repr, DecidableEq

/-- An active directory entry: include/silofs/defs.h:858-863 with the name bytes. -/
structure Ent where
  hash : Nat
  name : Name
  ino : Nat
  dt : Nat
  deriving Repr, DecidableEq

/-- A directory node: its entry table and the number of bytes used by names. -/
structure Node where
  slots : List (Option Ent)
  nnb : Nat
  deriving Repr, DecidableEq

def Node.empty : Node := ⟨[], 0⟩

/-- lib/dir.c:613-627 `dtn_de_has_name`: hash low bits, length and bytes. -/
def Ent.matches (e : Ent) (hash : Nat) (name : Name) : Bool :=
  e.hash == hash % 16777216 && e.name == name

/-- lib/dir.c:629-643 `dtn_search`, from slot `k` on. -/
def searchFrom (hash : Nat) (name : Name) : Nat → List (Option Ent) → Option (Nat × Ent)
  | _, [] => none
  | k, none :: l => searchFrom hash name (k + 1) l
  | k, some e :: l =>
    if e.matches hash name then some (k, e) else searchFrom hash name (k + 1) l

def Node.search (n : Node) (hash : Nat) (name : Name) : Option (Nat × Ent) :=
  searchFrom hash name 0 n.slots

/-- lib/dir.c:464-467 `dtn_data_used`. -/
def Node.used (n : Node) : Nat := n.nnb + n.slots.length * 16

/-- lib/dir.c:691-699 `dtn_may_insert`. -/
def Node.mayInsert (n : Node) (nlen : Nat) : Bool := decide (16 + nlen + n.used ≤ 7680)

/-- lib/dir.c:719-732 `dtn_resolve_insert_de` + the table part of 719-735
`dtn_insert`: first inactive slot, else append. -/
def putFirst (e : Ent) : List (Option Ent) → List (Option Ent)
  | [] => [some e]
  | none :: l => some e :: l
  | some x :: l => some x :: putFirst e l

/-- lib/dir.c:734-749 `dtn_insert`. -/
def Node.insert (n : Node) (hash : Nat) (name : Name) (ino dt : Nat) : Node :=
  ⟨putFirst ⟨hash % 16777216, name, ino, dt⟩ n.slots, n.nnb + name.length⟩

/-- lib/dir.c:812-828 `dtn_trim_nonactive_des`: drop inactive slots at the end. -/
def trimEnd : List (Option Ent) → List (Option Ent)
  | [] => []
  | x :: l => if x.isNone && (trimEnd l).isEmpty then [] else x :: trimEnd l

/-- lib/dir.c:830-844 `dtn_remove`. -/
def Node.remove (n : Node) (slot : Nat) (e : Ent) : Node :=
  ⟨trimEnd (n.slots.set slot none), n.nnb - e.name.length⟩

/-- A directory: seed-dependent name hash, entry count, root presence, index of
the last node (lib/dir.c:1038-1146 `indr_*`) and the nodes by index.  `dangling`
marks a tree whose removal failed half-way. -/
structure Dir where
  hash : Name → Nat
  ndents : Nat
  last : Nat
  nodes : Nat → Option Node
  dangling : Bool

/-- Failure oracle of one operation. -/
structure Orc where
  /-- staging the node at this depth fails -/
  stage : Nat → Bool
  /-- spawning the node at this depth fails -/
  spawn : Nat → Bool
  /-- staging the inode of a removed entry fails -/
  inode : Bool
  /-- freeing the nodes of an emptied tree fails -/
  drop : Bool
  /-- name hash by the new seed chosen when the tree is dropped -/
  rehash : Name → Nat

/-- No failures. -/
def Orc.good (rehash : Name → Nat) : Orc := ⟨fun _ => false, fun _ => false, false, false, rehash⟩

/-- lib/dir.c:1410-1424 `silofs_setup_dir`/1134-1143 `indr_setup`. -/
def Dir.fresh (hash : Name → Nat) : Dir := ⟨hash, 0, 0, fun _ => none, false⟩

/-- Store a node. -/
def setNode (nodes : Nat → Option Node) (i : Nat) (n : Node) : Nat → Option Node :=
  fun j => if j = i then some n else nodes j

/-- lib/dir.c:1656-1687 `dirc_do_lookup_by_tree`: the loop from a node at depth
`4 - k`.  Result: node index, slot, entry.  At depth 4 the child ordinal for
depth 5 is requested, which `hash_to_child_ord` (168-185) does not survive. -/
def lookupAt (nodes : Nat → Option Node) (stage : Nat → Bool) (hash : Nat) (name : Name) :
    Nat → Nat → Node → Res (Nat × Nat × Ent)
  | k, i, n =>
    match n.search hash name with
    | some (s, e) => .ok (i, s, e)
    | none =>
      match k with
      | 0 => .die
      | k + 1 =>
        let c := child i (hashOrd hash (4 - k))
        match nodes c with
        | none => .enoent
        | some n' => if stage (4 - k) then .eio else lookupAt nodes stage hash name k c n'

/-- lib/dir.c:1729-1743 `dirc_check_self_and_name`, 1702-1729, 1761-1780. -/
def Dir.find (d : Dir) (o : Orc) (name : Name) : Res (Nat × Nat × Ent) :=
  if name.length = 0 then .einval
  else if 255 < name.length then .enametoolong
  else if d.ndents = 0 then .enoent
  else match d.nodes 1 with
    | none => .enoent
    | some r =>
      if d.dangling then .undef
      else if o.stage 0 then .eio
      else lookupAt d.nodes o.stage (d.hash name) name 4 1 r

/-- lib/dir.c:1782-1815 `silofs_lookup_dentry`: inode and type. -/
def Dir.lookup (d : Dir) (o : Orc) (name : Name) : Res (Nat × Nat) :=
  match d.find o name with
  | .ok (_, _, e) => .ok (e.ino, e.dt)
  | .enoent => .enoent | .eexist => .eexist | .enospc => .enospc | .einval => .einval
  | .enametoolong => .enametoolong | .emlink => .emlink | .eio => .eio | .die => .die
  | .undef => .undef

/-- lib/dir.c:1078-1097 `indr_update_last_index` when a node is spawned. -/
def bumpLast (last i : Nat) : Nat := if last < i ∨ last = 0 then i else last

/-- lib/dir.c:1945-1968 `dirc_do_add_to_tree` from a node at depth `4 - k`, with
1839-1856 `dirc_require_child`, 1779-1802 `dirc_do_spawn_bind_child`. -/
def addAt (o : Orc) (hash : Nat) (name : Name) (ino dt : Nat) :
    Nat → Nat → Node → Dir → Res Unit × Dir
  | k, i, n, d =>
    if n.mayInsert name.length then
      (.ok (), { d with nodes := setNode d.nodes i (n.insert hash name ino dt), ndents := d.ndents + 1 })
    else match k with
      | 0 => (.die, d)
      | k + 1 =>
        let c := child i (hashOrd hash (4 - k))
        match d.nodes c with
        | some n' => if o.stage (4 - k) then (.eio, d) else addAt o hash name ino dt k c n' d
        | none =>
          if validDepth c = false then (.enospc, d)
          else if o.spawn (4 - k) then (.enospc, d)
          else addAt o hash name ino dt k c Node.empty
            { d with nodes := setNode d.nodes c Node.empty, last := bumpLast d.last c }

/-- lib/dir.c:1999-2037 `silofs_add_dentry`, with 1643-1655
`dirc_require_tree_root` and 1617-1632 `dirc_spawn_tree_root`. -/
def Dir.addDentry (d : Dir) (o : Orc) (name : Name) (ino dt : Nat) : Res Unit × Dir :=
  match d.nodes 1 with
  | some r =>
    if d.dangling then (.undef, d)
    else if o.stage 0 then (.eio, d)
    else addAt o (d.hash name) name ino dt 4 1 r d
  | none =>
    if o.spawn 0 then (.enospc, d)
    else addAt o (d.hash name) name ino dt 4 1 Node.empty
      { d with nodes := setNode d.nodes 1 Node.empty, last := 1 }

/-- Insertion as done by every namespace operation: the name is looked up first
and must not exist (lib/namei.c:528-543 `check_nodent`), the directory must not
be full (lib/namei.c:543-560 `check_add_dentry`, lib/dir.c:1230-1235
`silofs_dir_may_add`), then the entry is added. -/
def Dir.add (d : Dir) (o : Orc) (name : Name) (ino dt : Nat) : Res Unit × Dir :=
  match d.lookup o name with
  | .ok _ => (.eexist, d)
  | .enoent =>
    if 480 * 16777216 ≤ d.ndents then (.emlink, d) else d.addDentry o name ino dt
  | .eexist => (.eexist, d) | .enospc => (.enospc, d) | .einval => (.einval, d)
  | .enametoolong => (.enametoolong, d) | .emlink => (.emlink, d) | .eio => (.eio, d)
  | .die => (.die, d) | .undef => (.undef, d)

/-- lib/dir.c:2630-2720 `silofs_remove_dentry`: find the entry, stage its inode,
clear the slot; the whole tree is dropped with its last entry
(`dirc_do_erase_dentry` 2642-2653, `dirc_drop_tree` 2592-2611). -/
def Dir.remove (d : Dir) (o : Orc) (name : Name) : Res Unit × Dir :=
  match d.find o name with
  | .ok (i, s, e) =>
    if o.inode then (.eio, d)
    else match d.nodes i with
      | none => (.undef, d)
      | some n =>
        if d.ndents - 1 = 0 then
          if o.drop then
            (.eio, { d with nodes := setNode d.nodes i (n.remove s e), ndents := 0, dangling := true })
          else (.ok (), Dir.fresh o.rehash)
        else (.ok (), { d with nodes := setNode d.nodes i (n.remove s e), ndents := d.ndents - 1 })
  | .enoent => (.enoent, d) | .eexist => (.eexist, d) | .enospc => (.enospc, d)
  | .einval => (.einval, d) | .enametoolong => (.enametoolong, d) | .emlink => (.emlink, d)
  | .eio => (.eio, d) | .die => (.die, d) | .undef => (.undef, d)

/-- Directory-changing operations. -/
inductive Op where
  | add (name : Name) (ino dt : Nat)
  | remove (name : Name)

def step (d : Dir) (o : Orc) : Op → Res Unit × Dir
  | .add name ino dt => d.add o name ino dt
  | .remove name => d.remove o name

/-- Run a history from `d`: results and final state. -/
def run (d : Dir) : List (Op × Orc) → List (Res Unit) × Dir
  | [] => ([], d)
  | (op, o) :: rest =>
    ((step d o op).1 :: (run (step d o op).2 rest).1, (run (step d o op).2 rest).2)

end Silofs.Dir
