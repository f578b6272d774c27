import Verif.Model.Dir
/-
The size and the blocks of a directory, and how its tree is given back.

The operations are those of Verif.Model.Dir; beside the directory there is what they do to the counters of its
inode and to the nodes in storage.  `live` has the nodes which are in use, with the number of children each of
them says it has; after a removal which failed half-way these are not all to which pointers lead.
Failures of reading and of giving back a node are chosen per node.
-/
namespace Silofs.Dir

/-- Nodes in use with their counts of children (lib/dir.c:474-494), blocks of the inode in KB, index of the last
node, size of the inode. -/
structure Tally where
  live : Nat → Option Nat
  blocks : Int
  last : Nat
  size : Nat

def Tally.fresh : Tally := ⟨fun _ => none, 0, 0, 1024⟩

/-- lib/dir.c:1583-1598 `dirc_spawn_setup_dnode` with 1569-1581 `dirc_update_isizeblocks` and
lib/inode.c:1343-1356 `recalc_iblocks`: a node has 8 KB. -/
def Tally.spawn (t : Tally) (c : Nat) : Tally :=
  ⟨fun j => if j = c then some 0 else t.live j, t.blocks + 8, bumpLast t.last c, indexToIsize (bumpLast t.last c)⟩

/-- lib/dir.c:979-991 `dni_bind_child_at` to a null pointer. -/
def Tally.bind (t : Tally) (p : Nat) : Tally :=
  { t with live := fun j => if j = p then (t.live j).map (· + 1) else t.live j }

/-- lib/dir.c:1078-1096 `indr_update_last_index` when a node goes. -/
def dropLast (last i : Nat) : Nat := if last = i then last - 1 else last

/-- lib/dir.c:1882-1895 `dirc_discard_dnode` with 1569-1581 `dirc_update_isizeblocks`. -/
def Tally.drop (t : Tally) (i : Nat) : Tally :=
  ⟨fun j => if j = i then none else t.live j, t.blocks - 8, dropLast t.last i, indexToIsize (dropLast t.last i)⟩

/-- lib/dir.c:491-494 `dtn_dec_nactive_childs`. -/
def Tally.decr (t : Tally) (i : Nat) : Tally :=
  { t with live := fun j => if j = i then (t.live j).map (· - 1) else t.live j }

/-- Failures while a tree is given back: reading a node, giving back a node. -/
structure DropOrc where
  stage : Nat → Bool
  rm : Nat → Bool

/-- lib/dir.c:2523-2547 `dirc_discard_childs_of`: the loop over ordinals; `f` gives back the tree at a child. -/
def kids (f : Nat → Tally → Bool × Tally) (ptr : Nat → Bool) (i : Nat) : List Nat → Tally → Bool × Tally
  | [], t => (true, t)
  | o :: os, t =>
    match t.live i with
    | none => (false, t)
    | some 0 => (true, t)
    | some (_ + 1) =>
      if ptr (child i o) then
        match f (child i o) t with
        | (false, t') => (false, t')
        | (true, t') => kids f ptr i os (t'.decr i)
      else kids f ptr i os t

/-- All ordinals of children. -/
@[irreducible] def ords : List Nat := List.range 64

/-- lib/dir.c:2565-2583 `dirc_discard_recursively` with 2549-2563 `dirc_discard_tree_at`; `f` is for the trees at
children.  Reading a node which is not
there fails (what the code finds there is not known). -/
def level (q : DropOrc) (ptr : Nat → Bool) (f : Nat → Tally → Bool × Tally) (i : Nat) (t : Tally) : Bool × Tally :=
  match t.live i with
  | none => (false, t)
  | some _ =>
    if q.stage i then (false, t)
    else match kids f ptr i ords t with
      | (false, t') => (false, t')
      | (true, t') => if q.rm i then (false, t') else (true, t'.drop i)

/-- The same as it calls itself: a tree of at most so many levels. -/
def discard (q : DropOrc) (ptr : Nat → Bool) : Nat → Nat → Tally → Bool × Tally
  | 0 => fun _ t => (false, t)
  | k + 1 => level q ptr (discard q ptr k)

/-- A directory with its counters. -/
structure Sized where
  d : Dir
  t : Tally

def Sized.fresh (hash : Name → Nat) : Sized := ⟨Dir.fresh hash, Tally.fresh⟩

/-- lib/dir.c:1945-1968 `dirc_do_add_to_tree`, as `addAt`. -/
def sAddAt (o : Orc) (hash : Nat) (name : Name) (ino dt : Nat) :
    Nat → Nat → Node → Sized → Res Unit × Sized
  | k, i, n, s =>
    if n.mayInsert name.length then
      (.ok (), ⟨{ s.d with nodes := setNode s.d.nodes i (n.insert hash name ino dt), ndents := s.d.ndents + 1 }, s.t⟩)
    else match k with
      | 0 => (.die, s)
      | k + 1 =>
        match s.d.nodes (child i (hashOrd hash (4 - k))) with
        | some n' =>
          if o.stage (4 - k) then (.eio, s)
          else sAddAt o hash name ino dt k (child i (hashOrd hash (4 - k))) n' s
        | none =>
          if validDepth (child i (hashOrd hash (4 - k))) = false then (.enospc, s)
          else if o.spawn (4 - k) then (.enospc, s)
          else sAddAt o hash name ino dt k (child i (hashOrd hash (4 - k))) Node.empty
            ⟨{ s.d with
                nodes := setNode s.d.nodes (child i (hashOrd hash (4 - k))) Node.empty
                last := bumpLast s.d.last (child i (hashOrd hash (4 - k))) },
              (s.t.spawn (child i (hashOrd hash (4 - k)))).bind i⟩

/-- lib/dir.c:1999-2037 `silofs_add_dentry`, as `Dir.addDentry`. -/
def Sized.addDentry (s : Sized) (o : Orc) (name : Name) (ino dt : Nat) : Res Unit × Sized :=
  match s.d.nodes 1 with
  | some r =>
    if s.d.dangling then (.undef, s)
    else if o.stage 0 then (.eio, s)
    else sAddAt o (s.d.hash name) name ino dt 4 1 r s
  | none =>
    if o.spawn 0 then (.enospc, s)
    else sAddAt o (s.d.hash name) name ino dt 4 1 Node.empty
      ⟨{ s.d with nodes := setNode s.d.nodes 1 Node.empty, last := 1 }, { s.t.spawn 1 with last := 1 }⟩

/-- As `Dir.add`. -/
def Sized.add (s : Sized) (o : Orc) (name : Name) (ino dt : Nat) : Res Unit × Sized :=
  match s.d.lookup o name with
  | .ok _ => (.eexist, s)
  | .enoent => if 480 * 16777216 ≤ s.d.ndents then (.emlink, s) else s.addDentry o name ino dt
  | .eexist => (.eexist, s) | .enospc => (.enospc, s) | .einval => (.einval, s)
  | .enametoolong => (.enametoolong, s) | .emlink => (.emlink, s) | .eio => (.eio, s)
  | .die => (.die, s) | .undef => (.undef, s)

/-- As `Dir.remove`, with lib/dir.c:2593-2611 `dirc_drop_tree` for the last entry: the tree is given back node by
node, then 2585-2591 `dirc_resetup_dir` with 1410-1424 `silofs_setup_dir` sets the counters anew. -/
def Sized.remove (s : Sized) (o : Orc) (q : DropOrc) (name : Name) : Res Unit × Sized :=
  match s.d.find o name with
  | .ok (i, sl, e) =>
    if o.inode then (.eio, s)
    else match s.d.nodes i with
      | none => (.undef, s)
      | some n =>
        if s.d.ndents - 1 = 0 then
          match discard q (fun j => (s.d.nodes j).isSome) 5 1 s.t with
          | (false, t') =>
            (.eio, ⟨{ s.d with nodes := setNode s.d.nodes i (n.remove sl e), ndents := 0, dangling := true }, t'⟩)
          | (true, t') => (.ok (), ⟨Dir.fresh o.rehash, { t' with blocks := 0, last := 0, size := 1024 }⟩)
        else
          (.ok (), ⟨{ s.d with nodes := setNode s.d.nodes i (n.remove sl e), ndents := s.d.ndents - 1 }, s.t⟩)
  | .enoent => (.enoent, s) | .eexist => (.eexist, s) | .enospc => (.enospc, s)
  | .einval => (.einval, s) | .enametoolong => (.enametoolong, s) | .emlink => (.emlink, s)
  | .eio => (.eio, s) | .die => (.die, s) | .undef => (.undef, s)

def sStep (s : Sized) (o : Orc) (q : DropOrc) : Op → Res Unit × Sized
  | .add name ino dt => s.add o name ino dt
  | .remove name => s.remove o q name

/-- A history. -/
def sRun (s : Sized) : List (Op × Orc × DropOrc) → Sized
  | [] => s
  | (op, o, q) :: rest => sRun (sStep s o q op).2 rest

/-- lib/inode.c:1047-1055 `ii_stat_blocks`: in units of 512 bytes. -/
def dirStatBlocks (t : Tally) : Int := t.blocks * 1024 / 512

end Silofs.Dir
