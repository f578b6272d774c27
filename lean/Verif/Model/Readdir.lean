import Verif.Model.Dir
/-
readdir: lib/dir.c:2068-2440 (iteration) and lib/fuseq.c:1459-1600 (filling the
reply buffer of one FUSE_READDIR/READDIRPLUS request).

The iteration only talks to the reply through the actor callback, which may stop
it; so the model first computes the sequence of entries that the iteration
offers (`offers`) and then feeds it to the reply builder (`feed`) that may stop
at any point.  I/O errors during readdir are left out: such a call replies with
an error and no entries.
-/
namespace Silofs.Dir

/-- struct silofs_readdir_info: an offered entry and its offset. -/
structure Item where
  name : Name
  ino : Nat
  dt : Nat
  off : Int
  deriving Repr, DecidableEq

/-- lib/dir.c:670-689 `dtn_scan`/2152-2185 `dirc_iterate_node`: the active
entries of the slots from `k` on, in slot order, whose offset is ≥ pos. -/
def scanFrom (i : Nat) (pos : Int) : Nat → List (Option Ent) → List Item
  | _, [] => []
  | k, none :: l => scanFrom i pos (k + 1) l
  | k, some e :: l =>
    if pos ≤ (mkDoff i k : Int) then ⟨e.name, e.ino, e.dt, mkDoff i k⟩ :: scanFrom i pos (k + 1) l
    else scanFrom i pos (k + 1) l

/-- lib/dir.c:2162-2190 `dirc_iterate_node` on node `n` of index `i`: scan starts
at the slot of `pos` (`dtn_de_at_slot` 643-651). -/
def nodeItems (i : Nat) (n : Node) (pos : Int) : List Item :=
  scanFrom i pos (doffSlot pos.toNat) (n.slots.drop (doffSlot pos.toNat))

/-- lib/dir.c:2229-2260 `dirc_stage_node_by_index`: descend from the root by the
ordinals of the index.  Index 0 yields the root.  Result: index and node. -/
def stageWalk (nodes : Nat → Option Node) (i : Nat) : Option (Nat × Node) :=
  if _h : i ≤ 1 then (nodes 1).map fun n => (1, n)
  else match stageWalk nodes (parent i) with
    | none => none
    | some (p, _) => (nodes (child p (childOrd i))).map fun n => (child p (childOrd i), n)
termination_by i
decreasing_by
  unfold parent
  split <;> omega

def stageByIndex (nodes : Nat → Option Node) (i : Nat) : Option (Nat × Node) :=
  if 4 ≤ depth i then none else stageWalk nodes i

/-- lib/dir.c:2258-2291 `dirc_next_node`: number of null siblings right after
ordinal `63 - k` of parent `p`. -/
def nullSiblings (nodes : Nat → Option Node) (p : Nat) : Nat → Nat
  | 0 => 0
  | k + 1 => match nodes (child p (63 - k)) with
    | some _ => 0
    | none => nullSiblings nodes p k + 1

/-- lib/dir.c:2258-2291 `dirc_next_node`. -/
def nextNode (nodes : Nat → Option Node) (i : Nat) : Nat :=
  if i = 1 then 2 else i + 1 + nullSiblings nodes (parent i) (63 - childOrd i)

theorem nextNode_gt (nodes : Nat → Option Node) (i : Nat) : i < nextNode nodes i := by
  unfold nextNode; split <;> omega

theorem stageWalk_index (nodes : Nat → Option Node) (i j : Nat) (n : Node)
    (h : stageWalk nodes i = some (j, n)) : i ≤ j := by
  induction i using Nat.strongRecOn generalizing j n with
  | _ i ih =>
    rw [stageWalk] at h
    split at h
    · rename_i hi
      simp only [Option.map_eq_some_iff, Prod.mk.injEq] at h
      obtain ⟨_, _, rfl, _⟩ := h; exact hi
    · rename_i hi
      split at h
      · simp at h
      · rename_i p m hp
        simp only [Option.map_eq_some_iff, Prod.mk.injEq] at h
        obtain ⟨_, _, rfl, _⟩ := h
        have h2 : parent i < i := by unfold parent; split <;> omega
        have := ih (parent i) h2 p m hp
        unfold child childOrd parent at *
        split at this <;> split <;> omega

/-- lib/dir.c:2293-2323 `dirc_do_iterate_tree_nodes`: offered entries from node
index `idx` on, up to the last node index. -/
def iterNodes (nodes : Nat → Option Node) (last idx : Nat) (pos : Int) : List Item :=
  if _h : last = 0 ∨ last < idx then []
  else match _hs : stageByIndex nodes idx with
    | none => iterNodes nodes last (idx + 1) pos
    | some (i, n) => nodeItems i n pos ++ iterNodes nodes last (nextNode nodes i) (mkDoff (i + 1) 0)
termination_by last + 1 - idx
decreasing_by
  · omega
  · have h1 : idx ≤ i := by
      unfold stageByIndex at _hs
      split at _hs
      · simp at _hs
      · exact stageWalk_index _ _ _ _ _hs
    have h2 := nextNode_gt nodes i
    omega

/-- lib/dir.c:2381-2394 `dirc_emit_meta`, `dirc_readdir_iter`, 2357-2384
`dirc_iterate_tree`, `dirc_iterate`: everything offered from `pos` before the
end-of-stream marker.  `selfIno`/`upIno` are the inodes of the directory and its
parent; DT_DIR is 4. -/
def offers (d : Dir) (selfIno upIno : Nat) (pos : Int) : List Item :=
  let dot : List Item := if pos = 0 then [⟨[46], selfIno, 4, 0⟩] else []
  let pos1 : Int := if pos = 0 then 1 else pos
  let dotdot : List Item := if pos1 = 1 then [⟨[46, 46], upIno, 4, 1⟩] else []
  let pos2 : Int := if pos1 = 1 then 2 else pos1
  dot ++ dotdot ++
    (if pos2 < 0 then []
     else if d.nodes 1 = none then []
     else iterNodes d.nodes d.last (doffIndex pos2.toNat) pos2)

/-- lib/fuseq.c:1459-1486/1487-1515: padded size of an entry in the reply;
`hdr` is 24 (READDIR) or 152 (READDIRPLUS). -/
def entSize (hdr : Nat) (nm : Name) : Nat := (hdr + nm.length + 7) / 8 * 8

/-- lib/fuseq.c:1517-1540 `emit_dirent` fits test. -/
def fits (hdr rem : Nat) (nm : Name) : Bool := decide (nm.length < rem) && decide (entSize hdr nm ≤ rem)

/-- lib/fuseq.c:1568-1584 `filldir` driven by the offered entries: `p` is the
pending entry, `rem` the room left.  The reply is a list of entries with the
offset to continue from.  The end-of-stream offer has offset -1. -/
def feed (hdr : Nat) : Nat → Option Item → List Item → List (Item × Int)
  | rem, p, [] => match p with
    | none => []
    | some x => if fits hdr rem x.name then [(x, -1)] else []
  | rem, p, y :: l => match p with
    | none => feed hdr rem (some y) l
    | some x =>
      if fits hdr rem x.name then (x, y.off) :: feed hdr (rem - entSize hdr x.name) (some y) l
      else []

/-- One readdir request at `pos` with a reply buffer of `bsz` bytes
(lib/fuseq.c:2255-2290 `do_readdir`/`do_readdirplus`). -/
def readdir (d : Dir) (selfIno upIno hdr bsz : Nat) (pos : Int) : List (Item × Int) :=
  feed hdr bsz none (offers d selfIno upIno pos)

/-- Where the caller continues: the offset of the last entry of the reply. -/
def nextPos (pos : Int) (reply : List (Item × Int)) : Int :=
  match reply.getLast? with
  | none => pos
  | some (_, off) => off

end Silofs.Dir
