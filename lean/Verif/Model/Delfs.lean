import Verif.Model.Snap
/-
Deletion of a file-system: lib/delfs.c:28-258, lib/walk.c:278-711, lib/execlib.c:1009-1029 and
1764-1826.

The state is that of Snap.lean.  The nodes (or blocks) below one space-map node which belong to one volume
are stored in one segment of that volume (vstage.c:426-447 and 502-518, 1596), which is removed as a whole.
A removed block of data reads as zeros.  `gone` says which segments with space maps have been removed: staging
a space map makes the missing segment anew (lib/ustage.c:252-264 `require_lseg`), full of zeros, and then fails
with EFSCORRUPTED as it verifies the block (Stage.lean, C58); that is not ENOENT, so it ends the walk
(walk.c:341-349) and the command.

`gas` stands for a stop in the middle (crash, signal): after that many removals nothing has an effect any
more.  An error on the way is a stop too.

Simplifications: one address space, as in Snap.lean; errors other than ENOENT are stops; the segment of
the super block and the boot record are one entry of `vol`.
-/
namespace Silofs.Snap

/-- The repository and the number of removals before a stop (none: no stop). -/
structure Del where
  st : St
  gas : Option Nat := none
  /-- Removed segments with space maps: volume, level of the nodes in it, index of their parent.  A segment made
  anew by staging holds nothing and counts as removed. -/
  gone : Lvid → Nat → Nat → Bool := fun _ _ _ => false

/-- repo.c `silofs_repo_remove_lseg`: remove the segment with the children of node `i` of level `k`
that belong to volume `v`. -/
def St.rmSeg (s : St) (v : Lvid) (k i : Nat) : St :=
  if k = 4 then { s with dat := fun w b j => if w = v ∧ b / 256 = i then fun _ => 0 else s.dat w b j }
  else { s with un := fun w k' i' => if w = v ∧ k' = k + 1 ∧ i' / 256 = i then {} else s.un w k' i' }

/-- The segment with the top node of the space maps. -/
def St.rmRoot (s : St) (v : Lvid) : St :=
  { s with un := fun w k' i' => if w = v ∧ k' = 0 ∧ i' = 0 then {} else s.un w k' i' }

/-- One removal, unless stopped; `g` is what it does to the record of removed segments. -/
def Del.act (x : Del) (f : St → St) (g : (Lvid → Nat → Nat → Bool) → Lvid → Nat → Nat → Bool) : Del :=
  match x.gas with
  | none => { x with st := f x.st, gone := g x.gone }
  | some 0 => x
  | some (n + 1) => { st := f x.st, gas := some n, gone := g x.gone }

/-- A segment with space maps goes: of level `k`, below node `i` of the level above. -/
def mark (v : Lvid) (k i : Nat) (g : Lvid → Nat → Nat → Bool) : Lvid → Nat → Nat → Bool :=
  fun w k' i' => if w = v ∧ k' = k ∧ i' = i then true else g w k' i'

/-- repo.c `silofs_repo_remove_lseg` on the segment below a node. -/
def Del.rmSeg (x : Del) (v : Lvid) (k i : Nat) : Del :=
  x.act (·.rmSeg v k i) (if k = 4 then id else mark v (k + 1) i)

/-- The same for the top node. -/
def Del.rmRoot (x : Del) (v : Lvid) : Del := x.act (·.rmRoot v) (mark v 0 0)

/-- ustage.c:252-264 `require_lseg` and the load after it, as called by walk.c:194-276: node `i` of level `k`,
stored in volume `w`, cannot be read if its segment was removed. -/
def Del.stage (x : Del) (w : Lvid) (k i : Nat) : Del :=
  if x.gone w k (i / 256) then { x with gas := some 0 } else x

/-- delfs.c:43-79 `delfc_try_remove_lseg_of`: only segments of the volume being deleted. -/
def tryRemove (v u : Lvid) (f : Del → Del) (x : Del) : Del := if u = v then f x else x

/-- Loop over the children of a node, up to the first one which is not there: walk.c:329-349 and its
copies for the other levels, delfs.c:99-145. -/
def upTo (child : Nat → Option Lvid) (f : Nat → Lvid → Del → Del) : Nat → Nat → Del → Del
  | 0, _, x => x
  | n + 1, c, x =>
    match child c with
    | none => x
    | some u => upTo child f n (c + 1) (f c u x)

/-- delfs.c:99-120 `delfc_post_at_spleaf` and 122-145 `delfc_post_at_spnode`. -/
def postNode (v w : Lvid) (k i : Nat) (x : Del) : Del :=
  upTo (x.st.un w k i).child (fun _ u => tryRemove v u (·.rmSeg v k i)) 256 0 x

/-- walk.c:278-288 (leaf) and 361-379 (node), with 305-317 and 194-276 before: the node is staged, then come the
children, then the node itself. `d` levels of space maps are below. -/
def travNode (v : Lvid) : Nat → Nat → Nat → Lvid → Del → Del
  | 0, k, i, w, x => postNode v w k i (x.stage w k i)
  | d + 1, k, i, w, x =>
    postNode v w k i
      (upTo (x.st.un w k i).child (fun c u => travNode v d (k + 1) (i * 256 + c) u) 256 0 (x.stage w k i))

/-- walk.c:609-663 with delfs.c:147-162 `delfc_post_at_super`. -/
def travSuper (v : Lvid) (x : Del) : Del :=
  match x.st.root v with
  | none => x
  | some w => tryRemove v w (·.rmRoot v) (travNode v 4 0 0 w x)

/-- delfs.c:239-258 `silofs_walk_unref_fs` and execlib.c:1815: last the super block and the boot record. -/
def Del.rmVol (v : Lvid) (x : Del) : Del :=
  x.act (fun s => { s with vol := fun w => if w = v then none else s.vol w }) id

/-- execlib.c:1793-1826 `silofs_unref_fs` with 1009-1029 `check_superblock`: a volume closed by a fork is
refused (EROFS), as is the one in use (cmd/rmfs.c:161-171 and the lock file). -/
def unrefFs (v : Lvid) (x : Del) : Option Del :=
  match x.st.vol v with
  | none => none
  | some V => if V.fossil || x.st.cur == v then none else some ((travSuper v x).rmVol v)

end Silofs.Snap
