import Verif.Model.Pack
/-
Checking and listing a file-system: cmd/fsck.c:176-242, cmd/view.c:207-232, cmd/fsexec.c:232-239, lib/execlib.c:1826-1850,
lib/namei.c:2501-2515, lib/inspect.c:46-243, with the traversal of lib/walk.c:194-711 and the staging of space maps of
lib/ustage.c:252-264.

Both commands walk the space maps of a file-system; `fsck` does nothing else, `view` prints the addresses it meets.

The repository is that of Pack.lean; the addresses listed for a node are merged as there (`Pack.lmap`).  `slots` gives
the children of a block, `good` whether it decrypts and verifies as a space map of that place (C26, C35).

Simplifications: the file-system is open and nothing of it is in the cache (the commands open it just before and hold
its lock; so the flush of namei.c:2506 has nothing to do, and a map is loaded once); errors of the host other than a missing file or
a short one do not happen; the commands around the walk are in Cmdseq.lean (C75).
-/
namespace Silofs.Fk
open Silofs Silofs.Addr Silofs.Pack

/-- What is known of the blocks of space maps. -/
structure Env where
  slots : Nat → Bytes → List (Option Laddr)
  good : Nat → Laddr → Bytes → Bool

/-- lib/repo.c:1685-1710 `repo_objs_create_lseg_of`: a segment of full size, never written. -/
def spawnSeg (r : Repo) (l : Lsid) : Repo :=
  { r with seg := fun k => if k = l then some ⟨l.lsize, fun _ => 0⟩ else r.seg k }

/-- lib/ustage.c:252-264 `require_lseg`. -/
def requireSeg (r : Repo) (l : Lsid) : Repo :=
  match r.seg l with
  | some _ => r
  | none => spawnSeg r l

/-- lib/ustage.c `silofs_stage_spnode`, `silofs_stage_spleaf` (see Stage.lean): the segment, then the block, which is decrypted and
verified.  The children, or an error; never ENOENT, as the segment is there. -/
def stage (e : Env) (d : Nat) (a : Laddr) (r : Repo) : Repo × Option (List (Option Laddr)) :=
  match (requireSeg r a.lsid).read a with
  | .error _ => (requireSeg r a.lsid, none)
  | .ok b => (requireSeg r a.lsid, if e.good d a b then some (e.slots d b) else none)

/-- The state of a walk: the repository, and what the callback keeps. -/
structure Wk (σ : Type) where
  repo : Repo
  out : σ

/-- lib/inspect.c:46-59 `inspc_exec_lmap`: stops at the first error. -/
def cbList {σ : Type} (f : Laddr → σ → σ × Option Err) : List Laddr → Wk σ → Wk σ × Option Err
  | [], x => (x, none)
  | a :: l, x =>
    match f a x.out with
    | (o, none) => cbList f l { x with out := o }
    | (o, some e) => ({ x with out := o }, some e)

/-- lib/walk.c:327-349 and its copies: up to the first slot without a child; ENOENT goes on. -/
def loop {σ : Type} (t : Laddr → Wk σ → Wk σ × Option Err) : List (Option Laddr) → Wk σ → Wk σ × Option Err
  | [], x => (x, none)
  | none :: _, x => (x, none)
  | some a :: l, x =>
    match t a x with
    | (x', some .other) => (x', some .other)
    | (x', _) => loop t l x'

/-- lib/walk.c:278-379 and copies, with the hook of lib/inspect.c:82-125: a map is staged, its children are walked, then the
addresses in it are passed on.  `d` levels of space maps are below. -/
def trav {σ : Type} (e : Env) (f : Laddr → σ → σ × Option Err) : Nat → Laddr → Wk σ → Wk σ × Option Err
  | 0, a, x =>
    match stage e 0 a x.repo with
    | (r, none) => ({ x with repo := r }, some .other)
    | (r, some l) => cbList f (lmap l) { x with repo := r }
  | d + 1, a, x =>
    match stage e (d + 1) a x.repo with
    | (r, none) => ({ x with repo := r }, some .other)
    | (r, some l) =>
      match loop (trav e f d) l { x with repo := r } with
      | (x', some er) => (x', some er)
      | (x', none) => cbList f (lmap l) x'

/-- lib/walk.c:633-692 `wac_do_traverse_sptree`, `wac_traverse_spaces`: the roots of the address spaces. -/
def spaces {σ : Type} (t : Laddr → Wk σ → Wk σ × Option Err) : List (Option Laddr) → Wk σ → Wk σ × Option Err
  | [], x => (x, none)
  | none :: l, x => spaces t l x
  | some a :: l, x =>
    match t a x with
    | (x', some .other) => (x', some .other)
    | (x', _) => spaces t l x'

/-- lib/inspect.c:208-225 `inspc_walk_fs` with 173-206: the space maps, the addresses in the super block, the super block, the boot
record. `roots` are the addresses in the super block. -/
def inspect {σ : Type} (e : Env) (f : Laddr → σ → σ × Option Err) (roots : List (Option Laddr)) (sb br : Laddr)
    (x : Wk σ) : Wk σ × Option Err :=
  match spaces (trav e f 4) roots x with
  | (x', some er) => (x', some er)
  | (x', none) => cbList f (roots.filterMap id ++ [sb, br]) x'

/-- lib/inspect.c:133-138 `noop_callback`. -/
def noop (_ : Laddr) (_ : Unit) : Unit × Option Err := ((), none)

/-- cmd/fsck.c:193-196: the repository afterwards, and whether the command says that all is well. -/
def fsck (e : Env) (roots : List (Option Laddr)) (sb br : Laddr) (r : Repo) : Repo × Bool :=
  match inspect e noop roots sb br ⟨r, ()⟩ with
  | (x, none) => (x.repo, true)
  | (x, some _) => (x.repo, false)

/-- The standard output: what was written, and how many bytes still can be. -/
structure Out where
  text : Bytes
  room : Nat

/-- stdio's `fputs` and `fflush` on it, as far as they get. -/
def Out.put (o : Out) (t : Bytes) : Out := ⟨o.text ++ t.take o.room, o.room - t.length⟩

/-- cmd/view.c:207-225 `cmd_view_show_laddr`, `cmd_view_cb`: the results of `fputs` and `fflush` are not looked at. -/
def show' (a : Laddr) (o : Out) : Out × Option Err := ((o.put (laddrToAscii a)).put [10], none)

/-- cmd/view.c:227-230. -/
def view (e : Env) (roots : List (Option Laddr)) (sb br : Laddr) (r : Repo) (room : Nat) : Repo × Bytes × Bool :=
  match inspect e show' roots sb br ⟨r, ⟨[], room⟩⟩ with
  | (x, none) => (x.repo, x.out.text, true)
  | (x, some _) => (x.repo, x.out.text, false)

end Silofs.Fk
