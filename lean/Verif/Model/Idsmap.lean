/-
Mapping of user and group ids between host and file system, lib/idsmap.c, and its use by requests,
lib/opers.c:145-262.  The two tables (users, groups) have the same code; one model serves both.

Simplification: ids are natural numbers, the null id (-1) is `none`.
-/
namespace Silofs.Ids

/-- idsmap.c:20 -/
def hcap : Nat := 509

/-- idsmap.c:23-34 `struct silofs_umap_entry` -/
structure Ent where
  host : Nat
  fs : Nat
  deriving DecidableEq, Repr

/-- One of the two tables (users or groups) with its two arrays of bins. -/
structure Tab where
  htof : Nat → List Ent
  ftoh : Nat → List Ent
  size : Nat

/-- idsmap.c:166-193 `idsmap_init_uhmaps` -/
def Tab.empty : Tab := ⟨fun _ => [], fun _ => [], 0⟩

/-- idsmap.c:299-302 `idsmap_umap_slot_of` -/
def slot (id : Nat) : Nat := id % hcap

/-- idsmap.c:332-352 `idsmap_insert_umap`: each list gets the entry at its front. -/
def Tab.insert (t : Tab) (e : Ent) : Tab where
  htof := fun i => if i = slot e.host then e :: t.htof i else t.htof i
  ftoh := fun i => if i = slot e.fs then e :: t.ftoh i else t.ftoh i
  size := t.size + 1

/-- idsmap.c:644-657 `silofs_idsmap_populate_uids`; `mem` says whether memory suffices for each entry. -/
def populate (t : Tab) : List (Ent × Bool) → Option Tab
  | [] => some t
  | (e, mem) :: es => if mem then populate (t.insert e) es else none

/-- idsmap.c:383-403 `idsmap_lookup_uhtof` -/
def scanHost (id : Nat) : List Ent → Option Ent
  | [] => none
  | e :: es => if e.host = id then some e else scanHost id es

/-- idsmap.c:405-425 `idsmap_lookup_uftoh` -/
def scanFs (id : Nat) : List Ent → Option Ent
  | [] => none
  | e :: es => if e.fs = id then some e else scanFs id es

/-- Result: the id written out, and whether the status is 0 (otherwise `ENOENT`). -/
structure Out where
  id : Option Nat
  ok : Bool
  deriving DecidableEq, Repr

/-- idsmap.c:425-440 `idsmap_resolve_uhtof` with 668-679 -/
def Tab.map (t : Tab) (allow : Bool) : Option Nat → Out
  | none => ⟨none, true⟩
  | some id =>
    match scanHost id (t.htof (slot id)) with
    | some e => ⟨some e.fs, true⟩
    | none => ⟨some id, allow⟩

/-- idsmap.c:442-457 `idsmap_resolve_uftoh` with 695-706 -/
def Tab.rmap (t : Tab) (allow : Bool) : Option Nat → Out
  | none => ⟨none, true⟩
  | some id =>
    match scanFs id (t.ftoh (slot id)) with
    | some e => ⟨some e.host, true⟩
    | none => ⟨some id, allow⟩

/-- The map of a mounted file system. -/
structure Map where
  u : Tab
  g : Tab
  allow : Bool

/-- opers.c:221-229 `op_map_uidgid`: the ids, or `EPERM` -/
def Map.both (m : Map) (uid gid : Option Nat) : Option (Option Nat × Option Nat) :=
  if (m.u.map m.allow uid).ok && (m.g.map m.allow gid).ok then
    some ((m.u.map m.allow uid).id, (m.g.map m.allow gid).id)
  else none

/-- opers.c:249-262 `op_rmap_stat`: a missing entry is no error, the id is shown as it is. -/
def Map.shown (m : Map) (uid gid : Nat) : Option Nat × Option Nat :=
  ((m.u.rmap m.allow (some uid)).id, (m.g.rmap m.allow (some gid)).id)

/-! ### Authorization -/

/-- A request as it comes in: the ids of the caller and its process (0: none), and whether it is a write-back of the
kernel. -/
structure Req where
  uid : Nat
  gid : Nat
  pid : Nat
  kwrite : Bool

/-- The mount: its owner and flags (`SILOFS_ENVF_ALLOWADMIN`, `SILOFS_ENVF_ALLOWOTHER`). -/
structure Mnt where
  owner : Nat
  admin : Bool
  other : Bool
  ids : Map

/-- opers.c:160-176 `op_is_kernel` -/
def isKernel (r : Req) : Bool :=
  if r.kwrite then true else if r.pid ≠ 0 then false else r.uid == 0 && r.gid == 0

/-- opers.c:202-219 `op_authorize` on a mounted file system -/
def authorize (m : Mnt) (r : Req) : Bool :=
  isKernel r || r.uid == m.owner || (m.admin && r.uid == 0) || m.other

/-- opers.c:231-247 `op_map_creds`: the file-system credentials, or `EPERM` -/
def mapCreds (m : Mnt) (r : Req) : Option (Option Nat × Option Nat) :=
  if isKernel r then some (some r.uid, some r.gid) else m.ids.both (some r.uid) (some r.gid)

/-- The start of every request (e.g. opers.c:339-344): the credentials it runs with. -/
def start (m : Mnt) (r : Req) : Option (Option Nat × Option Nat) :=
  if authorize m r then mapCreds m r else none

end Silofs.Ids
