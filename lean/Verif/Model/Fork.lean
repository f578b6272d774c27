/-
Model of taking a snapshot as a whole: the server side (lib/namei.c `do_clone`,
lib/fsenv.c `silofs_fsenv_forkfs`, saving of the boot records), the command
(cmd/snap.c) which re-writes the user's names, and opening a file-system by name
(cmd/bootref.c, lib/execlib.c `check_superblock`).

The content of a volume is an arbitrary type `α`: that a fork of the super-block
has the content of its origin, and that the two are independent from then on, is C24 and
C25.  Volumes and boot records are numbered; new ones get fresh numbers (in the code random
identities and SHA-256 addresses).  A failure of step `i` of the server is an oracle `fails`;
a failing flush has written the super-blocks selected by `part`.
-/
namespace Silofs.Fork

inductive Err where
  | enoent | noref | erofs | eexist | refused
  deriving Repr, DecidableEq

/-- A volume: its content and the super-block's fossil flag
(include/silofs/defs.h `SILOFS_SUPERF_FOSSIL`). -/
structure Vol (α : Type) where
  content : α
  fossil : Bool

abbrev Name := List Nat

/-- State: volumes as in the memory of the running mount and as stored; boot records;
names; what the mount is bound to; the next fresh number. -/
structure Sys (α : Type) where
  mem : Nat → Option (Vol α)
  disk : Nat → Option (Vol α)
  boots : Nat → Option Nat
  names : Name → Option Nat
  live : Nat
  boot : Nat
  next : Nat

def upd {κ β : Type} [DecidableEq κ] (f : κ → Option β) (k : κ) (v : β) : κ → Option β :=
  fun x => if x = k then some v else f x

variable {α : Type}

/-- A change of the mounted file-system; refused on a fossil
(lib/super.c:686-698 `silof_sbi_check_mut_fs`). -/
def write (f : α → α) (s : Sys α) : Sys α :=
  match s.mem s.live with
  | some v => if v.fossil then s else { s with mem := upd s.mem s.live ⟨f v.content, false⟩ }
  | none => s

/-- lib/namei.c:2339-2352 `flush_and_sync`, complete: all of memory is stored. -/
def sync (s : Sys α) : Sys α := { s with disk := fun v => (s.mem v).or (s.disk v) }

/-- A flush that fails: some volumes have been stored. -/
def syncPart (part : Nat → Bool) (s : Sys α) : Sys α :=
  { s with disk := fun v => if part v then (s.mem v).or (s.disk v) else s.disk v }

/-- lib/fsenv.c:582-598 `fsenv_clone_rebind_super`: a new super-block with the
content and flags of volume `cur`; the mount is bound to it at once. -/
def cloneRebind (cur : Nat) (s : Sys α) : Sys α :=
  match s.mem cur with
  | some v => { s with mem := upd s.mem s.next v, live := s.next, next := s.next + 1 }
  | none => s

/-- lib/fsenv.c:600-603 `sbi_mark_fossil`. -/
def markFossil (cur : Nat) (s : Sys α) : Sys α :=
  match s.mem cur with
  | some v => { s with mem := upd s.mem cur { v with fossil := true } }
  | none => s

/-- lib/boot.c:673-705 `silofs_save_bootrec` of a record that leads to volume `vol`
(crash safety and round trip of one record are C48). -/
def saveBoot (vol : Nat) (s : Sys α) : Sys α × Nat :=
  ({ s with boots := upd s.boots s.next vol, next := s.next + 1 }, s.next)

/-- lib/namei.c:2354-2381 `do_clone` with lib/fsenv.c:619-643 `silofs_fsenv_forkfs` and
lib/namei.c:2319-2337 `do_post_clone_updates`.  Answer: state, and on success the boot
addresses `(new, alt)`.  Permission checks of lib/namei.c:2281-2307 `check_clone`: only
that of a writable file-system.  `fails` 0: first flush, 1: first new super-block, 2: second,
3: second flush, 4 and 5: saving the boot records, 6: re-opening the ciphers. -/
def clone (fails : Nat → Bool) (part : Nat → Bool) (s : Sys α) : Sys α × Option (Nat × Nat) :=
  match s.mem s.live with
  | none => (s, none)
  | some v =>
    if v.fossil then (s, none)
    else if fails 0 then (syncPart part s, none)
    else if fails 1 then (sync s, none)
    else if fails 2 then (cloneRebind s.live (sync s), none)
    else if fails 3 then
      (syncPart part (markFossil s.live (cloneRebind s.live (cloneRebind s.live (sync s)))), none)
    else if fails 4 then
      (sync (markFossil s.live (cloneRebind s.live (cloneRebind s.live (sync s)))), none)
    else
      let s5 := sync (markFossil s.live (cloneRebind s.live (cloneRebind s.live (sync s))))
      let s6 := saveBoot s5.live s5
      if fails 5 then (s6.1, none)
      else
        let s7 := saveBoot s.next s6.1
        if fails 6 then (s7.1, none)
        else ({ s7.1 with boot := s6.2 }, some (s6.2, s7.2))

/-- cmd/snap.c:390-444 `cmd_execute_snap`: refuse an existing snapshot name, clone, save the
snapshot's name, save the original name again.  `saves` is how many of the two
names get saved before the command is killed (2: none is lost).  Saving one name
is atomic (cmd/bootref.c:70-108 `cmd_save_bref_file`: a temporary file and rename). -/
def snap (fails : Nat → Bool) (part : Nat → Bool) (saves : Nat) (name snapname : Name) (s : Sys α) :
    Sys α × Except Err Unit :=
  if (s.names snapname).isSome then (s, .error .eexist)
  else match clone fails part s with
  | (s1, none) => (s1, .error .refused)
  | (s1, some (bnew, balt)) =>
    if saves = 0 then (s1, .error .refused)
    else if saves = 1 then ({ s1 with names := upd s1.names snapname balt }, .error .refused)
    else ({ s1 with names := upd (upd s1.names snapname balt) name bnew }, .ok ())

/-- Opening by name, from what is stored: cmd/bootref.c:163-167 `cmd_bootref_load`, then the boot
record, then lib/execlib.c:1009-1028 `check_superblock`. -/
def openBy (s : Sys α) (name : Name) (rdonly : Bool) : Except Err α :=
  match s.names name with
  | none => .error .enoent
  | some b =>
    match s.boots b with
    | none => .error .noref
    | some v =>
      match s.disk v with
      | none => .error .enoent
      | some vol => if vol.fossil && !rdonly then .error .erofs else .ok vol.content

/-- cmd/snap.c:365-375 `cmd_snap_offline` run beside a mount of the same file-system: there is no
lock (cmd/snap.c never calls `cmd_lock_fs`).  A second instance works on what is stored;
the first one's memory does not change. -/
def snapOffline (name snapname : Name) (s : Sys α) : Sys α :=
  match s.names name with
  | none => s
  | some b =>
    match s.boots b with
    | none => s
    | some v =>
      match s.disk v with
      | none => s
      | some vol =>
        if vol.fossil then s
        else { s with
          disk := upd (upd (upd s.disk s.next vol) (s.next + 1) vol) v { vol with fossil := true }
          boots := upd (upd s.boots (s.next + 2) (s.next + 1)) (s.next + 3) s.next
          names := upd (upd s.names snapname (s.next + 3)) name (s.next + 2)
          next := s.next + 4 }

/-- Two snapshot commands at the same time: both have their names checked and their clones made,
the second saves its names first, then the first one saves its own. -/
def snapRace (name sn1 sn2 : Name) (s : Sys α) : Sys α :=
  match clone (fun _ => false) (fun _ => false) s with
  | (s1, some (bnew1, balt1)) =>
    match clone (fun _ => false) (fun _ => false) s1 with
    | (s2, some (bnew2, balt2)) =>
      { s2 with names := upd (upd (upd (upd s2.names sn2 balt2) name bnew2) sn1 balt1) name bnew1 }
    | (s2, none) => s2
  | (s1, none) => s1

end Silofs.Fork
