import Verif.Model.Xattr
/-
Symbolic links: lib/symlink.c, lib/namei.c:1347-1373, lib/opers.c:127-140 and
lib/infra/bytebuf.c:55-90.  The target is stored as a head of up to 480 bytes in the inode and up to two
parts of 4032 bytes, each in a node of its own.

Simplifications: staging a node for reading either fails or gives its content (cache and storage are one);
a drop that fails on the way is not modelled.
-/
namespace Silofs.Symlink
open Silofs.Xattr (Bytes bytesAt blit)

/-- defs.h:281-290 -/
def targetMax : Nat := 4096
def headMax : Nat := 480
def partMax : Nat := 4032
def nparts : Nat := 2

/-- The part of an inode that is specific to symbolic links (defs.h:802-805), with the size of the inode. -/
structure Link where
  size : Nat
  head : Nat → Nat
  tail : Nat → Option Nat

/-- Nodes with parts of targets by address (`none` if not allocated), and the links by inode number. -/
structure St where
  node : Nat → Option (Nat → Nat)
  link : Nat → Option Link

def St.setNode (s : St) (a : Nat) (f : Option (Nat → Nat)) : St :=
  { s with node := fun a' => if a' = a then f else s.node a' }

def St.setLink (s : St) (i : Nat) (l : Option Link) : St :=
  { s with link := fun i' => if i' = i then l else s.link i' }

/-- symlink.c:52-77 `symval_desc_setup`, the loop over the parts: their lengths, for `rem` bytes and `k` free
parts. -/
def partLens : Nat → Nat → Option (List Nat)
  | k, rem =>
    if rem = 0 then some []
    else match k with
      | 0 => none
      | k + 1 => (partLens k (rem - min rem partMax)).map (min rem partMax :: ·)

/-- symlink.c:150-156 `inln_setup`, with a new inode's size -/
def freshLink : Link := ⟨0, fun _ => 0, fun _ => none⟩

/-- symlink.c:420-460 `sylc_assign_symval_parts` with 373-393 and 402-418: store the parts of the target from
slot `j` on.  `alloc` gives the address of the new node, which must be free, or fails. -/
def assignParts (alloc : Nat → Option Nat) (i : Nat) : List Nat → Nat → Bytes → St → St × Bool
  | [], _, _, s => (s, true)
  | n :: ns, j, v, s =>
    match alloc j, s.link i with
    | some a, some l =>
      if s.node a = none then
        assignParts alloc i ns (j + 1) (v.drop n)
          ((s.setNode a (some (blit (fun _ => 0) 0 (v.take n)))).setLink i
            (some { l with tail := fun j' => if j' = j then some a else l.tail j' }))
      else (s, false)
    | _, _ => (s, false)

/-- symlink.c:462-487 and 489-503: `silofs_bind_symval` on a new inode.  Its result is always success; the size
is set only if the whole target was stored. -/
def bindSymval (alloc : Nat → Option Nat) (i : Nat) (v : Bytes) (s : St) : St :=
  match partLens nparts (v.length - min v.length headMax) with
  | none => s
  | some ns =>
    match s.link i with
    | none => s
    | some l =>
      match assignParts alloc i ns 0 (v.drop (min v.length headMax))
          (s.setLink i (some { l with head := blit l.head 0 (v.take (min v.length headMax)) })) with
      | (s', false) => s'
      | (s', true) => s'.setLink i ((s'.link i).map fun l => { l with size := v.length })

inductive Err where
  | inval | nametoolong | noent | io | exist
  deriving DecidableEq, Repr

/-- namei.c:1347-1413: check the target, make an inode with number `i`, store the target. -/
def symlink (alloc : Nat → Option Nat) (i : Nat) (v : Bytes) (s : St) : St × Option Err :=
  if v.length = 0 then (s, some .inval)
  else if targetMax < v.length then (s, some .nametoolong)
  else
    match s.link i with
    | some _ => (s, some .exist)
    | none => (bindSymval alloc i v (s.setLink i (some freshLink)), none)

/-- bytebuf.c:55-90 `silofs_bytebuf_append` to a buffer of `cap` bytes. -/
def append (cap : Nat) (buf bs : Bytes) : Bytes := buf ++ bs.take (cap - buf.length)

/-- symlink.c:276-300 `sylc_extern_symval_parts` from slot `j` on. -/
def readParts (io : Nat → Bool) (cap : Nat) (l : Link) (s : St) : List Nat → Nat → Bytes → Option Bytes
  | [], _, buf => some buf
  | n :: ns, j, buf =>
    match l.tail j with
    | none => none
    | some a =>
      match s.node a with
      | none => none
      | some f =>
        if io a then readParts io cap l s ns (j + 1) (append cap buf (bytesAt f 0 n)) else none

/-- symlink.c:342-362 `silofs_do_readlink` -/
def readlink (io : Nat → Bool) (i cap : Nat) (s : St) : Option Bytes :=
  match s.link i with
  | none => none
  | some l =>
    match partLens nparts (l.size - min l.size headMax) with
    | none => none
    | some ns => readParts io cap l s ns 0 (append cap [] (bytesAt l.head 0 (min l.size headMax)))

/-- symlink.c:528-544 `sylc_drop_symval` over the `k` slots from `j` on. -/
def dropParts (l : Link) : Nat → Nat → St → St
  | 0, _, s => s
  | k + 1, j, s =>
    match l.tail j with
    | none => s
    | some a => dropParts l k (j + 1) (s.setNode a none)

/-- namei.c:909-928 `drop_unlinked` of a link. -/
def unlink (i : Nat) (s : St) : St :=
  match s.link i with
  | none => s
  | some l => (dropParts l nparts 0 s).setLink i none

def fresh : St := ⟨fun _ => none, fun _ => none⟩

end Silofs.Symlink
