import Verif.Model.Symlink
/-
The blocks of a symbolic link.  The storing of a target is that of Verif.Model.Symlink; here is how often it adds
to the counter of the inode.
-/
namespace Silofs.Symlink
open Silofs.Xattr (Bytes bytesAt blit)

/-- lib/symlink.c:424-433 `sylc_bind_symval_part`, called by 435-449 `sylc_assign_symval_parts` once per part which
could be made: what has been added to the counter, in KB, with a part of 4 KB (lib/inode.c:1343-1356
`recalc_iblocks`), by `assignParts` with the same arguments. -/
def partsKb (alloc : Nat → Option Nat) (i : Nat) : List Nat → Nat → Bytes → St → Int → Int
  | [], _, _, _, b => b
  | n :: ns, j, v, s, b =>
    match alloc j, s.link i with
    | some a, some l =>
      if s.node a = none then
        partsKb alloc i ns (j + 1) (v.drop n)
          ((s.setNode a (some (blit (fun _ => 0) 0 (v.take n)))).setLink i
            (some { l with tail := fun j' => if j' = j then some a else l.tail j' })) (b + 4)
      else b
    | _, _ => b

/-- The counter of a new link after lib/symlink.c:451-470 `sylc_assign_symval`. -/
def symKb (alloc : Nat → Option Nat) (i : Nat) (v : Bytes) (s : St) : Int :=
  match partLens nparts (v.length - min v.length headMax) with
  | none => 0
  | some ns =>
    partsKb alloc i ns 0 (v.drop (min v.length headMax))
      (s.setLink i (some { freshLink with head := blit freshLink.head 0 (v.take (min v.length headMax)) })) 0

/-- lib/inode.c:1047-1055 `ii_stat_blocks`. -/
def symStatBlocks (kb : Int) : Int := kb * 1024 / 512

end Silofs.Symlink
