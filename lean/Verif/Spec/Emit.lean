import Verif.Spec.Fuse
/-
What the kernel and a program take from a list that was answered: Linux's fs/fuse/readdir.c
`parse_dirfile` and `parse_dirplusfile`, and listxattr(2).
-/
namespace Silofs.Emit
open Silofs.Fuse

/-- An entry as getdents(2) reports it: name, inode, type, and the offset to continue from. -/
structure KEnt where
  name : List Nat
  ino : Nat
  dt : Nat
  off : Int
  deriving DecidableEq

/-- `parse_dirfile`: entries as long as one is there in whole; an empty name, one of more than 1024 bytes, or
one with a slash is an I/O error (none).  Every turn takes at least 24 bytes, so `n` turns do if there are
at most `24 * n` bytes. -/
def kdirents : Nat → Buf → Option (List KEnt)
  | 0, _ => some []
  | n + 1, b =>
    if b.length < 24 then some []
    else if rd 4 16 b = 0 ∨ 1024 < rd 4 16 b then none
    else if b.length < (24 + rd 4 16 b + 7) / 8 * 8 then some []
    else if 47 ∈ (b.drop 24).take (rd 4 16 b) then none
    else
      (kdirents n (b.drop ((24 + rd 4 16 b + 7) / 8 * 8))).map
        (⟨(b.drop 24).take (rd 4 16 b), rd 8 0 b, rd 4 20 b, toI64 (rd 8 8 b)⟩ :: ·)

/-- `parse_dirplusfile`: each entry behind the `struct fuse_entry_out` of its inode, 128 bytes. -/
def kdirplus : Nat → Buf → Option (List (KEnt × St))
  | 0, _ => some []
  | n + 1, b =>
    if b.length < 152 then some []
    else if rd 4 144 b = 0 ∨ 1024 < rd 4 144 b then none
    else if b.length < (152 + rd 4 144 b + 7) / 8 * 8 then some []
    else if 47 ∈ (b.drop 152).take (rd 4 144 b) then none
    else
      (kdirplus n (b.drop ((152 + rd 4 144 b + 7) / 8 * 8))).map
        ((⟨(b.drop 152).take (rd 4 144 b), rd 8 128 b, rd 4 148 b, toI64 (rd 8 136 b)⟩,
          kattr (b.drop 40) (rd 8 8 b)) :: ·)

/-- What a program sees of a reply of either kind. -/
def kdir (plus : Bool) (b : Buf) : Option (List KEnt) :=
  if plus then (kdirplus b.length b).map (·.map (·.1)) else kdirents b.length b

/-- The list of listxattr(2): names, each with its NUL (`cur`: the name being read). -/
def unpack (cur : List Nat) : Buf → List (List Nat)
  | [] => []
  | 0 :: b => cur :: unpack [] b
  | c :: b => unpack (cur ++ [c]) b

end Silofs.Emit
