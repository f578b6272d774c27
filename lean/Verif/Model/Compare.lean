import Verif.Model.Addr
/-
Comparison of addresses: lib/addr/*.c and the keys of lib/hmdq/hmapq.c.

Differences of `long` values are taken in `Int` (the operands are sizes, indices and offsets far below 2^62, whose
difference does not overflow).  The result of a comparison is positive, negative or zero.
-/
namespace Silofs.Compare
open Silofs.Addr

/-- `cmp = ...; if (cmp) return cmp; ...` -/
def thn (c d : Int) : Int := if c ≠ 0 then c else d

/-- memcmp(3) of buffers of one length -/
def memcmp : List Nat → List Nat → Int
  | x :: xs, y :: ys => if x = y then memcmp xs ys else (x : Int) - y
  | _, _ => 0

/-- lib/addr/meta.c:115-119 `silofs_uuid_compare`: uuid_compare(3) compares the 16 bytes in order -/
def uuidCompare (x y : List Nat) : Int := memcmp x y

/-- lib/addr/laddr.c:175-205 `lsid_compare` -/
def lsidCompare (x y : Lsid) : Int :=
  thn (uuidCompare x.lvid y.lvid) <| thn ((y.height : Int) - x.height) <| thn ((y.vindex : Int) - x.vindex) <|
  thn ((y.vspace : Int) - x.vspace) <| thn ((y.ltype : Int) - x.ltype) <| thn ((y.lsize : Int) - x.lsize) 0

/-- lib/addr/laddr.c:322-340 `silofs_laddr_compare` -/
def laddrCompare (x y : Laddr) : Int :=
  thn (lsidCompare x.lsid y.lsid) <| thn (x.pos - y.pos) <| thn ((x.len : Int) - y.len) 0

/-- include/silofs/addr/uaddr.h:25-28 -/
structure UAddr where
  laddr : Laddr
  voff : Int
  deriving DecidableEq

/-- lib/addr/uaddr.c:62-76 `silofs_uaddr_compare` -/
def uaddrCompare (x y : UAddr) : Int := thn (laddrCompare x.laddr y.laddr) <| thn (x.voff - y.voff) 0

/-- include/silofs/addr/paddr.h:24-35 -/
structure PAddr where
  pvid : List Nat
  index : Nat
  off : Int
  len : Nat
  ptype : Nat
  deriving DecidableEq

/-- lib/addr/paddr.c:276-298 `silofs_paddr_compare` with 166-179 `psid_compare` -/
def paddrCompare (x y : PAddr) : Int :=
  thn (thn (uuidCompare x.pvid y.pvid) <| thn ((y.index : Int) - x.index) 0) <| thn (x.off - y.off) <|
  thn ((x.len : Int) - y.len) <| thn ((x.ptype : Int) - y.ptype) 0

/-- Subtraction of two values of an enumeration without negative members: gcc and clang make its type `unsigned int`, so the result is
not negative. -/
def enumSub (x y : Nat) : Int := ((x + 4294967296 - y) % 4294967296 : Nat)

/-- lib/addr/vaddr.c:134-152 `silofs_vaddr_compare`.  The types are subtracted as they are; offsets and lengths are
signed. -/
def vaddrCompare (x y : Vaddr) : Int :=
  thn (enumSub x.ltype y.ltype) <| thn (x.off - y.off) <| thn ((x.len : Int) - y.len) 0

/-- lib/addr/blobid.c:41-51 `silofs_blobid_compare`; an id is its bytes -/
def blobidCompare (x y : List Nat) : Int :=
  if (x.length : Int) - y.length = 0 then memcmp x y else (x.length : Int) - y.length

/-- include/silofs/hmdq/hmapq.h:27-48 `struct silofs_hkey` -/
inductive HKey where
  | none
  | blobid (b : List Nat)
  | paddr (p : PAddr)
  | uaddr (u : UAddr)
  | vaddr (v : Vaddr)

def HKey.type : HKey → Int
  | .none => 0
  | .blobid _ => 1
  | .paddr _ => 2
  | .uaddr _ => 3
  | .vaddr _ => 4

/-- lib/hmdq/hmapq.c:169-193 `hkey_compare_as` -/
def hkeyCompareAs : HKey → HKey → Int
  | .blobid x, .blobid y => blobidCompare x y
  | .paddr x, .paddr y => paddrCompare x y
  | .uaddr x, .uaddr y => uaddrCompare x y
  | .vaddr x, .vaddr y => vaddrCompare x y
  | _, _ => 0

/-- lib/hmdq/hmapq.c:195-205 `silofs_hkey_compare` -/
def hkeyCompare (x y : HKey) : Int :=
  if y.type - x.type = 0 then hkeyCompareAs x y else y.type - x.type

end Silofs.Compare
