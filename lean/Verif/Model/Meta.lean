import Verif.Model.Addr
/-
Model of the metadata node header: lib/addr/meta.c:150-338, include/silofs/defs.h
330-340 and 624-631, lib/lnodes.c:35-60 and 1283-1345.

The checksum function (xxh32 seeded with the magic) is a parameter `H`, an
arbitrary function from payload bytes to a number.
-/
namespace Silofs.Meta
open Silofs Silofs.Addr

/-- `struct silofs_header` followed by its payload (the rest of the node). -/
structure Node where
  magic : Nat
  type : Nat
  flags : Nat
  size : Nat
  csum : Nat
  payload : List Nat
  deriving Repr, DecidableEq

def MAGIC : Nat := 0x6F6C6973
def HDRF_CSUM : Nat := 1
def HDRF_PTYPE : Nat := 2
def HDRF_LTYPE : Nat := 4
def HEADER_SIZE : Nat := 16

/-- lib/addr/meta.c:244-254 `silofs_hdr_setup`: the given flags are set and then
overwritten with zero. -/
def setup (n : Node) (type size : Nat) (_flags : Nat) : Node :=
  { n with magic := MAGIC, size := size, type := type % 256, csum := 0, flags := 0 }

/-- lib/addr/meta.c:274-280 `hdr_calc_chekcsum`: checksum of `size - 16` bytes after
the header. -/
def calcSum (H : List Nat → Nat) (n : Node) : Nat := H (n.payload.take (n.size - HEADER_SIZE))

/-- lib/addr/meta.c:282-287 `silofs_hdr_seal` with 223-227 `hdr_set_csum`. -/
def sealNode (H : List Nat → Nat) (n : Node) : Node :=
  { n with csum := calcSum H n, flags := n.flags ||| HDRF_CSUM }

inductive Res where
  | ok
  | corrupted
  | badcrc
  deriving Repr, DecidableEq

/-- lib/addr/meta.c:217-221 `hdr_has_flags`: any of the given flags. -/
def hasFlags (n : Node) (f : Nat) : Bool := decide (n.flags &&& f > 0)

/-- lib/addr/meta.c:256-274 `hdr_verify_base`. -/
def verifyBase (n : Node) (type size flags : Nat) : Res :=
  if n.magic ≠ MAGIC then .corrupted
  else if n.type ≠ type % 256 then .corrupted
  else if n.size ≠ size then .corrupted
  else if hasFlags n flags = false then .corrupted
  else .ok

/-- lib/addr/meta.c:289-301 `hdr_verify_checksum`. -/
def verifyCsum (H : List Nat → Nat) (n : Node) : Res :=
  if hasFlags n HDRF_CSUM = false then .ok
  else if calcSum H n ≠ n.csum then .badcrc
  else .ok

/-- lib/addr/meta.c:303-317 `silofs_hdr_verify`. -/
def verify (H : List Nat → Nat) (n : Node) (type size flags : Nat) : Res :=
  match verifyBase n type size flags with
  | .ok => verifyCsum H n
  | e => e

/-- lib/lnodes.c:1283-1289 `view_verify_by_hdr`. -/
def viewVerify (H : List Nat → Nat) (n : Node) (ltype : Nat) : Res :=
  verify H n ltype (ltypeSize ltype) (HDRF_CSUM ||| HDRF_LTYPE)

end Silofs.Meta
