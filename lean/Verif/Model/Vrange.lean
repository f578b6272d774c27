import Verif.Model.Addr
/-
Model of the space-map geometry: lib/addr/offlba.c, lib/addr/vaddr.c:22-58 and
291-366, lib/spmaps.c:164-181 and 1669-1690, lib/super.c:769-800.
-/
namespace Silofs.Vrange
open Silofs Silofs.Addr

def HEIGHT_NONE : Nat := 0
def HEIGHT_VDATA : Nat := 1
def HEIGHT_SPLEAF : Nat := 2
def HEIGHT_SPNODE1 : Nat := 3
def HEIGHT_SPNODE2 : Nat := 4
def HEIGHT_SPNODE3 : Nat := 5
def HEIGHT_SPNODE4 : Nat := 6
def HEIGHT_SUPER : Nat := 7

/-- lib/addr/vaddr.c:22-58 `silofs_height_to_space_span`. -/
def spanOf (height : Nat) : Nat :=
  let shift := match height with
    | 2 => 1
    | 3 => 2
    | 4 => 3
    | 5 => 4
    | 6 => 5
    | 7 => 5
    | 8 => 5
    | 9 => 5
    | _ => 0
  2 ^ (8 * shift) * 65536

/-- lib/addr/offlba.c:67-70 `silofs_off_align` (C division truncates to zero). -/
def offAlign (off : Int) (align : Nat) : Int := Int.tdiv off align * align

/-- lib/addr/offlba.c:77-80 `silofs_off_next`. -/
def offNext (off : Int) (len : Nat) : Int := offAlign (off + len) len

/-- lib/addr/vaddr.c:323-330 `silofs_vrange_of_spmap` (and 314-321
`silofs_vrange_of_space`). -/
def ofSpmap (height : Nat) (voff : Int) : Vrange :=
  let span := spanOf height
  let beg := offAlign voff span
  vrangeSetup height beg (offNext beg span)

/-- lib/addr/vaddr.c:294-297 `silofs_vrange_within`. -/
def within (r : Vrange) (off : Int) : Bool := decide (r.beg ≤ off) && decide (off < r.end_)

/-- lib/addr/vaddr.c:332-346 `silofs_vrange_voff_at`. -/
def voffAt (r : Vrange) (slot : Nat) : Int :=
  let span := spanOf (r.height - 1)
  offAlign (r.beg + slot * span) span

/-- lib/addr/vaddr.c:348-362 `silofs_vrange_next`. -/
def next (r : Vrange) (voff : Int) : Int :=
  if voff < r.beg then r.beg
  else if voff ≥ r.end_ then voff
  else offNext voff (spanOf (r.height - 1))

/-- Outcome of a computation that may overflow a signed integer or fail an
assertion. -/
inductive SlotRes where
  | slot (n : Nat)
  | overflow
  | assertFail
  deriving Repr, DecidableEq

/-- lib/spmaps.c:164-181 `spnode_slot_of`: the product `roff * nslots` is computed
in signed 64-bit arithmetic. -/
def slotOf (r : Vrange) (voff : Int) : SlotRes :=
  let roff := voff - r.beg
  if roff * 256 < -9223372036854775808 ∨ roff * 256 ≥ 9223372036854775808 then .overflow
  else
    let slot := toU64 (roff * 256) / r.len
    if slot < 256 then .slot slot else .assertFail

/-- lib/spmaps.c:1669-1677 `sni_base_voff_of_child` (and lib/super.c:769-777). -/
def childBase (r : Vrange) (voff : Int) : Int := (ofSpmap (r.height - 1) voff).beg

/-- lib/spmaps.c: slot of a block within a leaf, `lba % 256` where
`lba = off / 64K` (lib/addr/offlba.c:48-52, lib/spmaps.c `spleaf` block slots). -/
def leafSlot (voff : Int) : Nat := (Int.tdiv voff 65536).toNat % 256

end Silofs.Vrange
