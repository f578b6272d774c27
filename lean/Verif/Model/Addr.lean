import Verif.Model.Bytes
/-
Model of lib/addr/{vaddr,laddr,uaddr,paddr,caddr}.c: in-memory addresses, their
on-disk encodings and their text form.

Offsets (`loff_t`) are `Int`, sizes and enums are `Nat`.  The on-disk structs are
modelled as the exact byte strings (include/silofs/defs.h:524-600).
-/
namespace Silofs.Addr
open Silofs

/-! ### Logical types, include/silofs/defs.h:372-401 -/

def LTYPE_NONE : Nat := 0
def LTYPE_BOOTREC : Nat := 1
def LTYPE_SUPER : Nat := 2
def LTYPE_SPNODE : Nat := 3
def LTYPE_SPLEAF : Nat := 4
def LTYPE_INODE : Nat := 5
def LTYPE_XANODE : Nat := 6
def LTYPE_SYMVAL : Nat := 7
def LTYPE_DTNODE : Nat := 8
def LTYPE_FTNODE : Nat := 9
def LTYPE_DATA1K : Nat := 10
def LTYPE_DATA4K : Nat := 11
def LTYPE_DATABK : Nat := 12
def LTYPE_LAST : Nat := 13

/-- lib/addr/ltype.c:176-209 `silofs_ltype_size` (sizes of the structs in
include/silofs/defs.h, which the C code asserts at compile time in lib/defs.c). -/
def ltypeSize (t : Nat) : Nat :=
  match t with
  | 1 => 1024
  | 2 => 8192
  | 3 => 32768
  | 4 => 32768
  | 5 => 1024
  | 6 => 4096
  | 7 => 4096
  | 8 => 8192
  | 9 => 8192
  | 10 => 1024
  | 11 => 4096
  | 12 => 65536
  | _ => 0

/-- SILOFS_OFF_NULL -/
def OFF_NULL : Int := -1

/-! ### Virtual address, lib/addr/vaddr.c -/

structure Vaddr where
  ltype : Nat
  off : Int
  len : Nat
  deriving Repr, DecidableEq

/-- lib/addr/vaddr.c:160-166 `silofs_vaddr_setup`. -/
def vaddrSetup (ltype : Nat) (off : Int) : Vaddr := ⟨ltype, off, ltypeSize ltype⟩

/-- lib/addr/vaddr.c:119-124 `s_vaddr_none`. -/
def vaddrNone : Vaddr := ⟨LTYPE_NONE, OFF_NULL, 0⟩

/-- lib/addr/vaddr.c:188-192 `silofs_vaddr_isnull`. -/
def Vaddr.isNull (v : Vaddr) : Bool := v.len == 0 || decide (v.off < 0) || v.ltype == LTYPE_NONE

/-- lib/addr/vaddr.c:62-78 `cpu_to_voff_ltype`: the two OR-ed parts have
disjoint bits, so OR is addition. -/
def voffLtype (off : Int) (ltype : Nat) : Nat :=
  if ltype ≠ LTYPE_NONE then toU64 off / 256 * 256 + ltype % 256 else 0

/-- lib/addr/vaddr.c:276-280 `silofs_vaddr64_htox` as 8 bytes. -/
def vaddr64Htox (v : Vaddr) : List Nat := leBytes 8 (voffLtype v.off v.ltype)

/-- lib/addr/vaddr.c:80-94 `voff_ltype_to_cpu` and 273-281
`silofs_vaddr64_xtoh`; the C code omits le64_to_cpu, harmless on the
little-endian platforms modelled here. -/
def vaddr64Xtoh (b : List Nat) : Vaddr :=
  let v := leVal b
  if v > 0 then vaddrSetup (v % 256) (toI64 (v / 256 * 256))
  else vaddrSetup LTYPE_NONE OFF_NULL

/-- lib/addr/vaddr.c:237-254 `silofs_vaddr56_htox`. -/
def vaddr56Htox (off : Int) : List Nat :=
  if 0 ≤ off then leBytes 7 (toU64 off / 256)
  else [255, 255, 255, 255, 255, 255, 255]

/-- lib/addr/vaddr.c:256-274 `silofs_vaddr56_xtoh`. `none` marks undefined
behaviour: the last byte is shifted into the sign bit of a signed 64-bit
integer. -/
def vaddr56Xtoh (b : List Nat) : Option Int :=
  if b = [255, 255, 255, 255, 255, 255, 255] then some OFF_NULL
  else if 256 * leVal b < 9223372036854775808 then some ((256 * leVal b : Nat) : Int)
  else none

/-! ### Virtual ranges -/

structure Vrange where
  beg : Int
  end_ : Int
  len : Nat
  height : Nat
  deriving Repr, DecidableEq

/-- lib/addr/vaddr.c:299-306 `silofs_vrange_setup` (`len` is the difference
converted to `size_t`). -/
def vrangeSetup (height : Nat) (beg end_ : Int) : Vrange := ⟨beg, end_, toU64 (end_ - beg), height⟩

/-- lib/addr/vaddr.c:96-106 `cpu_to_len_height` (bits 0..3 are zero in `len<<4`,
the shift wraps at 64 bits). -/
def lenHeight (len height : Nat) : Nat := (len * 16) % 18446744073709551616 + height % 16

/-- lib/addr/vaddr.c:375-380 `silofs_vrange128_htox`. -/
def vrange128Htox (r : Vrange) : List Nat :=
  leBytes 8 (toU64 r.beg) ++ leBytes 8 (lenHeight r.len r.height)

/-- lib/addr/vaddr.c:382-392 `silofs_vrange128_xtoh` with 106-117
`len_height_to_cpu`. -/
def vrange128Xtoh (b : List Nat) : Vrange :=
  let beg := toI64 (leVal (b.take 8))
  let lh := leVal (b.drop 8)
  vrangeSetup (lh % 16) beg (beg + (lh / 16 : Nat))

/-! ### Logical addresses, lib/addr/laddr.c -/

structure Lsid where
  lvid : List Nat
  lsize : Nat
  vindex : Nat
  vspace : Nat
  height : Nat
  ltype : Nat
  deriving Repr, DecidableEq

structure Laddr where
  lsid : Lsid
  pos : Int
  len : Nat
  deriving Repr, DecidableEq

/-- lib/addr/laddr.c:70-99 `height_to_lseg_size`. -/
def lsegSize (height : Nat) : Nat :=
  let sz := match height with
    | 1 => 65536 * 256
    | 2 => 32768 * 256
    | 3 => 32768 * 256
    | 4 => 32768 * 256
    | 5 => 32768 * 256
    | 6 => 32768 * 256
    | 7 => 8192
    | 8 => 1024
    | _ => 0
  min sz 16777216

/-- lib/addr/laddr.c:101-111 `lseg_vindex_of` (C integer division truncates; the
offset is asserted non-negative). -/
def vindexOf (voff : Int) (size : Nat) : Nat :=
  if size > 0 then (Int.tdiv (Int.tdiv voff size * size) size % 4294967296).toNat else 0

/-- lib/addr/laddr.c:222-235 `silofs_lsid_setup`. -/
def lsidSetup (lvid : List Nat) (voff : Int) (vspace height ltype : Nat) : Lsid :=
  { lvid, lsize := lsegSize height, vindex := vindexOf voff (lsegSize height), vspace, height, ltype }

/-- lib/addr/laddr.c:133-137 `silofs_lsid_isnull`. -/
def Lsid.isNull (l : Lsid) : Bool := l.ltype == LTYPE_NONE || l.lsize == 0 || l.vindex == 4294967295

/-- lib/addr/laddr.c:145-150 `silofs_lsid_pos`. -/
def lsidPos (l : Lsid) (off : Int) : Int := if l.lsize ≠ 0 then Int.tmod off l.lsize else 0

/-- lib/addr/laddr.c:281-292 `silofs_laddr_setup`. -/
def laddrSetup (l : Lsid) (off : Int) (len : Nat) : Laddr :=
  if l.lsize ≠ 0 ∧ 0 ≤ off then ⟨l, lsidPos l off, len⟩ else ⟨l, OFF_NULL, 0⟩

/-- lib/addr/laddr.c:342-346 `silofs_laddr_isnull`. -/
def Laddr.isNull (a : Laddr) : Bool := decide (a.pos < 0) || a.lsid.isNull

/-- lib/addr/laddr.c:348-354 `silofs_laddr_isvalid`. -/
def Laddr.isValid (a : Laddr) : Bool := !a.isNull && decide (a.pos + a.len ≤ a.lsid.lsize)

/-- lib/addr/laddr.c:247-257 `silofs_lsid32b_htox`. -/
def lsid32Htox (l : Lsid) : List Nat :=
  l.lvid ++ (leBytes 4 l.lsize ++ (leBytes 4 l.vindex ++
    ([l.vspace % 256, l.height % 256, l.ltype % 256] ++ [0, 0, 0, 0, 0])))

/-- lib/addr/laddr.c:259-268 `silofs_lsid32b_xtoh`. -/
def lsid32Xtoh (b : List Nat) : Lsid :=
  { lvid := b.take 16
    lsize := leVal ((b.drop 16).take 4)
    vindex := leVal ((b.drop 20).take 4)
    vspace := b.getD 24 0
    height := b.getD 25 0
    ltype := b.getD 26 0 }

/-- `(uint32_t)` conversion of a signed value. -/
def toU32 (x : Int) : Nat := (x % 4294967296).toNat

/-- lib/addr/laddr.c:411-418 `silofs_laddr48b_htox`. -/
def laddr48Htox (a : Laddr) : List Nat :=
  lsid32Htox a.lsid ++ (leBytes 4 (toU32 a.pos) ++ (leBytes 4 a.len ++ [0, 0, 0, 0, 0, 0, 0, 0]))

/-- lib/addr/laddr.c:420-426 `silofs_laddr48b_xtoh`. -/
def laddr48Xtoh (b : List Nat) : Laddr :=
  { lsid := lsid32Xtoh (b.take 32)
    pos := (leVal ((b.drop 32).take 4) : Nat)
    len := leVal ((b.drop 36).take 4) }

/-- Fields fit the on-disk widths. -/
structure Lsid.Fits (l : Lsid) : Prop where
  lvid : IsBytes 16 l.lvid
  lsize : l.lsize < 4294967296
  vindex : l.vindex < 4294967296
  vspace : l.vspace < 256
  height : l.height < 256
  ltype : l.ltype < 256

structure Laddr.Fits (a : Laddr) : Prop where
  lsid : a.lsid.Fits
  pos0 : 0 ≤ a.pos
  pos1 : a.pos < 4294967296
  len : a.len < 4294967296

/-! ### Unode address, lib/addr/uaddr.c -/

structure Uaddr where
  laddr : Laddr
  voff : Int
  deriving Repr, DecidableEq

/-- lib/addr/uaddr.c:110-115 `silofs_uaddr64b_htox`.  The struct's trailing
padding is not written by the C code; callers pass zeroed memory. -/
def uaddr64Htox (u : Uaddr) : List Nat :=
  laddr48Htox u.laddr ++ (leBytes 8 (toU64 u.voff) ++ [0, 0, 0, 0, 0, 0, 0, 0])

/-- lib/addr/uaddr.c:117-122 `silofs_uaddr64b_xtoh`. -/
def uaddr64Xtoh (b : List Nat) : Uaddr :=
  { laddr := laddr48Xtoh (b.take 48), voff := toI64 (leVal ((b.drop 48).take 8)) }

/-! ### Persistent address, lib/addr/paddr.c -/

structure Psid where
  pvid : List Nat
  index : Nat
  deriving Repr, DecidableEq

structure Paddr where
  psid : Psid
  off : Int
  len : Nat
  ptype : Nat
  deriving Repr, DecidableEq

/-- lib/addr/paddr.c:204-210 `silofs_psid32b_htox`. -/
def psid32Htox (p : Psid) : List Nat := p.pvid ++ (leBytes 4 p.index ++ List.replicate 12 0)

/-- lib/addr/paddr.c:212-217 `silofs_psid32b_xtoh`. -/
def psid32Xtoh (b : List Nat) : Psid := ⟨b.take 16, leVal ((b.drop 16).take 4)⟩

/-- lib/addr/paddr.c:305-313 `silofs_paddr48b_htox`. -/
def paddr48Htox (p : Paddr) : List Nat :=
  psid32Htox p.psid ++ (leBytes 8 (toU64 p.off) ++ (leBytes 4 p.len ++ [p.ptype % 256, 0, 0, 0]))

/-- lib/addr/paddr.c:315-322 `silofs_paddr48b_xtoh`. -/
def paddr48Xtoh (b : List Nat) : Paddr :=
  { psid := psid32Xtoh (b.take 32)
    off := toI64 (leVal ((b.drop 32).take 8))
    len := leVal ((b.drop 40).take 4)
    ptype := b.getD 44 0 }

structure Paddr.Fits (p : Paddr) : Prop where
  pvid : IsBytes 16 p.psid.pvid
  index : p.psid.index < 4294967296
  off : IsI64 p.off
  len : p.len < 4294967296
  ptype : p.ptype < 256

/-! ### Content address, lib/addr/caddr.c -/

structure Caddr where
  hash : List Nat
  size : Nat
  ctype : Nat
  deriving Repr, DecidableEq

/-- lib/addr/caddr.c:200-207 `silofs_caddr64b_htox`. -/
def caddr64Htox (c : Caddr) : List Nat :=
  c.hash ++ (leBytes 4 c.size ++ ([c.ctype % 256] ++ List.replicate 27 0))

/-- lib/addr/caddr.c:209-215 `silofs_caddr64b_xtoh`. -/
def caddr64Xtoh (b : List Nat) : Caddr :=
  { hash := b.take 32, size := leVal ((b.drop 32).take 4), ctype := b.getD 36 0 }

structure Caddr.Fits (c : Caddr) : Prop where
  hash : IsBytes 32 c.hash
  size : c.size < 4294967296
  ctype : c.ctype < 256

/-! ### Text forms -/

/-- `snprintf("%0<n>x")` of a value that fits `n` hex digits. -/
def hexFixed : Nat → Nat → List Nat
  | 0, _ => []
  | n + 1, v => hexFixed n (v / 16) ++ [nibToAscii v]

/-- Accumulate one hex digit. -/
def hexStep (acc : Option Nat) (c : Nat) : Option Nat :=
  match acc, asciiToNib c with
  | some a, some d => some (a * 16 + d)
  | _, _ => none

/-- Value of a string of hex digits, most significant first; `none` if some
character is not a hex digit. -/
def hexVal (l : List Nat) : Option Nat := l.foldl hexStep (some 0)

/-- libuuid `uuid_unparse_lower`, lib/addr/meta.c:121-126: 8-4-4-4-12 lower-case
hex groups (36 characters).  External library function, modelled by its
documented behaviour. -/
def uuidText (u : List Nat) : List Nat :=
  let h := fun (l : List Nat) => l.flatMap byteToAscii
  h (u.take 4) ++ [45] ++ h ((u.drop 4).take 2) ++ [45] ++ h ((u.drop 6).take 2) ++ [45] ++
    h ((u.drop 8).take 2) ++ [45] ++ h ((u.drop 10).take 6)

/-- Decode a run of hex pairs. -/
def hexPairs : List Nat → Option (List Nat)
  | [] => some []
  | [_] => none
  | a :: b :: rest =>
    match asciiToByte a b, hexPairs rest with
    | some v, some r => some (v :: r)
    | _, _ => none

/-- libuuid `uuid_parse_range` via lib/addr/meta.c:128-140 `silofs_uuid_parse`:
36 characters with dashes at 8, 13, 18, 23. -/
def uuidParse (t : List Nat) : Option (List Nat) :=
  if t.length = 36 ∧ t.getD 8 0 = 45 ∧ t.getD 13 0 = 45 ∧ t.getD 18 0 = 45 ∧ t.getD 23 0 = 45 then
    hexPairs (t.take 8 ++ (t.drop 9).take 4 ++ (t.drop 14).take 4 ++ (t.drop 19).take 4 ++ t.drop 24)
  else none

/-- lib/addr/laddr.c:442-455 `laddr_to_repr`, 496-504 `laddr_repr_meta_to_str`,
506-528 `laddr_repr_to_str` and 565-572 `silofs_laddr_to_ascii`:
`"%s:%s-%08x-%08x-%08x-%08x"` (lvid, version/height/vspace/ltype, lsize, vindex,
pos, len), no truncation as the buffer holds 256 characters. -/
def laddrToAscii (a : Laddr) : List Nat :=
  uuidText a.lsid.lvid ++ ([58] ++ ([nibToAscii 1, nibToAscii a.lsid.height] ++
    (byteToAscii (a.lsid.vspace % 256) ++ (byteToAscii (a.lsid.ltype % 256) ++
    ([45] ++ (hexFixed 8 (a.lsid.lsize % 4294967296) ++
    ([45] ++ (hexFixed 8 (a.lsid.vindex % 4294967296) ++
    ([45] ++ (hexFixed 8 (toU32 a.pos) ++ ([45] ++ hexFixed 8 (a.len % 4294967296))))))))))))

/-- Interpret 32 bits as `int32_t`. -/
def toI32 (u : Nat) : Int := if u < 2147483648 then (u : Int) else (u : Int) - 4294967296

/-- lib/addr/laddr.c:530-563 `laddr_repr_from_str`, 461-482 `laddr_from_repr`,
574-588 `silofs_laddr_from_ascii`.  `sscanf("%36s:%6s-%08x-…")` is modelled for
texts where every field has its full width: 36 + ':' + 6 + 4 times ('-' and 8 hex
digits); `none` is an error. Errors of `silofs_ascii_to_byte` for vspace and
ltype are ignored by the C code (the fields then keep 0); modelled as errors. -/
def laddrFromAscii (t : List Nat) : Option Laddr :=
  if t.length = 79 ∧ t.getD 36 0 = 58 ∧ t.getD 43 0 = 45 ∧ t.getD 52 0 = 45 ∧ t.getD 61 0 = 45 ∧
      t.getD 70 0 = 45 then
    match uuidParse (t.take 36), asciiToNib (t.getD 37 0), asciiToNib (t.getD 38 0),
      asciiToByte (t.getD 39 0) (t.getD 40 0), asciiToByte (t.getD 41 0) (t.getD 42 0),
      hexVal ((t.drop 44).take 8), hexVal ((t.drop 53).take 8), hexVal ((t.drop 62).take 8),
      hexVal ((t.drop 71).take 8) with
    | some uu, some ver, some height, some vspace, some ltype, some lsize, some vindex, some pos,
      some len =>
      if ver ≠ 1 then none
      else
        let a : Laddr := ⟨⟨uu, lsize, vindex, vspace, height, ltype⟩, toI32 pos, len⟩
        if a.isValid then some a else none
    | _, _, _, _, _, _, _, _, _ => none
  else none

end Silofs.Addr
