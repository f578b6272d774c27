import Verif.Model.Report
import Verif.Model.Vrange
/-
The super block (lib/super.c) as 8192 bytes of memory: how it is filled at format, how the roots of
the space maps, the main segments and the counters are written into it, how it is copied at a fork,
and what is looked at when it is loaded (silofs_verify_super_block, lib/super.c:640-670).

Memory is a function from offsets to bytes; offsets are those of struct silofs_super_block
(include/silofs/defs.h:699-732, pinned by lib/require.c:229-253).

Not modelled: the header (offset 0, see Verif/Model/Verify.lean), the software version, the
endianness mark, the name, and the lists of the cache the in-memory object stands in.  Dates of birth
are 64 bytes as they stand.
-/
namespace Silofs.Super
open Silofs Silofs.Addr

/-- Memory of a super block. -/
abbrev Blk := Nat → Nat

/-- A store of `l` at `o`. -/
def wr (b : Blk) (o : Nat) (l : List Nat) : Blk :=
  fun i => if o ≤ i ∧ i < o + l.length then l.getD (i - o) 0 else b i

/-- `n` bytes at `o`. -/
def rd (b : Blk) (o n : Nat) : List Nat := (List.range n).map fun j => b (o + j)

/-- A store through a pointer that may be NULL (then nothing is stored). -/
def setAt (o : Option Nat) (b : Blk) (l : List Nat) : Blk :=
  match o with
  | none => b
  | some o => wr b o l

/-- `while (++ltype < SILOFS_LTYPE_LAST)` from `SILOFS_LTYPE_NONE`. -/
def kinds : List Nat := List.range' 1 12

/-! ### Addresses -/

/-- lib/addr/uaddr.c:34-37 `silofs_uaddr_isnull`. -/
def uaddrNull (u : Uaddr) : Bool := decide (u.voff < 0) || u.laddr.isNull

/-- lib/addr/uaddr.c:22-27 `s_uaddr_none`: what is not named there is zero. -/
def uaddrNone : Uaddr := ⟨⟨⟨List.replicate 16 0, 0, 0, 0, 0, LTYPE_NONE⟩, -1, 0⟩, -1⟩

/-- lib/addr/laddr.c:237-245 `silofs_lsid32b_reset` (`SILOFS_HEIGHT_LAST` 9). -/
def lsid32Reset : List Nat := lsid32Htox ⟨List.replicate 16 0, 0, 4294967295, LTYPE_NONE, 9, LTYPE_NONE⟩

/-- lib/addr/uaddr.c:104-108 `silofs_uaddr64b_reset`, with lib/addr/laddr.c:403-409. -/
def uaddr64Reset : List Nat :=
  uaddr64Htox ⟨⟨⟨List.replicate 16 0, 0, 4294967295, LTYPE_NONE, 9, LTYPE_NONE⟩, 0, 0⟩, -1⟩

/-! ### Tables by kind of object -/

/-- lib/super.c:293-334 `sb_sproot_by`, struct silofs_sb_sproots include/silofs/defs.h:633-644. -/
def rootOff (t : Nat) : Option Nat :=
  if t = LTYPE_INODE then some (1024 + 64)
  else if t = LTYPE_XANODE then some (1024 + 128)
  else if t = LTYPE_DTNODE then some (1024 + 192)
  else if t = LTYPE_FTNODE then some (1024 + 256)
  else if t = LTYPE_SYMVAL then some (1024 + 320)
  else if t = LTYPE_DATA1K then some (1024 + 384)
  else if t = LTYPE_DATA4K then some (1024 + 448)
  else if t = LTYPE_DATABK then some (1024 + 512)
  else none

/-- lib/super.c:204-245 `sb_mainlsid_by`, struct silofs_sb_lsids include/silofs/defs.h:646-656. -/
def mainOff (t : Nat) : Option Nat :=
  if t = LTYPE_DATA1K then some (2048 + 160)
  else if t = LTYPE_DATA4K then some (2048 + 192)
  else if t = LTYPE_DATABK then some (2048 + 224)
  else if t = LTYPE_INODE then some 2048
  else if t = LTYPE_XANODE then some (2048 + 32)
  else if t = LTYPE_DTNODE then some (2048 + 64)
  else if t = LTYPE_FTNODE then some (2048 + 96)
  else if t = LTYPE_SYMVAL then some (2048 + 128)
  else none

/-- lib/super.c:397-438 `sb_rootiv_by`, struct silofs_sb_rootivs include/silofs/defs.h:658-669. -/
def ivOff (t : Nat) : Option Nat :=
  if t = LTYPE_INODE then some (3072 + 16)
  else if t = LTYPE_XANODE then some (3072 + 32)
  else if t = LTYPE_DTNODE then some (3072 + 48)
  else if t = LTYPE_FTNODE then some (3072 + 64)
  else if t = LTYPE_SYMVAL then some (3072 + 80)
  else if t = LTYPE_DATA1K then some (3072 + 96)
  else if t = LTYPE_DATA4K then some (3072 + 112)
  else if t = LTYPE_DATABK then some (3072 + 128)
  else none

/-- lib/super.c:357-366 `sb_set_sproot_of`. -/
def setRoot (b : Blk) (t : Nat) (u : Uaddr) : Blk := setAt (rootOff t) b (uaddr64Htox u)

/-- lib/super.c:344-355 `sb_sproot_of`. -/
def getRoot (b : Blk) (t : Nat) : Uaddr :=
  match rootOff t with
  | none => uaddrNone
  | some o => uaddr64Xtoh (rd b o 64)

/-- lib/super.c:267-276 `sb_set_main_lsid`. -/
def setMain (b : Blk) (t : Nat) (l : Lsid) : Blk := setAt (mainOff t) b (lsid32Htox l)

/-- lib/super.c:255-265 `sb_main_lsid`; lib/addr/laddr.c `silofs_lsid_reset` of a kind that has none. -/
def getMain (b : Blk) (t : Nat) : Lsid :=
  match mainOff t with
  | none => lsid32Xtoh lsid32Reset
  | some o => lsid32Xtoh (rd b o 32)

/-- lib/super.c:460-469 `sb_set_rootiv_of`. -/
def setIv (b : Blk) (t : Nat) (iv : List Nat) : Blk := setAt (ivOff t) b iv

/-- lib/super.c:448-458 `sb_rootiv_of`. -/
def getIv (b : Blk) (t : Nat) : List Nat :=
  match ivOff t with
  | none => List.replicate 16 0
  | some o => rd b o 16

/-- lib/super.c:368-379 `sb_reset_sproots`. -/
def resetRoots (b : Blk) : Blk := kinds.foldl (fun b t => setAt (rootOff t) b (uaddr64Htox uaddrNone)) b

/-- lib/super.c:278-289 `sb_reset_main_lsids`. -/
def resetMains (b : Blk) : Blk := kinds.foldl (fun b t => setAt (mainOff t) b lsid32Reset) b

/-- lib/super.c:480-487 `sb_gen_rootivs`: `rnd` is what the random source gives. -/
def genIvs (rnd : Nat → List Nat) (b : Blk) : Blk :=
  (List.range 13).foldl (fun b t => setAt (ivOff t) b (rnd t)) b

/-- lib/super.c:381-393 `sb_clone_sproots`. -/
def cloneRoots (src : Blk) (b : Blk) : Blk :=
  (kinds.filter Space.isVnode).foldl (fun b t => setAt (rootOff t) b (uaddr64Htox (getRoot src t))) b

/-- lib/super.c:489-501 `sb_clone_rootivs`. -/
def cloneIvs (src : Blk) (b : Blk) : Blk :=
  (kinds.filter Space.isVnode).foldl (fun b t => setAt (ivOff t) b (getIv src t)) b

/-! ### The volume's own fields -/

def MAGIC : Nat := 0x4073666F6C697340
def VERSION : Nat := 1

/-- lib/super.c:175-180 `sb_set_self`: the volume's id follows its address. -/
def setSelf (b : Blk) (u : Uaddr) : Blk := wr (wr b 640 (uaddr64Htox u)) 768 u.laddr.lsid.lvid

/-- lib/super.c:188-192 `sb_set_origin`. -/
def setOrigin (b : Blk) (u : Uaddr) : Blk := wr b 704 (uaddr64Htox u)

/-- lib/super.c:79-84 `sb_flags`. -/
def flags (b : Blk) : Nat := leVal (rd b 32 4)

/-- lib/super.c:86-90 `sb_set_flags`. -/
def setFlags (b : Blk) (f : Nat) : Blk := wr b 32 (leBytes 4 f)

/-- What comes from outside: random ids and vectors. -/
structure Rnd where
  uuid : List Nat
  ivs : Nat → List Nat

/-- lib/super.c:505-519 `sb_init`.  The id it makes up for the volume is not kept: it is overwritten
by `sb_set_self` right after it in both callers. -/
def sbInit (r : Rnd) (b : Blk) : Blk :=
  let b := wr b 16 (leBytes 8 MAGIC)
  let b := wr b 24 (leBytes 8 VERSION)
  let b := setFlags b 0
  let b := wr b 128 r.uuid
  let b := resetRoots b
  let b := genIvs r.ivs b
  let b := resetMains b
  let b := wr b 640 uaddr64Reset
  wr b 704 uaddr64Reset

/-! ### Counters, lib/stats.c -/

/-- The three groups of counters. -/
inductive Grp where
  | lsegs
  | bks
  | objs
  deriving Repr, DecidableEq

/-- Place of a group in struct silofs_space_stats, lib/require.c:251-253. -/
def Grp.off : Grp → Nat
  | .lsegs => 256
  | .bks => 512
  | .objs => 768

/-- Place of a counter; `o` the place of the statistics. -/
def gaugeAt (o : Nat) (w : Grp) (t : Nat) : Option Nat := (Rep.gaugeOff t).map fun k => o + w.off + k

/-- silofs_gauge_to_cpu of a counter, lib/stats.c:42-55. -/
def gauge (b : Blk) (o : Nat) (w : Grp) (t : Nat) : Int :=
  match gaugeAt o w t with
  | none => 0
  | some p => Space.gaugeDec (leVal (rd b p 8))

/-- lib/stats.c:174-186 `spg_update_take`. -/
def updTake (b : Blk) (o : Nat) (w : Grp) (t : Nat) (n : Int) : Blk :=
  setAt (gaugeAt o w t) b (leBytes 8 (Space.gaugeEnc (gauge b o w t + n)))

/-- lib/stats.c:576-601 `silofs_sti_update_lsegs` and its two likes. -/
def stiUpdate (b : Blk) (w : Grp) (t : Nat) (n : Int) : Blk :=
  if n ≠ 0 then updTake b 4096 w t n else b

def capacity (b : Blk) (o : Nat) : Nat := leVal (rd b (o + 16) 8)
def vspacesize (b : Blk) (o : Nat) : Nat := leVal (rd b (o + 24) 8)
def generation (b : Blk) (o : Nat) : Nat := leVal (rd b (o + 32) 8)

/-- lib/stats.c:570-574 `silofs_sti_set_capacity`. -/
def setCapacity (b : Blk) (n : Nat) : Blk := wr b (4096 + 16) (leBytes 8 n)

/-- lib/stats.c:650-654 `silofs_sti_next_generation`: counted in 64 bits. -/
def nextGen (b : Blk) : Blk := wr b (4096 + 32) (leBytes 8 (generation b 4096 + 1))

/-- lib/stats.c:281-286 `spst_renew`: the three groups stand next to each other. -/
def renew (b : Blk) (o : Nat) : Blk :=
  wr (wr (wr b (o + 768) (List.replicate 256 0)) (o + 512) (List.replicate 256 0)) (o + 256)
    (List.replicate 256 0)

/-- lib/stats.c:269-279 `spst_init` (`SILOFS_VSPACE_SIZE_MAX` 2^58). -/
def spstInit (now : Int) (b : Blk) (o : Nat) : Blk :=
  let b := wr b o (leBytes 8 (toU64 now))
  let b := wr b (o + 8) (leBytes 8 (toU64 now))
  let b := wr b (o + 16) (leBytes 8 0)
  let b := wr b (o + 24) (leBytes 8 288230376151711744)
  let b := wr b (o + 32) (leBytes 8 0)
  renew b o

/-- lib/stats.c:301-312 `spst_export_to`. -/
def spstOut (b : Blk) (o : Nat) : Rep.Stats :=
  ⟨toI64 (leVal (rd b o 8)), toI64 (leVal (rd b (o + 8) 8)), capacity b o, vspacesize b o, generation b o,
   gauge b o .lsegs, gauge b o .bks, gauge b o .objs⟩

/-- lib/stats.c:504-516 `silofs_spacestats_export`: the structure is zeroed, then its fields set. -/
def spstExport (b : Blk) (o : Nat) (s : Rep.Stats) : Blk :=
  (Rep.statsFields o s).foldl (fun b f => wr b f.1 f.2) (wr b o (List.replicate 1024 0))

/-- lib/stats.c:553-561 `silofs_sti_renew_stats`. -/
def renewStats (b : Blk) : Blk :=
  renew (spstExport b 5120 (Rep.collect (spstOut b 4096) (spstOut b 5120))) 4096

/-! ### Making, writing and copying -/

/-- lib/fsenv.c:477-484 `sbi_account_super_of`. -/
def account (b : Blk) : Blk :=
  stiUpdate (stiUpdate (stiUpdate b .lsegs LTYPE_SUPER 1) .bks LTYPE_SUPER 1) .objs LTYPE_SUPER 1

/-- lib/super.c:994-1001 `silofs_sbi_setup_spawned`, lib/super.c:981-987 `sbi_assign_vspace_span`. -/
def setupSpawned (r : Rnd) (now : Int) (self : Uaddr) (b : Blk) : Blk :=
  let b := sbInit r b
  let b := setSelf b self
  let b := spstInit now b 4096
  wr b 784 (vrange128Htox (Vrange.ofSpmap 7 0))

/-- lib/fsenv.c:486-498 `silofs_fsenv_format_super` with 461-475 `fsenv_spawn_super`; the memory of a
new node is zeroed. -/
def formatSuper (r : Rnd) (now : Int) (birth : List Nat) (self : Uaddr) (cap : Nat) : Blk :=
  let b := setupSpawned r now self (fun _ => 0)
  let b := wr (wr b 512 birth) 576 birth
  account (setCapacity b cap)

/-- lib/super.c:1003-1018 `silofs_sbi_clone_from`; `b` is both the copy just made by `sb_assign` and
the block copied from.  Writing back the dates read (550-560) changes nothing. -/
def cloneFrom (b : Blk) (self origin : Uaddr) : Blk :=
  let n := cloneRoots b b
  let n := cloneIvs b n
  let n := resetMains n
  let n := setSelf n self
  setOrigin n origin

/-- lib/fsenv.c:527-539 `sbi_make_clone`.  `silofs_sti_make_clone` copies what the copy has. -/
def makeClone (b : Blk) (self origin : Uaddr) (birth : List Nat) : Blk :=
  let n := cloneFrom b self origin
  let n := renewStats n
  let n := wr n 576 birth
  account n

/-- Writes to a super block in use. -/
inductive Op where
  /-- silofs_sbi_bind_child, lib/super.c:831-837 -/
  | bindRoot (t : Nat) (u : Uaddr) (iv : List Nat)
  /-- silofs_sbi_bind_main_lseg, lib/super.c:734-740 -/
  | bindMain (t : Nat) (l : Lsid)
  /-- silofs_sti_update_lsegs, …_bks, …_objs -/
  | take (w : Grp) (t : Nat) (n : Int)
  /-- silofs_sti_next_generation -/
  | nextGen
  /-- silofs_sbi_add_flags, lib/super.c:674-678 -/
  | addFlags (f : Nat)
  /-- a fork, seen from the new volume -/
  | fork (self : Uaddr) (birth : List Nat)
  deriving Repr

/-- lib/super.c:169-173 `sb_self`.  Also stands for sbi_uaddr, the place a super block was made for or
loaded from: nothing in the code compares the two, the model takes them as equal. -/
def selfOf (b : Blk) : Uaddr := uaddr64Xtoh (rd b 640 64)

/-- lib/super.c:182-186 `sb_origin`. -/
def originOf (b : Blk) : Uaddr := uaddr64Xtoh (rd b 704 64)

/-- lib/super.c:720-724 `silofs_sbi_get_lvid`. -/
def lvidOf (b : Blk) : List Nat := rd b 768 16

/-- lib/super.c:714-718 `silofs_sbi_fs_uuid`. -/
def fsUuid (b : Blk) : List Nat := rd b 128 16

/-- One write. -/
def step (b : Blk) : Op → Blk
  | .bindRoot t u iv => setIv (setRoot b t u) t iv
  | .bindMain t l => setMain b t l
  | .take w t n => stiUpdate b w t n
  | .nextGen => nextGen b
  | .addFlags f => setFlags b (f ||| flags b)
  | .fork self birth => makeClone b self (selfOf b) birth

def run (b : Blk) (ops : List Op) : Blk := ops.foldl step b

/-! ### Reading and looking over -/

/-- lib/super.c:822-829 `silofs_sbi_resolve_child`: nothing is ENOENT. -/
def resolveChild (b : Blk) (t : Nat) : Option (Uaddr × List Nat) :=
  if uaddrNull (getRoot b t) then none else some (getRoot b t, getIv b t)

/-- lib/super.c:726-732 `silofs_sbi_main_lseg`: nothing is ENOENT. -/
def mainLseg (b : Blk) (t : Nat) : Option Lsid := if (getMain b t).isNull then none else some (getMain b t)

/-- lib/super.c:839-846 `silofs_sbi_ismutable_lsid`: only segments of the own volume are written to. -/
def isMutable (b : Blk) (l : Lsid) : Bool := l.lvid == lvidOf b

/-- lib/super.c:1020-1036 `silofs_sbi_resolve_lmap`: the addresses of all roots there are, as export and
deletion walk them. -/
def lmap (b : Blk) : List Laddr :=
  (kinds.filter fun t => !uaddrNull (getRoot b t)).map fun t => (getRoot b t).laddr

/-- lib/super.c:118-127 `silofs_sb_check_version`; true is success. -/
def checkVersion (b : Blk) : Bool := leVal (rd b 16 8) == MAGIC && leVal (rd b 24 8) == VERSION

/-- lib/super.c:564-579 `verify_sproot`; `SILOFS_HEIGHT_SUPER` - 1 is 6. -/
def verifyRoot (u : Uaddr) : Bool :=
  uaddrNull u || (u.laddr.lsid.ltype == LTYPE_SPNODE && u.laddr.lsid.height == 6)

/-- lib/super.c:581-598 `sb_verify_sproots`. -/
def verifyRoots (b : Blk) : Bool := (kinds.filter Space.isVnode).all fun t => verifyRoot (getRoot b t)

/-- lib/super.c:600-614 `sb_verify_self`. -/
def verifySelf (b : Blk) : Bool := (selfOf b).laddr.lsid.ltype == LTYPE_SUPER && !uaddrNull (selfOf b)

/-- lib/super.c:616-627 `sb_verify_origin`. -/
def verifyOrigin (b : Blk) : Bool :=
  !(!uaddrNull (originOf b) && !((originOf b).laddr.lsid.ltype == LTYPE_SUPER))

/-- lib/super.c:629-638 `sb_verify_height`. -/
def verifyHeight (b : Blk) : Bool := (vrange128Xtoh (rd b 784 16)).height == 7

/-- lib/stats.c:59-66 `verify_gauge` (`LONG_MAX / 2`). -/
def verifyGauge (v : Int) : Bool := decide (-4611686018427387903 ≤ v) && decide (v ≤ 4611686018427387903)

/-- lib/stats.c:68-73 `verify_size` (`ULONG_MAX / 4`). -/
def verifySize (n : Nat) : Bool := decide (n ≤ 4611686018427387903)

/-- lib/stats.c:188-207 `spg_verify`; a kind without counter reads as nought, which is in range. -/
def verifyGrp (b : Blk) (o : Nat) (w : Grp) : Bool := kinds.all fun t => verifyGauge (gauge b o w t)

/-- lib/stats.c:337-362 `silofs_verify_space_stats`. -/
def verifyStats (b : Blk) (o : Nat) : Bool :=
  verifySize (capacity b o) && verifySize (vspacesize b o) && verifyGrp b o .objs && verifyGrp b o .bks &&
    verifyGrp b o .lsegs

/-- lib/super.c:640-670 `silofs_verify_super_block`; true is success. -/
def verify (b : Blk) : Bool :=
  verifyHeight b && verifySelf b && verifyOrigin b && verifyRoots b && verifyStats b 4096 &&
    verifyStats b 5120

end Silofs.Super
