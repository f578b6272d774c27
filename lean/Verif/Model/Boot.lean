import Verif.Model.Caddr
import Verif.Model.EncDec
/-
Model of boot records: lib/boot.c (fields, checks, encoding, saving and loading),
with the files of content-addressed objects and references of lib/repo.c and
`reload_bootrec_of` of lib/execlib.c.

Parameters: the cipher (`EncDec.Cipher`, libgcrypt), SHA-256 and SHA3-256.  The
repository is a map from path to content; only regular files occur in it.
-/
namespace Silofs.Boot
open Silofs Silofs.Addr Silofs.EncDec

/-- include/silofs/defs.h:36 `SILOFS_BOOT_RECORD_MAGIC`. -/
def MAGIC : Nat := 0x4053464F4C495340
/-- include/silofs/defs.h:24 `SILOFS_FMT_VERSION`. -/
def VERSION : Nat := 1
/-- include/silofs/defs.h:102 `SILOFS_BOOTREC_SIZE`. -/
def BOOTREC_SIZE : Nat := 1024

/-- Error codes of this part. -/
inductive Err where
  | keyexpired | badboot | opnotsupp | csum | noref | noboot | badref | enoent | eio
  deriving Repr, DecidableEq

/-- include/silofs/bstore.h:27-32 `struct silofs_prange`. -/
structure Prange where
  pvid : List Nat
  base : Nat
  curr : Nat
  pos : Int
  deriving Repr, DecidableEq

/-- include/silofs/boot.h:34-42 `struct silofs_bootrec`; `algo` and `mode` are the
`uint32_t` images of the C `int32_t`. -/
structure Rec where
  uuid : List Nat
  mainKey : List Nat
  mainIv : List Nat
  sbUaddr : Uaddr
  sbRiv : List Nat
  prange : Prange
  flags : Nat
  algo : Nat
  mode : Nat
  deriving Repr, DecidableEq

/-- The sizes the C types impose on a record. -/
structure Rec.Fits (r : Rec) : Prop where
  uuid : IsBytes 16 r.uuid
  key : IsBytes 32 r.mainKey
  iv : IsBytes 16 r.mainIv
  riv : IsBytes 16 r.sbRiv
  laddr : r.sbUaddr.laddr.Fits
  voff : IsI64 r.sbUaddr.voff
  pvid : IsBytes 16 r.prange.pvid
  base : r.prange.base < 4294967296
  curr : r.prange.curr < 4294967296
  pos : IsI64 r.prange.pos
  flags : r.flags < 4294967296
  algo : r.algo < 4294967296
  mode : r.mode < 4294967296

/-- lib/bstore.c:146-154 `silofs_prange64b_htox`. -/
def prange64Htox (p : Prange) : List Nat :=
  p.pvid ++ (leBytes 4 p.base ++ (leBytes 4 p.curr ++ (leBytes 8 (toU64 p.pos) ++ List.replicate 32 0)))

/-- lib/bstore.c:156-163 `silofs_prange64b_xtoh`. -/
def prange64Xtoh (b : List Nat) : Prange :=
  { pvid := b.take 16
    base := leVal ((b.drop 16).take 4)
    curr := leVal ((b.drop 20).take 4)
    pos := toI64 (leVal ((b.drop 24).take 8)) }

/-- lib/boot.c:402-413 `silofs_bootrec1k_htox` with lib/boot.c:186-194
`silofs_bootrec1k_init`: the first 992 bytes of the stored record
(include/silofs/defs.h:604-620 `struct silofs_bootrec1k`; all integers little endian). -/
def body (r : Rec) : List Nat :=
  leBytes 8 MAGIC ++ (leBytes 8 VERSION ++ (r.uuid ++ (leBytes 8 r.flags ++ (leBytes 4 r.algo ++
  (leBytes 4 r.mode ++ (List.replicate 16 0 ++ (r.mainKey ++ (r.mainIv ++ (r.sbRiv ++
  (uaddr64Htox r.sbUaddr ++ (List.replicate 64 0 ++ (prange64Htox r.prange ++
  List.replicate 672 0))))))))))))

/-- lib/boot.c:338-354 `bootrec1k_calc_hash`, `silofs_bootrec1k_stamp`. -/
def stamped (sha3 : List Nat → List Nat) (r : Rec) : List Nat := body r ++ sha3 (body r)

def magicOf (b : List Nat) : Nat := leVal (b.take 8)
def versionOf (b : List Nat) : Nat := leVal ((b.drop 8).take 8)

/-- lib/boot.c:389-400 `silofs_bootrec1k_xtoh`.  The 64-bit flags are cast to the
32-bit enumeration. -/
def xtoh (b : List Nat) : Rec :=
  { uuid := (b.drop 16).take 16
    flags := leVal ((b.drop 32).take 8) % 4294967296
    algo := leVal ((b.drop 40).take 4)
    mode := leVal ((b.drop 44).take 4)
    mainKey := (b.drop 64).take 32
    mainIv := (b.drop 96).take 16
    sbRiv := (b.drop 112).take 16
    sbUaddr := uaddr64Xtoh ((b.drop 128).take 64)
    prange := prange64Xtoh ((b.drop 256).take 64) }

/-- lib/boot.c:251-271 `bootrec1k_check_base`. -/
def checkBase (b : List Nat) : Except Err Unit :=
  if magicOf b ≠ MAGIC ∧ versionOf b ≠ VERSION then .error .keyexpired
  else if magicOf b ≠ MAGIC then .error .badboot
  else if versionOf b ≠ VERSION then .error .badboot
  else .ok ()

/-- lib/boot.c:273-289 `bootrec1k_check_uaddr_sb` (`SILOFS_LTYPE_SUPER` 2,
`SILOFS_HEIGHT_SUPER` 7). -/
def uaddrOk (u : Uaddr) : Bool :=
  u.laddr.lsid.ltype == LTYPE_SUPER && u.laddr.lsid.height == 7 && u.voff == 0

/-- lib/crypt/cipher.c:23-35 `silofs_check_cipher_args` (AES256 is 9; CBC 3, GCM 9,
XTS 13). -/
def cipherOk (algo mode : Nat) : Bool :=
  algo == 9 && (mode == 9 || mode == 3 || mode == 13)

/-- lib/boot.c:367-381 `bootrec1k_verify`, with lib/boot.c:303-324 `bootrec1k_check`
and lib/boot.c:356-365 `bootrec1k_check_hash`. -/
def verify (sha3 : List Nat → List Nat) (b : List Nat) : Except Err Unit :=
  match checkBase b with
  | .error e => .error e
  | .ok () =>
    if uaddrOk (xtoh b).sbUaddr = false then .error .badboot
    else if cipherOk (xtoh b).algo (xtoh b).mode = false then .error .opnotsupp
    else if b.drop 992 ≠ sha3 (b.take 992) then .error .csum
    else .ok ()

/-- What the boot code computes with: cipher, hashes, and the key and IV derived
from the password (lib/crypt/cipher.c:279-284 `silofs_derive_boot_ivkey`: a function of
the password only). -/
structure Env where
  C : Cipher
  sha2 : List Nat → List Nat
  sha3 : List Nat → List Nat

/-- lib/boot.c:546-557 `bootrec_encode`. -/
def encode (E : Env) (pw : IvKey) (r : Rec) : List Nat :=
  E.C.enc pw.key pw.iv (stamped E.sha3 r)

/-- lib/boot.c:559-578 `bootrec_decode`. -/
def decode (E : Env) (pw : IvKey) (enc : List Nat) : Except Err Rec :=
  match verify E.sha3 (E.C.dec pw.key pw.iv enc) with
  | .error e => .error e
  | .ok () => .ok (xtoh (E.C.dec pw.key pw.iv enc))

/-- lib/boot.c:632-643 `calc_bootrec1k_caddr` with lib/addr/caddr.c:218-228
`silofs_calc_caddr_of`: type boot-record (1), size of the whole record. -/
def caddrOf (E : Env) (enc : List Nat) : Caddr := ⟨E.sha2 enc, BOOTREC_SIZE, 1⟩

/-! ### The files -/

/-- Paths below the repository's dot-directory. -/
inductive Path where
  | blob (name : List Nat)
  | ref (name : List Nat)
  deriving Repr, DecidableEq

/-- Content of the regular files. -/
abbrev Disk := Path → Option (List Nat)

def Disk.set (d : Disk) (p : Path) (c : Option (List Nat)) : Disk := fun q => if q = p then c else d q

/-- lib/repo.c:2788-2798 `repo_cobj_pathname_of`: named by the hash alone. -/
def blobPath (c : Caddr) : Path := .blob (memToAscii c.hash 255)

/-- lib/repo.c:2898-2907 `repo_ref_pathname_of`: named by the whole address. -/
def refPath (c : Caddr) : Path := .ref (Caddr.toName c)

/-- lib/repo.c:444-477 `do_save_obj`: the file is created when missing, never
truncated; the first `dat.length` bytes are written. -/
def saveObj (d : Disk) (p : Path) (dat : List Nat) : Disk :=
  d.set p (some (dat ++ ((d p).getD []).drop dat.length))

/-- lib/repo.c:479-495 `do_load_obj` with lib/sys/syscallx.c:79-101
`silofs_sys_preadn`: a short file is an I/O error. -/
def loadObj (d : Disk) (p : Path) (len : Nat) : Except Err (List Nat) :=
  match d p with
  | none => .error .enoent
  | some c => if c.length < len then .error .eio else .ok (c.take len)

/-- lib/repo.c:2958-2969 `silofs_repo_lookup_ref`: an empty file is wanted. -/
def lookupRef (d : Disk) (c : Caddr) : Except Err Unit :=
  match d (refPath c) with
  | none => .error .enoent
  | some x => if x.length ≠ 0 then .error .badref else .ok ()

/-- lib/boot.c:673-705 `silofs_save_bootrec`: the record, then its reference. -/
def save (E : Env) (pw : IvKey) (d : Disk) (r : Rec) : Disk × Caddr :=
  (saveObj (saveObj d (blobPath (caddrOf E (encode E pw r))) (encode E pw r))
    (refPath (caddrOf E (encode E pw r))) [],
   caddrOf E (encode E pw r))

/-- lib/boot.c:707-739 `silofs_load_bootrec`. -/
def load (E : Env) (pw : IvKey) (d : Disk) (c : Caddr) : Except Err Rec :=
  match lookupRef d c with
  | .error e => .error (if e = .enoent then .noref else e)
  | .ok () =>
    match loadObj d (blobPath c) BOOTREC_SIZE with
    | .error e => .error (if e = .enoent then .noboot else e)
    | .ok enc => if c ≠ caddrOf E enc then .error .badboot else decode E pw enc

/-- lib/boot.c:741-762 `silofs_stat_bootrec`. -/
def stat (d : Disk) (c : Caddr) : Except Err Unit :=
  match lookupRef d c with
  | .error e => .error e
  | .ok () =>
    match d (blobPath c) with
    | none => .error .enoent
    | some x => if x.length ≠ BOOTREC_SIZE then .error .badboot else .ok ()

/-- lib/execlib.c:1465-1480 `reload_bootrec_of`: how a file-system is opened. -/
def reload (E : Env) (pw : IvKey) (d : Disk) (c : Caddr) : Except Err Rec :=
  match stat d c with
  | .error e => .error e
  | .ok () => load E pw d c

/-- lib/boot.c:764-780 `silofs_unlink_bootrec`: the record, then its reference;
stops at the first failure. -/
def unlink (d : Disk) (c : Caddr) : Disk × Except Err Unit :=
  match d (blobPath c) with
  | none => (d, .error .enoent)
  | some _ =>
    match d (refPath c) with
    | none => (d.set (blobPath c) none, .error .enoent)
    | some _ => ((d.set (blobPath c) none).set (refPath c) none, .ok ())

/-- A system call of saving a record: open with O_CREAT, a write of some bytes. -/
inductive Call where
  | create (p : Path)
  | write (p : Path) (dat : List Nat)
  deriving Repr, DecidableEq

/-- The calls of lib/boot.c:673-705 `silofs_save_bootrec` down to lib/repo.c:444-477
`do_save_obj`, in order (`fdatasync` orders the data before the reference). -/
def saveCalls (E : Env) (pw : IvKey) (r : Rec) : List Call :=
  [.create (blobPath (caddrOf E (encode E pw r))),
   .write (blobPath (caddrOf E (encode E pw r))) (encode E pw r),
   .create (refPath (caddrOf E (encode E pw r)))]

/-- One call, complete. -/
def Call.run (d : Disk) : Call → Disk
  | .create p => d.set p (some ((d p).getD []))
  | .write p dat => d.set p (some (dat ++ ((d p).getD []).drop dat.length))

/-- One call of which only part took effect: any number of leading bytes of a write. -/
inductive Call.torn (d : Disk) : Call → Disk → Prop
  | create (p : Path) : Call.torn d (.create p) d
  | write (p : Path) (dat : List Nat) (k : Nat) :
      Call.torn d (.write p dat) (d.set p (some (dat.take k ++ ((d p).getD []).drop (dat.take k).length)))

/-- The states a crash during a list of calls may leave. -/
inductive CrashOf : Disk → List Call → Disk → Prop
  | done (d : Disk) : CrashOf d [] d
  | cut (d d' : Disk) (c : Call) (cs : List Call) : c.torn d d' → CrashOf d (c :: cs) d'
  | step (d d' : Disk) (c : Call) (cs : List Call) : CrashOf (c.run d) cs d' → CrashOf d (c :: cs) d'

/-! ### Names of file-systems -/

/-- Characters of lib/boot.c:24-26: letters, digits, `_`, `-`, `+`, `.`. -/
def fsChar (c : Nat) : Bool :=
  (decide (97 ≤ c) && decide (c ≤ 122)) || (decide (65 ≤ c) && decide (c ≤ 90)) ||
  (decide (48 ≤ c) && decide (c ≤ 57)) || c == 95 || c == 45 || c == 43 || c == 46

/-- lib/boot.c:117-130 `silofs_make_fsnamestr` of a C string (no NUL inside) with
lib/boot.c:51-76 `check_name_len`, `check_name_dat` and lib/boot.c:100-115 `check_fsname`
(`SILOFS_FSNAME_MAX` 127).  The printable, ASCII, blank and control checks of lib/boot.c:22-49
`check_ascii_fs_name` only refuse what its last check refuses as well. -/
def fsnameOk (s : List Nat) : Bool :=
  s.length != 0 && decide (s.length ≤ 255) && s.all (· != 47) && s.head? != some 46 &&
  decide (s.length ≤ 127) && s.all fsChar

/-- cmd/bootref.c:58-68 `cmd_bref_tmp_pathname`: the name with `~` added. -/
def tmpName (s : List Nat) : List Nat := s ++ [126]

end Silofs.Boot
