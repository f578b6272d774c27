import Verif.Model.Addr
/-
Archives of a file-system: lib/pack.c, with the traversal of lib/walk.c:278-711 and lib/inspect.c:46-225, the
lists of addresses of lib/spmaps.c:1415-1487 and 1704-1720, lib/super.c:1020-1036, boot records lib/boot.c:610-740,
and segment and pack files of lib/repo.c.

The parameters: `h` is SHA-256 (addr/caddr.c:218-228), `xs` is xxh64 with the seed of the index, `slots d b` are the
addresses in the slots of a space-map node with bytes `b` having `d` levels of space maps below (`none` where there is
no child; for a leaf, d = 0, where nothing is used), `recode` decodes (decrypts, verifies) a boot record and
encodes it again.

Simplifications: of the errors only ENOENT is told from others; no errors of the system calls other than
those that follow from what is stored; allocation succeeds.
-/
namespace Silofs.Pack
open Silofs Silofs.Addr

abbrev Bytes := List Nat

inductive Err where
  | noent
  | other
  deriving DecidableEq, Repr

/-! ### Repository -/

/-- A segment file. -/
structure Seg where
  size : Nat
  dat : Nat → Nat

/-- Segments by id, boot records and pack files by content address. The name of a pack file determines its
address (C27). -/
structure Repo where
  seg : Lsid → Option Seg
  boot : Caddr → Option Bytes
  pack : Caddr → Option Bytes

/-- lib/repo.c:2730-2763 `silofs_repo_read_at` with 826-833 `lsegf_check_size_ge`. -/
def Repo.read (r : Repo) (a : Laddr) : Except Err Bytes :=
  match r.seg a.lsid with
  | none => .error .noent
  | some g =>
    if a.pos < 0 ∨ (g.size : Int) < a.pos + a.len then .error .other
    else .ok ((List.range a.len).map fun i => g.dat (a.pos.toNat + i))

/-- lib/repo.c:785-818 `lsegf_require_size_ge`, `lsegf_reassign_size`: the size after a write to the range. -/
def grown (size pos len : Nat) : Nat :=
  if size ≥ max (pos + len) ((pos / 65536 + 1) * 65536) then size
  else (max (pos + len) ((pos / 65536 + 1) * 65536) + 65535) / 65536 * 65536

/-- A write to a segment which may be missing. -/
def Seg.write (g : Seg) (pos : Nat) (x : Bytes) : Seg where
  size := grown g.size pos x.length
  dat := fun p => if pos ≤ p ∧ p < pos + x.length then x.getD (p - pos) 0
    else if p < g.size then g.dat p else 0

/-- lib/pack.c:727-751 `pac_save_seg`: a missing segment is created, a short one made longer; lib/repo.c:737-749
`lsegf_check_range`. -/
def Repo.save (r : Repo) (a : Laddr) (x : Bytes) : Except Err Repo :=
  if a.pos < 0 ∨ (a.lsid.lsize : Int) + 65536 < a.pos + a.len then .error .other
  else .ok { r with
    seg := fun l =>
      if l = a.lsid then some (((r.seg l).getD ⟨0, fun _ => 0⟩).write a.pos.toNat x) else r.seg l }

/-- lib/repo.c:443-476 `do_save_obj`: an existing file is not truncated. -/
def savePack (pk : Caddr → Option Bytes) (c : Caddr) (x : Bytes) : Caddr → Option Bytes :=
  fun c' => if c' = c then some (x ++ ((pk c).getD []).drop x.length) else pk c'

/-- lib/repo.c:478-494 `do_load_obj`. -/
def loadPack (pk : Caddr → Option Bytes) (c : Caddr) (len : Nat) : Except Err Bytes :=
  match pk c with
  | none => .error .noent
  | some y => if y.length < len then .error .other else .ok (y.take len)

/-- lib/pack.c:690-703 `pac_send_pack`: a file of the same size is taken to be the same. -/
def sendPack (pk : Caddr → Option Bytes) (c : Caddr) (x : Bytes) : Caddr → Option Bytes :=
  match pk c with
  | none => savePack pk c x
  | some y => if y.length ≠ x.length then savePack pk c x else pk

/-- lib/addr/caddr.c:218-228 `silofs_calc_caddr_of`. -/
def caddrOf (h : Bytes → Bytes) (ctype : Nat) (x : Bytes) : Caddr := ⟨h x, x.length % 4294967296, ctype⟩

/-! ### Index -/

/-- lib/pack.c:21-24. -/
structure Desc where
  caddr : Caddr
  laddr : Laddr
  deriving DecidableEq, Repr

/-- lib/pack.c:166-172 `pardsc256b_htox`. -/
def descHtox (d : Desc) : Bytes := caddr64Htox d.caddr ++ (laddr48Htox d.laddr ++ List.replicate 144 0)

/-- lib/pack.c:174-179 `pardsc256b_xtoh`. -/
def descXtoh (b : Bytes) : Desc := ⟨caddr64Xtoh (b.take 64), laddr48Xtoh ((b.drop 64).take 48)⟩

/-- lib/pack.c:454-463 `pindex_size_of`. -/
def indexSize (n : Nat) : Nat := (1024 + n * 256 + 65535) / 65536 * 65536

/-- lib/pack.c:261-267 `check_archive_pindex_size`. -/
def sizeOk (sz : Nat) : Bool := decide (65536 ≤ sz) && decide (sz ≤ 268435456)

def MAGIC : Nat := 0x2573666F6C697325

/-- The header without its checksum: lib/pack.c:110-119, 318-326 and include/silofs/defs.h:1030-1038. -/
def hdrHead (nd csum : Nat) : Bytes :=
  leBytes 8 MAGIC ++ (leBytes 4 1 ++ (leBytes 4 0 ++ (leBytes 8 nd ++ (leBytes 8 csum ++ List.replicate 984 0))))

/-- lib/pack.c:318-326 `piview_encode_hdr`. -/
def hdrBytes (xs : Bytes → Nat) (nd csum : Nat) : Bytes :=
  hdrHead nd csum ++ leBytes 8 (xs (hdrHead nd csum))

/-- The descriptors, up to the size of the index: lib/pack.c:486-506 into a zeroed buffer (619-630). -/
def descArea (ds : List Desc) : Bytes :=
  ds.flatMap descHtox ++ List.replicate (indexSize ds.length - 1024 - 256 * ds.length) 0

/-- lib/pack.c:553-575 `pindex_encode`. -/
def encode (xs : Bytes → Nat) (ds : List Desc) : Bytes :=
  hdrBytes xs ds.length (xs (descArea ds)) ++ descArea ds

/-- The result of reading an index; `oob` is a read outside of the buffer. -/
inductive Dec where
  | ok (ds : List Desc)
  | bad
  | oob
  deriving DecidableEq, Repr

/-- lib/pack.c:276-292 `piview_setup`: the bytes of whole descriptors. -/
def areaOf (b : Bytes) : Bytes := (b.drop 1024).take ((b.length - 1024) / 256 * 256)

/-- lib/pack.c:333-355 `piview_check_hdr`. -/
def hdrOk (xs : Bytes → Nat) (b : Bytes) : Bool :=
  leVal (b.take 8) == MAGIC && leVal ((b.drop 8).take 4) == 1 &&
    leVal ((b.drop 1016).take 8) == xs (b.take 1016) &&
    leVal ((b.drop 24).take 8) == xs (areaOf b)

/-- lib/pack.c:508-523 `pindex_decode_descs`. -/
def descsAt (b : Bytes) (n : Nat) : List Desc :=
  (List.range n).map fun i => descXtoh ((b.drop (1024 + 256 * i)).take 256)

/-- lib/pack.c:587-615 `pindex_decode`: the address by content, the header, then as many descriptors as the header
says. -/
def decode (h : Bytes → Bytes) (xs : Bytes → Nat) (c : Caddr) (b : Bytes) : Dec :=
  if sizeOk b.length = false then .bad
  else if caddrOf h 2 (b.take 1024 ++ areaOf b) ≠ c then .bad
  else if hdrOk xs b = false then .bad
  else if b.length < 1024 + 256 * leVal ((b.drop 16).take 8) then .oob
  else .ok (descsAt b (leVal ((b.drop 16).take 8)))

/-! ### Export -/

/-- lib/addr/laddr.c:363-382 `silofs_laddr_isnext`. -/
def isNext (p a : Laddr) : Bool :=
  p.lsid == a.lsid && decide (a.pos = p.pos + p.len) && decide (p.pos + p.len ≤ a.lsid.lsize)

/-- lib/spmaps.c:1447-1459 `lmap_append`, the list being reversed: an address which continues the last one makes
that longer. -/
def lmapAdd (acc : List Laddr) (a : Laddr) : List Laddr :=
  match acc with
  | [] => [a]
  | p :: acc => if isNext p a then { p with len := p.len + a.len } :: acc else a :: p :: acc

/-- lib/spmaps.c:1461-1487, 1704-1720: the addresses below a node. -/
def lmap (l : List (Option Laddr)) : List Laddr := ((l.filterMap id).foldl lmapAdd []).reverse

/-- Descriptors so far, the last one first, and the pack files. -/
structure Ex where
  descs : List Desc
  pack : Caddr → Option Bytes

/-- lib/pack.c:810-837 `pac_export_segdata`, and 927-942 `pac_export_by_laddr`. -/
def exportSeg (h : Bytes → Bytes) (r : Repo) (a : Laddr) (x : Ex) : Ex × Option Err :=
  match r.read a with
  | .error e => (x, some e)
  | .ok b => (⟨⟨caddrOf h 3 b, a⟩ :: x.descs, sendPack x.pack (caddrOf h 3 b) b⟩, none)

/-- lib/pack.c:875-894 `pac_export_bootrec` with 753-771 and lib/boot.c:707-738 `silofs_load_bootrec`; `bc` is the address of
the boot record in use. -/
def exportBoot (h : Bytes → Bytes) (recode : Bytes → Option Bytes) (bc : Caddr) (r : Repo) (a : Laddr) (x : Ex) :
    Ex × Option Err :=
  match r.boot bc with
  | none => (x, some .other)
  | some b =>
    if caddrOf h 1 b ≠ bc then (x, some .other)
    else match recode b with
      | none => (x, some .other)
      | some b' => (⟨⟨bc, a⟩ :: x.descs, sendPack x.pack bc b'⟩, none)

/-- lib/pack.c:914-925 `pac_export_by_desc`. -/
def exportAddr (h : Bytes → Bytes) (recode : Bytes → Option Bytes) (bc : Caddr) (r : Repo) (a : Laddr) (x : Ex) :
    Ex × Option Err :=
  if a.lsid.ltype = LTYPE_BOOTREC then exportBoot h recode bc r a x else exportSeg h r a x

/-- lib/inspect.c:46-59 `inspc_exec_lmap`: stops at the first error. -/
def cbList (f : Laddr → Ex → Ex × Option Err) : List Laddr → Ex → Ex × Option Err
  | [], x => (x, none)
  | a :: l, x =>
    match f a x with
    | (x', none) => cbList f l x'
    | (x', some e) => (x', some e)

/-- lib/walk.c:327-349 and its copies: up to the first slot without a child; ENOENT goes on. -/
def loop (t : Laddr → Ex → Ex × Option Err) : List (Option Laddr) → Ex → Ex × Option Err
  | [], x => (x, none)
  | none :: _, x => (x, none)
  | some a :: l, x =>
    match t a x with
    | (x', some .other) => (x', some .other)
    | (x', _) => loop t l x'

/-- lib/walk.c:278-379 and copies: a node is loaded, its children are visited, then its list of addresses.  A space
map that is missing is not ENOENT: its segment is made anew and then fails to verify (lib/ustage.c:252-264
`require_lseg`, C58; the new segment is left out here). -/
def trav (slots : Nat → Bytes → List (Option Laddr)) (r : Repo) (f : Laddr → Ex → Ex × Option Err) :
    Nat → Laddr → Ex → Ex × Option Err
  | 0, a, x =>
    match r.read a with
    | .error _ => (x, some .other)
    | .ok b => cbList f (lmap (slots 0 b)) x
  | d + 1, a, x =>
    match r.read a with
    | .error _ => (x, some .other)
    | .ok b =>
      match loop (trav slots r f d) (slots (d + 1) b) x with
      | (x', some e) => (x', some e)
      | (x', none) => cbList f (lmap (slots (d + 1) b)) x'

/-- lib/walk.c:633-692 `wac_do_traverse_sptree`, `wac_traverse_spaces`: the roots of the address spaces. -/
def spaces (t : Laddr → Ex → Ex × Option Err) : List (Option Laddr) → Ex → Ex × Option Err
  | [], x => (x, none)
  | none :: l, x => spaces t l x
  | some a :: l, x =>
    match t a x with
    | (x', some .other) => (x', some .other)
    | (x', _) => spaces t l x'

/-- lib/inspect.c:167-225 `inspc_walk_fs`: space maps, addresses in the super block, super block, boot record. -/
def inspect (slots : Nat → Bytes → List (Option Laddr)) (r : Repo) (f : Laddr → Ex → Ex × Option Err)
    (sb br : Laddr) (b : Bytes) (x : Ex) : Ex × Option Err :=
  match spaces (trav slots r f 4) (slots 5 b) x with
  | (x', some e) => (x', some e)
  | (x', none) => cbList f ((slots 5 b).filterMap id ++ [sb, br]) x'

/-- The parameters of the model. -/
structure Env where
  h : Bytes → Bytes
  xs : Bytes → Nat
  slots : Nat → Bytes → List (Option Laddr)
  recode : Bytes → Option Bytes

/-- lib/pack.c:1015-1051 `pac_do_export`, `silofs_fs_pack`: `sb` and `br` are the addresses of the super block and the boot
record, `bc` the content address of the latter.  The pack files and the address of the index. -/
def fsPack (e : Env) (bc : Caddr) (sb br : Laddr) (r : Repo) : Repo × Option Caddr :=
  match r.read sb with
  | .error _ => (r, none)
  | .ok b =>
    match inspect e.slots r (exportAddr e.h e.recode bc r) sb br b ⟨[], r.pack⟩ with
    | (x, some _) => ({ r with pack := x.pack }, none)
    | (x, none) =>
      if sizeOk (indexSize x.descs.length) = false then ({ r with pack := x.pack }, none)
      else ({ r with pack := savePack x.pack (caddrOf e.h 2 (encode e.xs x.descs)) (encode e.xs x.descs) },
        some (caddrOf e.h 2 (encode e.xs x.descs)))

/-! ### Import -/

/-- lib/pack.c:839-863 `pac_import_segdata`. -/
def importSeg (d : Desc) (r : Repo) : Repo × Option Err :=
  match loadPack r.pack d.caddr d.laddr.len with
  | .error e => (r, some e)
  | .ok x =>
    match r.save d.laddr x with
    | .error e => (r, some e)
    | .ok r' => (r', none)

/-- lib/pack.c:896-912 `pac_import_bootrec` with 773-793 and lib/boot.c:673-705 `silofs_save_bootrec`. -/
def importBoot (h : Bytes → Bytes) (recode : Bytes → Option Bytes) (d : Desc) (r : Repo) : Repo × Option Err :=
  match loadPack r.pack d.caddr 1024 with
  | .error e => (r, some e)
  | .ok x =>
    match recode x with
    | none => (r, some .other)
    | some b => ({ r with boot := fun c => if c = caddrOf h 1 b then some b else r.boot c },
        if d.caddr = caddrOf h 1 b then none else some .other)

/-- lib/pack.c:1130-1141 `pac_import_by_desc`. -/
def importDesc (h : Bytes → Bytes) (recode : Bytes → Option Bytes) (d : Desc) (r : Repo) : Repo × Option Err :=
  if d.laddr.lsid.ltype = LTYPE_BOOTREC then importBoot h recode d r else importSeg d r

/-- lib/pack.c:1143-1157 `pac_import_fs`. -/
def importAll (h : Bytes → Bytes) (recode : Bytes → Option Bytes) : List Desc → Repo → Repo × Option Err
  | [], r => (r, none)
  | d :: l, r =>
    match importDesc h recode d r with
    | (r', none) => importAll h recode l r'
    | (r', some e) => (r', some e)

/-- The result of restoring: the repository and the address of the boot record, or an error; `oob` as for `Dec`. -/
inductive Unp where
  | done (r : Repo) (bc : Caddr)
  | fail (r : Repo)
  | oob

/-- lib/pack.c:1159-1216 `pac_import_post`, `pac_do_import`, `silofs_fs_unpack`, with 1105-1128 `pac_import_pindex`. -/
def fsUnpack (e : Env) (c : Caddr) (r : Repo) : Unp :=
  match r.pack c with
  | none => .fail r
  | some b =>
    match decode e.h e.xs c b with
    | .bad => .fail r
    | .oob => .oob
    | .ok ds =>
      match importAll e.h e.recode ds r with
      | (r', some _) => .fail r'
      | (r', none) =>
        match ds.filter fun d => d.laddr.lsid.ltype = LTYPE_BOOTREC with
        | [d] => .done r' d.caddr
        | _ => .fail r'

end Silofs.Pack
