import Verif.Model.Bytes
import Verif.Model.Space
import Verif.Model.Caddr
/-
What the file-system says about itself: statfs (lib/stats.c, lib/namei.c), statx (lib/inode.c), the
ioctl commands (lib/fuseq.c:2790-3020, lib/namei.c:2058-2255, 2428-2500) and `silofs show`
(cmd/show.c).

Memory is a list of bytes; structures are written field by field at the offsets of the C layout
(include/silofs/ioctls.h, include/silofs/defs.h:671-697, the kernel's struct statx).  Numbers printed
by `show` are kept as numbers, not as digits.
-/
namespace Silofs.Rep
open Silofs Silofs.Space Silofs.Addr

/-! ### Bytes at offsets -/

/-- A write of `v` at `off` into memory `b`. -/
def put (b : List Nat) (off : Nat) (v : List Nat) : List Nat :=
  b.take off ++ v ++ b.drop (off + v.length)

/-- `n` bytes at `off`. -/
def get (b : List Nat) (off n : Nat) : List Nat := (b.drop off).take n

/-- The C string at `off`. -/
def cstr (b : List Nat) (off : Nat) : List Nat := (b.drop off).takeWhile (· ≠ 0)

/-- Assignments to several fields, in order. -/
def puts (b : List Nat) (l : List (Nat × List Nat)) : List Nat := l.foldl (fun b f => put b f.1 f.2) b

def zeros (n : Nat) : List Nat := List.replicate n 0

/-- str_to_buf, lib/namei.c:2112-2118, with silofs_strview_copyto, lib/str/strview.c:147-158: as much
of the text as fits, a zero behind it, and a zero in the last byte. -/
def strToBuf (b : List Nat) (off bsz : Nat) (s : List Nat) : List Nat :=
  put (if s.length < bsz then put (put b off (s.take bsz)) (off + s.length) [0]
       else put b off (s.take bsz)) (off + bsz - 1) [0]

/-! ### statfs -/

/-- struct statvfs as filled. -/
structure Statvfs where
  bsize : Nat
  frsize : Nat
  blocks : Nat
  bfree : Nat
  bavail : Nat
  files : Nat
  ffree : Nat
  favail : Nat
  namemax : Nat
  deriving DecidableEq

/-- sti_inodes_max, lib/stats.c:645-648. -/
def inodesMax (s : Sys) : Nat := s.cap / 1024 / 4

/-- sti_inodes_used, lib/stats.c:636-643. -/
def inodesUsed (s : Sys) : Nat := toU64 (s.objsBase LTYPE_INODE + s.objs LTYPE_INODE)

/-- silofs_sti_fill_statvfs, lib/stats.c:712-735: all in size_t. -/
def fillStatvfs (s : Sys) : Statvfs :=
  { bsize := 4096
    frsize := 4096
    blocks := s.cap / 4096
    bfree := toU64 ((s.cap : Int) - (usedU s : Int)) / 4096
    bavail := toU64 ((s.cap : Int) - (usedU s : Int)) / 4096
    files := inodesMax s
    ffree := toU64 ((inodesMax s : Int) - (inodesUsed s : Int))
    favail := toU64 ((inodesMax s : Int) - (inodesUsed s : Int))
    namemax := 511 }

/-- check_name_len, lib/boot.c:51-62: lengths of names which are taken. -/
def nameLenOk (n : Nat) : Bool := n ≠ 0 && n ≤ min 511 255

/-! ### statx -/

/-- A time stamp. -/
structure Ts where
  sec : Int
  nsec : Nat
  deriving DecidableEq

/-- What an inode in memory has, as far as it is reported. -/
structure Ino where
  ino : Nat
  mode : Nat
  nlink : Nat
  uid : Nat
  gid : Nat
  rdevMajor : Nat
  rdevMinor : Nat
  size : Nat
  /-- space in units of 1K -/
  kbs : Nat
  btime : Ts
  atime : Ts
  mtime : Ts
  ctime : Ts
  iflags : Nat
  dirflags : Nat

def isDir (mode : Nat) : Bool := mode / 4096 == 4
def isReg (mode : Nat) : Bool := mode / 4096 == 8

/-- struct stat, the fields filled in by silofs_ii_stat_of. -/
structure Stat where
  ino : Nat
  mode : Nat
  nlink : Nat
  uid : Nat
  gid : Nat
  size : Nat
  blocks : Nat
  blksize : Nat
  atime : Ts
  mtime : Ts
  ctime : Ts
  deriving DecidableEq

/-- ii_stat_blksize, lib/inode.c:1037-1045. -/
def statBlksize (i : Ino) : Nat := if isReg i.mode ∧ i.size < 65536 then 4096 else 65536

/-- ii_stat_blocks, lib/inode.c:1047-1055: units of 512 bytes, rounded up. -/
def statBlocks (i : Ino) : Nat := (i.kbs * 1024 + 511) / 512

/-- silofs_ii_stat_of, lib/inode.c:1130-1154 (struct stat). -/
def statOf (i : Ino) : Stat :=
  ⟨i.ino, i.mode, i.nlink, i.uid, i.gid, i.size, statBlocks i, statBlksize i, i.atime, i.mtime, i.ctime⟩

/-- struct statx. -/
structure Statx where
  mask : Nat
  blksize : Nat
  attributes : Nat
  nlink : Nat
  uid : Nat
  gid : Nat
  mode : Nat
  ino : Nat
  size : Nat
  blocks : Nat
  attributesMask : Nat
  atime : Ts
  btime : Ts
  ctime : Ts
  mtime : Ts
  rdevMajor : Nat
  rdevMinor : Nat
  deriving DecidableEq

def Ts.zero : Ts := ⟨0, 0⟩

def Statx.zero : Statx := ⟨0, 0, 0, 0, 0, 0, 0, 0, 0, 0, 0, .zero, .zero, .zero, .zero, 0, 0⟩

/-- `v` if bit `i` is wanted, nothing otherwise. -/
def want (w i : Nat) (v : Nat) : Nat := if w.testBit i then v else 0
def wantTs (w i : Nat) (v : Ts) : Ts := if w.testBit i then v else .zero

/-- ii_update_statx, lib/inode.c:1060-1128.  The bits are those of linux/stat.h: 0 type, 1 mode, 2
nlink, 3 uid, 4 gid, 5 atime, 6 mtime, 7 ctime, 8 ino, 9 size, 10 blocks, 11 btime; the type is the
part of the mode above 4096, and both parts are or-ed (here: added, they share no bit).
STATX_ATTR_ENCRYPTED is 0x800. -/
def statxOf (i : Ino) (w : Nat) : Statx :=
  if w = 0 then Statx.zero
  else
    { mask := ((List.range 12).map fun k => want w k (2 ^ k)).sum
      nlink := want w 2 i.nlink
      uid := want w 3 i.uid
      gid := want w 4 i.gid
      mode := want w 0 (i.mode / 4096 * 4096) + want w 1 (i.mode % 4096)
      ino := want w 8 i.ino
      size := want w 9 i.size
      blocks := want w 10 (statBlocks i)
      blksize := statBlksize i
      rdevMajor := i.rdevMajor
      rdevMinor := i.rdevMinor
      attributes := 0x800
      attributesMask := 0x800
      atime := wantTs w 5 i.atime
      btime := wantTs w 11 i.btime
      ctime := wantTs w 7 i.ctime
      mtime := wantTs w 6 i.mtime }

/-- struct statx_timestamp (linux/stat.h), assign_xts, lib/inode.c:101-105. -/
def tsBytes (t : Ts) : List Nat := leBytes 8 (toU64 t.sec) ++ leBytes 4 t.nsec ++ leBytes 4 0

/-- struct statx in memory (256 bytes). -/
def stxFields (o : Nat) (x : Statx) : List (Nat × List Nat) :=
  [(o, leBytes 4 x.mask), (o + 4, leBytes 4 x.blksize), (o + 8, leBytes 8 x.attributes),
   (o + 16, leBytes 4 x.nlink), (o + 20, leBytes 4 x.uid), (o + 24, leBytes 4 x.gid),
   (o + 28, leBytes 2 x.mode), (o + 32, leBytes 8 x.ino), (o + 40, leBytes 8 x.size),
   (o + 48, leBytes 8 x.blocks), (o + 56, leBytes 8 x.attributesMask),
   (o + 64, tsBytes x.atime), (o + 80, tsBytes x.btime), (o + 96, tsBytes x.ctime),
   (o + 112, tsBytes x.mtime), (o + 128, leBytes 4 x.rdevMajor), (o + 132, leBytes 4 x.rdevMinor)]

/-- The answer to FUSE_STATX: fill_fuse_statx_out and stat_to_fuse_statx, lib/fuseq.c:507-528 and
582-588; struct fuse_statx has the layout of struct statx and stands behind 32 bytes. -/
def fuseStatxOut (x : Statx) : List Nat :=
  puts (zeros 288) ((0, leBytes 8 4294967295) :: stxFields 32 x)

/-- struct stat (x86-64) in memory, up to st_blocks; the rest is not needed here. -/
def statFields (x : Stat) : List (Nat × List Nat) :=
  [(0, leBytes 8 0), (8, leBytes 8 x.ino), (16, leBytes 8 x.nlink), (24, leBytes 4 x.mode),
   (28, leBytes 4 x.uid), (32, leBytes 4 x.gid), (36, leBytes 4 0), (40, leBytes 8 0),
   (48, leBytes 8 x.size), (56, leBytes 8 x.blksize), (64, leBytes 8 x.blocks)]

/-! ### Space statistics -/

/-- Counters per kind of object, struct silofs_spacegauges, include/silofs/stats.h:25-37. -/
abbrev Gauges := Nat → Int

/-- struct silofs_spacestats, include/silofs/stats.h:40-49. -/
structure Stats where
  btime : Int
  ctime : Int
  capacity : Nat
  vspacesize : Nat
  generation : Nat
  lsegs : Gauges
  bks : Gauges
  objs : Gauges

/-- spg_gauge_of, lib/stats.c:88-132: place of a counter in struct silofs_space_gauges,
include/silofs/defs.h:671-685. -/
def gaugeOff (t : Nat) : Option Nat :=
  if t = LTYPE_SUPER then some 0
  else if t = LTYPE_SPNODE then some 8
  else if t = LTYPE_SPLEAF then some 16
  else if t = LTYPE_INODE then some 32
  else if t = LTYPE_XANODE then some 40
  else if t = LTYPE_SYMVAL then some 56
  else if t = LTYPE_DTNODE then some 48
  else if t = LTYPE_FTNODE then some 64
  else if t = LTYPE_DATA1K then some 72
  else if t = LTYPE_DATA4K then some 80
  else if t = LTYPE_DATABK then some 88
  else none

/-- spgs_export, lib/stats.c:456-474: the fields it assigns, `o` the place of the structure. -/
def gaugeFields (o : Nat) (g : Gauges) : List (Nat × List Nat) :=
  (List.range' 1 12).filterMap fun t => (gaugeOff t).map fun k => (o + k, leBytes 8 (gaugeEnc (g t)))

/-- silofs_spacestats_export, lib/stats.c:504-516; the structure was zeroed. -/
def statsFields (o : Nat) (s : Stats) : List (Nat × List Nat) :=
  [(o, leBytes 8 (toU64 s.btime)), (o + 8, leBytes 8 (toU64 s.ctime)),
   (o + 16, leBytes 8 s.capacity), (o + 24, leBytes 8 s.vspacesize), (o + 32, leBytes 8 s.generation)]
  ++ gaugeFields (o + 256) s.lsegs ++ gaugeFields (o + 512) s.bks ++ gaugeFields (o + 768) s.objs

/-- spgs_import, lib/stats.c:476-494: kinds without counter keep the zero of memzero. -/
def gaugesIn (b : List Nat) (o : Nat) : Gauges := fun t =>
  match gaugeOff t with
  | none => 0
  | some k => gaugeDec (leVal (get b (o + k) 8))

/-- silofs_spacestats_import, lib/stats.c:518-530. -/
def statsIn (b : List Nat) (o : Nat) : Stats :=
  ⟨toI64 (leVal (get b o 8)), toI64 (leVal (get b (o + 8) 8)), leVal (get b (o + 16) 8),
   leVal (get b (o + 24) 8), leVal (get b (o + 32) 8), gaugesIn b (o + 256), gaugesIn b (o + 512),
   gaugesIn b (o + 768)⟩

/-- silofs_sti_collect_stats, lib/stats.c:603-611, with spgs_accum, 436-454: the numbers of the
volume itself, and the counters of it and of the volumes it was forked from. -/
def collect (curr base : Stats) : Stats :=
  { curr with
    lsegs := fun t => if (gaugeOff t).isSome then curr.lsegs t + base.lsegs t else 0
    bks := fun t => if (gaugeOff t).isSome then curr.bks t + base.bks t else 0
    objs := fun t => if (gaugeOff t).isSome then curr.objs t + base.objs t else 0 }

/-! ### Queries -/

/-- What of the mounted file-system queries look at. -/
structure Env where
  verString : List Nat
  verMajor : Nat
  verMinor : Nat
  verSub : Nat
  repodir : List Nat
  name : List Nat
  bootAddr : Caddr
  fsUuid : List Nat
  lvUuid : List Nat
  uid : Nat
  gid : Nat
  pid : Int
  uptime : Int
  msflags : Nat
  iopenMax : Nat
  iopenCur : Nat
  memMax : Nat
  memCur : Nat
  bopenCur : Nat
  curr : Stats
  base : Stats

def SEINVAL : Nat := 1022
def SENOSYS : Nat := 1038
def ENOTTY : Nat := 25

/-- fill_query_version, lib/namei.c:2120-2132.  The answer `u` stands at 64. -/
def fillVersion (e : Env) (b : List Nat) : List Nat :=
  strToBuf (puts b [(64 + 512, leBytes 4 e.verMajor), (64 + 516, leBytes 4 e.verMinor),
    (64 + 520, leBytes 4 e.verSub)]) 64 512 e.verString

/-- fill_query_repo, lib/namei.c:2134-2144. -/
def fillRepo (e : Env) (b : List Nat) : List Nat := strToBuf b 64 1536 e.repodir

/-- fill_query_boot, lib/namei.c:2146-2164, with silofs_caddr_to_name2, lib/addr/caddr.c:164-174
(the text of an address is always shorter than 511). -/
def fillBoot (e : Env) (b : List Nat) : List Nat :=
  puts (strToBuf b 64 512 e.name)
    [(64 + 512, Caddr.toName e.bootAddr ++ [0]), (64 + 1024, e.fsUuid), (64 + 1040, e.lvUuid)]

/-- fill_proc, lib/namei.c:2069-2089. -/
def fillProc (e : Env) (b : List Nat) : List Nat :=
  puts b [(64, zeros 256), (64 + 8, leBytes 4 e.uid), (64 + 12, leBytes 4 e.gid),
    (64, leBytes 8 (toU64 e.pid)), (64 + 24, leBytes 8 e.msflags), (64 + 16, leBytes 8 (toU64 e.uptime)),
    (64 + 56, leBytes 8 e.iopenMax), (64 + 64, leBytes 8 e.iopenCur), (64 + 32, leBytes 8 e.memMax),
    (64 + 40, leBytes 8 e.memCur), (64 + 48, leBytes 8 e.bopenCur)]

/-- fill_spstats, lib/namei.c:2060-2067; silofs_spacestats_export zeroes the structure first. -/
def fillSpstats (e : Env) (b : List Nat) : List Nat :=
  puts b ((64, zeros 1024) :: statsFields 64 (collect e.curr e.base))

/-- do_query_statx, lib/namei.c:2178-2198 (STATX_ALL | STATX_BTIME is 0xfff).  `perm`: outcome of the
check of do_statx, lib/inode.c:1192-1204. -/
def fillStatx (i : Ino) (perm : Option Nat) (b : List Nat) : Option Nat × List Nat :=
  match perm with
  | some e => (some e, b)
  | none =>
    (none, puts b (stxFields 64 (statxOf i 0xfff) ++ [(64 + 256, leBytes 4 i.iflags)] ++
      (if isDir i.mode then [(64 + 260, leBytes 4 i.dirflags)] else [])))

/-- do_query and do_query_subcmd, lib/namei.c:2200-2250.  `b` is the memory of the answer, struct
silofs_ioc_query of 2048 bytes; `racc`: outcome of the check of read permission. -/
def doQuery (e : Env) (i : Ino) (racc perm : Option Nat) (q : Nat) (b : List Nat) : Option Nat × List Nat :=
  match racc with
  | some er => (some er, b)
  | none =>
    if q = 1 then (none, fillVersion e (put b 64 (zeros 1984)))
    else if q = 2 then (none, fillRepo e (put b 64 (zeros 1984)))
    else if q = 3 then (none, fillBoot e (put b 64 (zeros 1984)))
    else if q = 4 then (none, fillProc e (put b 64 (zeros 1984)))
    else if q = 5 then (none, fillSpstats e (put b 64 (zeros 1984)))
    else if q = 6 then fillStatx i perm (put b 64 (zeros 1984))
    else (some SEINVAL, put b 64 (zeros 1984))

/-- The answer to a request: an error or bytes. -/
inductive Ans where
  | err (e : Nat)
  | bytes (b : List Nat)
  deriving DecidableEq

/-- One ioctl request, struct fuse_ioctl_in and what follows. -/
structure Ioc where
  flags : Nat
  cmd : Nat
  inSize : Nat
  outSize : Nat
  buf : List Nat

/-- do_ioc_query, lib/fuseq.c:2821-2857.  `out` is what the thread's `args->out` holds, from
whatever it served before.  An outgoing size of zero is refused whatever the flags are
(`flags | FUSE_IOCTL_RETRY`). -/
def iocQuery (e : Env) (i : Ino) (racc perm : Option Nat) (r : Ioc) (out : List Nat) : Ans × List Nat :=
  if 2048 < r.inSize then (.err SEINVAL, out)
  else if r.outSize = 0 then (.err SENOSYS, out)
  else if r.outSize ≠ 2048 then (.err SEINVAL, out)
  else if r.inSize < 4 then (.err SEINVAL, out)
  else
    match doQuery e i racc perm (leVal (get r.buf 0 4)) out with
    | (some er, b) => (.err er, b)
    | (none, b) => (.bytes (b.take 2048), b)

/-- do_ioc_getflags, lib/fuseq.c:2798-2819: FS_NOATIME_FL (0x80), if the attributes may be looked at. -/
def iocGetflags (perm : Option Nat) (r : Ioc) : Ans :=
  if r.outSize ≠ 8 then .err SEINVAL
  else match perm with
    | some e => .err e
    | none => .bytes (leBytes 8 0x80)

/-! ### Tuning -/

/-- check_tune_mask, lib/namei.c:2430-2438: only SILOFS_INODEF_FTYPE2 (2). -/
def tuneMaskOk (m : Nat) : Bool := m ||| 2 == 2

/-- silofs_ii_update_iflags and ii_set_iflags, lib/inode.c:488-514. -/
def updateIflags (cur w d : Nat) : Nat := ((cur ||| w) &&& (4294967295 ^^^ d)) &&& 2

/-- do_tune, lib/namei.c:2475-2486, with check_tune, 2458-2473; `wacc`: outcome of
check_dir_waccess, which refuses what is not a directory.  Second component: the flags stored. -/
def doTune (i : Ino) (wacc : Option Nat) (w d : Nat) : Option Nat × Nat :=
  match wacc with
  | some e => (some e, i.iflags)
  | none =>
    if tuneMaskOk w && tuneMaskOk d && (w &&& d == 0) then (none, updateIflags i.iflags w d)
    else (some SEINVAL, i.iflags)

/-- inewp_set_by_parent, lib/namei.c:193-208: flags of a new inode in a directory with flags `p`. -/
def newIflags (mode p : Nat) : Nat := if isReg mode ∨ isDir mode then p &&& 2 else 0

/-- ii_ftype, lib/file.c:84-97: how the content of a file is stored; 0: not a regular file. -/
def ftype (i : Ino) : Nat :=
  if isReg i.mode then (if i.iflags &&& 2 ≠ 0 then 2 else 1) else 0

/-- do_ioc_tune, lib/fuseq.c:2930-2957. -/
def iocTune (i : Ino) (wacc : Option Nat) (r : Ioc) : Ans × Nat :=
  if r.inSize < 256 ∨ 2048 < r.inSize then (.err SEINVAL, i.iflags)
  else if 0 < r.outSize then (.err SEINVAL, i.iflags)
  else
    match doTune i wacc (leVal (get r.buf 0 4)) (leVal (get r.buf 4 4)) with
    | (some e, f) => (.err e, f)
    | (none, f) => (.bytes [], f)

/-! ### The thread that serves requests -/

/-- Requests, as far as they leave something in `args->out` (include/silofs/opers.h:379-398): those
which answer with attributes (lookup, getattr, setattr, mkdir, ...) and queries.  `fqd_args` is
zeroed when the thread starts and not between requests (lib/fuseq.c:3942-3948). -/
inductive Req where
  | attr (i : Ino)
  | query (e : Env) (i : Ino) (racc perm : Option Nat) (r : Ioc)

/-- One request. -/
def serve (out : List Nat) : Req → Ans × List Nat
  | .attr i => (.bytes [], puts out (statFields (statOf i)))
  | .query e i racc perm r => iocQuery e i racc perm r out

/-- A thread's state after requests. -/
def served (rs : List Req) : List Nat := rs.foldl (fun out r => (serve out r).2) (zeros 2048)

/-! ### `silofs show`, cmd/show.c -/

/-- cmd_show_version, cmd/show.c:160-164. -/
def showVersion (a : List Nat) : List Nat := cstr a 64

/-- cmd_show_repo, cmd/show.c:166-170. -/
def showRepo (a : List Nat) : List Nat := cstr a 64

/-- cmd_show_boot, cmd/show.c:172-190 (the third is printed as text of a uuid). -/
def showBoot (a : List Nat) : List Nat × List Nat × List Nat := (cstr a 64, cstr a 576, get a 1088 16)

/-- cmd_show_proc, cmd/show.c:262-276: pid, up-time, flags, memory, open segments, open files. -/
def showProc (a : List Nat) : Int × Int × Nat × Nat × Nat × Nat × Nat × Nat :=
  (toI64 (leVal (get a 64 8)), toI64 (leVal (get a 80 8)), leVal (get a 88 8), leVal (get a 96 8),
   leVal (get a 104 8), leVal (get a 112 8), leVal (get a 120 8), leVal (get a 128 8))

/-- cmd_show_spstats, cmd/show.c:324-331. -/
def showSpstats (a : List Nat) : Stats := statsIn a 64

/-- cmd_show_statx, cmd/show.c:333-351: blksize, nlink, uid, gid, mode, ino, size, blocks, flags,
flags of a directory. -/
def showStatx (a : List Nat) : List Nat :=
  [leVal (get a 68 4), leVal (get a 80 4), leVal (get a 84 4), leVal (get a 88 4), leVal (get a 92 2),
   leVal (get a 96 8), leVal (get a 104 8), leVal (get a 112 8), leVal (get a 320 4), leVal (get a 324 4)]

/-- The flags with names, cmd/show.c:199-203. -/
def msNames : List (Nat × List Nat) :=
  [(1, [114, 100, 111, 110, 108, 121]), (4, [110, 111, 100, 101, 118]),
   (2, [110, 111, 115, 117, 105, 100]), (8, [110, 111, 101, 120, 101, 99]),
   (64, [109, 97, 110, 100, 108, 111, 99, 107]), (1024, [110, 111, 97, 116, 105, 109, 101])]

/-- Loop of msflags_str, cmd/show.c:195-224: memory of 128 bytes, position, whether none was
written yet.  The comma goes `len` bytes behind the place reached.  `none`: write outside. -/
def msLoop (fl : Nat) : List (Nat × List Nat) → List Nat → Nat → Bool → Option (List Nat)
  | [], b, _, _ => some b
  | (f, nm) :: l, b, pos, first =>
    if fl &&& f = 0 then msLoop fl l b pos first
    else if pos + nm.length + 2 < 127 then
      if first then
        msLoop fl l (put (put b pos nm) (pos + nm.length) [0]) (pos + nm.length) false
      else if pos + nm.length + nm.length < 128 then
        msLoop fl l (put (put (put b pos nm) (pos + nm.length + nm.length) [44])
          (pos + nm.length + 1) [0]) (pos + nm.length + 1) false
      else none
    else msLoop fl l b pos first

/-- cmd_show_msflags, cmd/show.c:226-233: what is printed. -/
def showMsflags (fl : Nat) : Option (List Nat) :=
  (msLoop fl msNames (zeros 128) 0 true).map fun b => cstr b 0

end Silofs.Rep
