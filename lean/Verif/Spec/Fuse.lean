import Verif.Model.Fuse
/-
What the kernel puts into a FUSE request and what it means: the layouts are those of
include/linux/fuse_kernel.h (Linux's uapi header), written as sequences of fields; nothing
here uses byte offsets or functions of the model's decoder.
-/
namespace Silofs.Fuse

def le32 (x : UInt32) : Buf := leBytes 4 x.toNat
def le64 (x : UInt64) : Buf := leBytes 8 x.toNat

/-- Who asks, about which inode, under which number. -/
structure KHdr where
  unique : UInt64
  node : UInt64
  uid : UInt32
  gid : UInt32
  pid : UInt32
  deriving DecidableEq

/-- A time to set: the kernel's clock (`now`, its value is sent as well) or a given one. -/
structure KTime where
  now : Bool
  sec : UInt64
  nsec : UInt32
  deriving DecidableEq

structure KSetattr where
  fh : Option UInt64
  mode : Option UInt32
  uid : Option UInt32
  gid : Option UInt32
  size : Option UInt64
  lockOwner : Option UInt64
  atime : Option KTime
  mtime : Option KTime
  ctime : Option (UInt64 × UInt32)
  deriving DecidableEq

/-- The requests of the kernel. -/
inductive KReq where
  | lookup (name : List Nat)
  | forget (n : UInt64)
  | getattr (flags : UInt32) (fh : UInt64)
  | setattr (s : KSetattr)
  | readlink
  | symlink (name target : List Nat)
  | mknod (name : List Nat) (mode rdev umask : UInt32)
  | mkdir (name : List Nat) (mode umask : UInt32)
  | unlink (name : List Nat)
  | rmdir (name : List Nat)
  | rename (name : List Nat) (newdir : UInt64) (newname : List Nat)
  | link (old : UInt64) (name : List Nat)
  | open (flags oflags : UInt32)
  | read (fh off : UInt64) (size rflags : UInt32) (lock : UInt64) (flags : UInt32)
  | write (fh off : UInt64) (data : List Nat) (wflags : UInt32) (lock : UInt64) (flags : UInt32)
  | statfs
  | release (fh : UInt64) (flags rflags : UInt32) (lock : UInt64)
  | fsync (fh : UInt64) (flags : UInt32)
  | setxattr (name value : List Nat) (flags xflags : UInt32)
  | getxattr (name : List Nat) (size : UInt32)
  | listxattr (size : UInt32)
  | removexattr (name : List Nat)
  | flush (fh lock : UInt64)
  | init (major minor readahead flags flags2 : UInt32)
  | opendir (flags oflags : UInt32)
  | readdir (plus : Bool) (fh off : UInt64) (size rflags : UInt32) (lock : UInt64) (flags : UInt32)
  | releasedir (fh : UInt64) (flags rflags : UInt32) (lock : UInt64)
  | fsyncdir (fh : UInt64) (flags : UInt32)
  | access (mask : UInt32)
  | create (name : List Nat) (flags mode umask oflags : UInt32)
  | destroy
  | ioctl (fh : UInt64) (flags cmd : UInt32) (arg : UInt64) (data : List Nat) (outSize : UInt32)
  | batchForget (l : List (UInt64 × UInt64))
  | fallocate (fh off len : UInt64) (mode : UInt32)
  | rename2 (name : List Nat) (newdir : UInt64) (newname : List Nat) (flags : UInt32)
  | lseek (fh off : UInt64) (whence : UInt32)
  | copyRange (fhIn offIn nodeOut fhOut offOut len : UInt64) (flags : UInt32)
  | syncfs (pad : UInt64)
  | statx (gflags : UInt32) (fh : UInt64) (flags mask : UInt32)
  /-- GETLK, SETLK, SETLKW, INTERRUPT, BMAP, POLL, NOTIFY_REPLY, SETUPMAPPING, REMOVEMAPPING, TMPFILE,
  and any code of a later protocol -/
  | other (code : UInt32) (body : List Nat)
  deriving DecidableEq

/-- include/linux/fuse_kernel.h:581-631 `enum fuse_opcode`. -/
def KReq.code : KReq → UInt32
  | .lookup .. => 1 | .forget .. => 2 | .getattr .. => 3 | .setattr .. => 4 | .readlink => 5 | .symlink .. => 6
  | .mknod .. => 8 | .mkdir .. => 9 | .unlink .. => 10 | .rmdir .. => 11 | .rename .. => 12 | .link .. => 13
  | .open .. => 14 | .read .. => 15 | .write .. => 16 | .statfs => 17 | .release .. => 18 | .fsync .. => 20
  | .setxattr .. => 21 | .getxattr .. => 22 | .listxattr .. => 23 | .removexattr .. => 24 | .flush .. => 25
  | .init .. => 26 | .opendir .. => 27 | .readdir plus .. => if plus then 44 else 28 | .releasedir .. => 29
  | .fsyncdir .. => 30 | .access .. => 34 | .create .. => 35 | .destroy => 38 | .ioctl .. => 39 | .batchForget .. => 42
  | .fallocate .. => 43 | .rename2 .. => 45 | .lseek .. => 46 | .copyRange .. => 47 | .syncfs .. => 50 | .statx .. => 52
  | .other c _ => c

/-- A string with its NUL. -/
def str0 (s : List Nat) : Buf := s ++ [0]

def flag (k : Nat) (b : Bool) : Nat := if b then 2 ^ k else 0

/-- The `FATTR_...` bits (include/linux/fuse_kernel.h:335-346) of what is present. -/
def KSetattr.valid (s : KSetattr) : Nat :=
  flag 0 s.mode.isSome ||| flag 1 s.uid.isSome ||| flag 2 s.gid.isSome ||| flag 3 s.size.isSome |||
  flag 4 s.atime.isSome ||| flag 5 s.mtime.isSome ||| flag 6 s.fh.isSome |||
  flag 7 (s.atime.any (·.now)) ||| flag 8 (s.mtime.any (·.now)) ||| flag 9 s.lockOwner.isSome |||
  flag 10 s.ctime.isSome

def KTime.zero : KTime := ⟨false, 0, 0⟩

/-- `struct fuse_setattr_in`; what is not present is zero. -/
def KSetattr.body (s : KSetattr) : Buf :=
  leBytes 4 s.valid ++ le32 0 ++ le64 (s.fh.getD 0) ++ le64 (s.size.getD 0) ++ le64 (s.lockOwner.getD 0) ++
  le64 (s.atime.getD .zero).sec ++ le64 (s.mtime.getD .zero).sec ++ le64 (s.ctime.getD (0, 0)).1 ++
  le32 (s.atime.getD .zero).nsec ++ le32 (s.mtime.getD .zero).nsec ++ le32 (s.ctime.getD (0, 0)).2 ++
  le32 (s.mode.getD 0) ++ le32 0 ++ le32 (s.uid.getD 0) ++ le32 (s.gid.getD 0) ++ le32 0

/-- The part of a request behind the header; `ext`: both sides have agreed on the longer
form of setxattr. -/
def KReq.body (ext : Bool) : KReq → Buf
  | .lookup name | .unlink name | .rmdir name | .removexattr name => str0 name
  | .forget n => le64 n
  | .getattr f fh => le32 f ++ le32 0 ++ le64 fh
  | .setattr s => s.body
  | .readlink | .statfs | .destroy => []
  | .symlink name target => str0 name ++ str0 target
  | .mknod name mode rdev umask => le32 mode ++ le32 rdev ++ le32 umask ++ le32 0 ++ str0 name
  | .mkdir name mode umask => le32 mode ++ le32 umask ++ str0 name
  | .rename name nd newname => le64 nd ++ str0 name ++ str0 newname
  | .link old name => le64 old ++ str0 name
  | .open f o | .opendir f o => le32 f ++ le32 o
  | .read fh off size rf lock f | .readdir _ fh off size rf lock f =>
    le64 fh ++ le64 off ++ le32 size ++ le32 rf ++ le64 lock ++ le32 f ++ le32 0
  | .write fh off data wf lock f =>
    le64 fh ++ le64 off ++ leBytes 4 data.length ++ le32 wf ++ le64 lock ++ le32 f ++ le32 0 ++ data
  | .release fh f rf lock | .releasedir fh f rf lock => le64 fh ++ le32 f ++ le32 rf ++ le64 lock
  | .fsync fh f | .fsyncdir fh f => le64 fh ++ le32 f ++ le32 0
  | .setxattr name value f xf =>
    leBytes 4 value.length ++ le32 f ++ (if ext then le32 xf ++ le32 0 else []) ++ str0 name ++ value
  | .getxattr name size => le32 size ++ le32 0 ++ str0 name
  | .listxattr size => le32 size ++ le32 0
  | .flush fh lock => le64 fh ++ le32 0 ++ le32 0 ++ le64 lock
  | .init ma mi ra f f2 => le32 ma ++ le32 mi ++ le32 ra ++ le32 f ++ le32 f2 ++ List.replicate 44 0
  | .access mask => le32 mask ++ le32 0
  | .create name f mode umask o => le32 f ++ le32 mode ++ le32 umask ++ le32 o ++ str0 name
  | .ioctl fh f cmd arg data out =>
    le64 fh ++ le32 f ++ le32 cmd ++ le64 arg ++ leBytes 4 data.length ++ le32 out ++ data
  | .batchForget l => leBytes 4 l.length ++ le32 0 ++ (l.map fun e => le64 e.1 ++ le64 e.2).flatten
  | .fallocate fh off len mode => le64 fh ++ le64 off ++ le64 len ++ le32 mode ++ le32 0
  | .rename2 name nd newname f => le64 nd ++ le32 f ++ le32 0 ++ str0 name ++ str0 newname
  | .lseek fh off wh => le64 fh ++ le64 off ++ le32 wh ++ le32 0
  | .copyRange fi oi no fo oo len f =>
    le64 fi ++ le64 oi ++ le64 no ++ le64 fo ++ le64 oo ++ le64 len ++ leBytes 8 f.toNat
  | .syncfs p => le64 p
  | .statx gf fh f mask => le32 gf ++ le32 0 ++ le64 fh ++ le32 f ++ le32 mask
  | .other _ body => body

/-- A whole message: `struct fuse_in_header` and the body. -/
def wire (ext : Bool) (h : KHdr) (r : KReq) : Buf :=
  leBytes 4 (40 + (r.body ext).length) ++ le32 r.code ++ le64 h.unique ++ le64 h.node ++ le32 h.uid ++ le32 h.gid ++
  le32 h.pid ++ leBytes 2 0 ++ leBytes 2 0 ++ r.body ext

/-- An offset: the 64 bits of an `loff_t`. -/
def offOf (x : UInt64) : Int := toI64 x.toNat

def tmFor (t : Option KTime) : Tm :=
  match t with
  | none => .omit
  | some t => .at (offOf t.sec) t.nsec.toNat

/-- Anything at all that is to be set, other than the change time itself. -/
def KSetattr.any (s : KSetattr) : Bool :=
  s.mode.isSome || s.uid.isSome || s.gid.isSome || s.size.isSome || s.atime.isSome || s.mtime.isSome

/-- What a setattr asks for. -/
def KSetattr.means (s : KSetattr) : SetArgs :=
  { mode := s.mode.map (·.toNat)
    ids := if s.uid.isSome || s.gid.isSome then
        some ((s.uid.map (·.toNat)).getD 4294967295, (s.gid.map (·.toNat)).getD 4294967295) else none
    size := s.size.map offOf
    amNow := s.atime.any (·.now) || s.mtime.any (·.now)
    amc := s.atime.isSome || s.mtime.isSome || s.ctime.isSome
    nontime := s.mode.isSome || s.uid.isSome || s.gid.isSome || s.size.isSome
    atime := tmFor s.atime
    mtime := tmFor s.mtime
    ctime := match s.ctime with
      | some c => .at (offOf c.1) c.2.toNat
      | none => if s.any then .now else .omit }

/-- What a request asks of the file-system.  A range to copy may be cut, here at 2G, since the answer
tells how much was copied; a buffer for an extended attribute's value larger than any value
is as good as one of the largest value's size. -/
def KReq.means (node : Nat) : KReq → Option Call
  | .lookup name => some (.lookup node name)
  | .forget n => some (.forget node n.toNat)
  | .getattr .. => some (.getattr node)
  | .setattr s => some (.setattr node s.means)
  | .readlink => some (.readlink node)
  | .symlink name target => some (.symlink node name target)
  | .mknod name mode rdev umask => some (.mknod node name mode.toNat rdev.toNat umask.toNat)
  | .mkdir name mode umask => some (.mkdir node name (mode.toNat ||| 0x4000) umask.toNat)
  | .unlink name => some (.unlink node name)
  | .rmdir name => some (.rmdir node name)
  | .rename name nd newname => some (.rename node name nd.toNat newname 0)
  | .link old name => some (.link old.toNat node name)
  | .open f _ => some (.open node f.toNat)
  | .read _ off size _ _ f => some (.read node (offOf off) size.toNat f.toNat)
  | .write _ off data wf _ f => some (.write node (offOf off) data f.toNat (wf.toNat.testBit 0))
  | .statfs => some (.statfs node)
  | .release _ f rf _ => some (.release node f.toNat (rf.toNat.testBit 0))
  | .fsync _ f => some (.fsync node (f.toNat.testBit 0))
  | .setxattr name value f xf => some (.setxattr node name value f.toNat (xf.toNat.testBit 0))
  | .getxattr name size => some (.getxattr node name (min size.toNat 2048))
  | .listxattr size => some (.listxattr node size.toNat)
  | .removexattr name => some (.removexattr node name)
  | .flush .. => some (.flush node)
  | .init ma mi _ f _ => some (.init ma.toNat mi.toNat f.toNat)
  | .opendir f _ => some (.opendir node f.toNat)
  | .readdir plus _ off size .. => some (.readdir node (offOf off) size.toNat plus)
  | .releasedir _ f .. => some (.releasedir node f.toNat)
  | .fsyncdir _ f => some (.fsyncdir node (f.toNat.testBit 0))
  | .access mask => some (.access node mask.toNat)
  | .create name f mode umask _ => some (.create node name f.toNat mode.toNat umask.toNat)
  | .destroy => some .destroy
  | .ioctl _ f cmd _ data out => some (.ioctl node f.toNat cmd.toNat data.length out.toNat data)
  | .batchForget l => some (.batchForget (l.map fun e => (e.1.toNat, e.2.toNat)))
  | .fallocate _ off len mode => some (.fallocate node mode.toNat (offOf off) (offOf len))
  | .rename2 name nd newname f => some (.rename node name nd.toNat newname f.toNat)
  | .lseek _ off wh => some (.lseek node (offOf off) wh.toNat)
  | .copyRange _ oi no _ oo len f =>
    some (.copyRange node (offOf oi) no.toNat (offOf oo) (min len.toNat 2147483648) f.toNat)
  | .syncfs _ => some (.syncfs node)
  | .statx _ _ _ mask => some (.statx node mask.toNat)
  | .other .. => none

/-- Bytes of a string: no NUL inside. -/
def NoNul (s : List Nat) : Prop := ∀ b ∈ s, b ≠ 0

/-- The codes that are not requests of their own above. -/
def otherCodes (c : UInt32) : Prop := c ∉ [1, 2, 3, 4, 5, 6, 8, 9, 10, 11, 12, 13, 14, 15, 16, 17, 18, 20, 21, 22, 23,
  24, 25, 26, 27, 28, 29, 30, 34, 35, 38, 39, 42, 43, 44, 45, 46, 47, 50, 52].map UInt32.ofNat

/-- Requests as the kernel makes them on a connection with the given limits: no NUL in a name, no read or
write larger than agreed. -/
def KReq.Fine (maxRead maxWrite : Nat) : KReq → Prop
  | .lookup n | .unlink n | .rmdir n | .removexattr n | .mknod n .. | .mkdir n .. | .link _ n | .getxattr n _
  | .create n .. => NoNul n
  | .symlink n t => NoNul n ∧ NoNul t
  | .rename n _ n' => NoNul n ∧ NoNul n'
  | .rename2 n _ n' _ => NoNul n ∧ NoNul n'
  | .setxattr n _ .. => NoNul n
  | .read _ _ size .. => size.toNat ≤ maxRead
  | .write _ _ data .. => data.length ≤ maxWrite
  | .other c _ => otherCodes c
  | _ => True

/-- Requests that are passed on whoever asks, even if only the owner may use the file-system: they go to a file
that was opened before. -/
def KReq.onOpen : KReq → Bool
  | .read .. | .write .. | .fsync .. | .release .. | .readdir .. | .fsyncdir .. | .releasedir .. => true
  | _ => false

/-- The daemon's own requests. -/
def KReq.own : KReq → Bool
  | .init .. | .destroy => true
  | _ => false

/-- May this user's request go to the file-system? -/
def Allowed (deny : Bool) (owner : Nat) (h : KHdr) (r : KReq) : Prop :=
  deny = false ∨ h.uid = 0 ∨ h.uid.toNat = owner ∨ r.onOpen = true

/-- The two places where the code takes a flag from another field than the one that carries it. -/
def KReq.Agrees : KReq → Prop
  | .release _ f rf _ => f.toNat.testBit 0 = rf.toNat.testBit 0
  | .setxattr _ _ f xf => f.toNat.testBit 0 = xf.toNat.testBit 0
  | _ => True

/-! ### What the kernel makes of an answer -/

/-- An answer as the kernel takes it (fs/fuse/dev.c, `fuse_dev_do_write`): the number of the request it belongs to,
and an error or data. -/
structure KRep where
  unique : Nat
  res : Except Nat Buf

/-- The kernel refuses an answer whose length field is not its length, whose error is not in `(-512, 0]`, or
that has data beside an error. -/
def kparse (b : Buf) : Option KRep :=
  if b.length < 16 ∨ rd 4 0 b ≠ b.length then none
  else if rd 4 4 b = 0 then some ⟨rd 8 8 b, .ok (b.drop 16)⟩
  else if rd 4 4 b ≤ 4294967296 - 512 ∨ b.length ≠ 16 then none
  else some ⟨rd 8 8 b, .error (4294967296 - rd 4 4 b)⟩

/-- A failure's number as the program sees it: internal failures are EUCLEAN, the others are an errno, given as
it is or above 1000 (include/silofs/errors.h:22-85). -/
inductive Errno : Nat → Nat → Prop
  | plain (e : Nat) (h : 0 < e) (h' : e < 512) : Errno e e
  | own (e : Nat) (h : 0 < e) (h' : e < 512) : Errno (1000 + e) e
  | internal (e : Nat) : Errno (10000 + e) 117

/-- `struct fuse_attr`, by the byte offsets of its fields. -/
def kattr (p : Buf) (gen : Nat) : St :=
  { ino := rd 8 0 p, size := rd 8 8 p, blocks := rd 8 16 p
    asec := toI64 (rd 8 24 p), msec := toI64 (rd 8 32 p), csec := toI64 (rd 8 40 p)
    ansec := rd 4 48 p, mnsec := rd 4 52 p, cnsec := rd 4 56 p
    mode := rd 4 60 p, nlink := rd 4 64 p, uid := rd 4 68 p, gid := rd 4 72 p, rdev := rd 4 76 p
    blksize := rd 4 80 p, gen := gen }

/-- Attributes whose values fit the kernel's fields. -/
structure St.Fits (s : St) : Prop where
  ino : s.ino < 2 ^ 64
  size : s.size < 2 ^ 64
  blocks : s.blocks < 2 ^ 64
  asec : IsI64 s.asec
  msec : IsI64 s.msec
  csec : IsI64 s.csec
  ansec : s.ansec < 2 ^ 32
  mnsec : s.mnsec < 2 ^ 32
  cnsec : s.cnsec < 2 ^ 32
  mode : s.mode < 2 ^ 32
  nlink : s.nlink < 2 ^ 32
  uid : s.uid < 2 ^ 32
  gid : s.gid < 2 ^ 32
  rdev : s.rdev < 2 ^ 32
  blksize : s.blksize < 2 ^ 32
  gen : s.gen < 2 ^ 64

/-- What the kernel takes from the data of an answer: `struct fuse_entry_out`, `struct fuse_attr_out`,
`struct fuse_write_out`, `struct fuse_lseek_out`, `struct fuse_statfs_out`, `struct fuse_getxattr_out`. -/
def kread (c : Call) (p : Buf) : Option Val :=
  match c with
  | .lookup .. | .symlink .. | .mknod .. | .mkdir .. | .link .. | .create .. =>
    if rd 8 0 p = 0 then none else some (.stat (kattr (p.drop 40) (rd 8 8 p)))
  | .getattr .. | .setattr .. => some (.stat (kattr (p.drop 16) 0))
  | .readlink .. | .read .. | .readdir .. => some (.bytes p)
  | .write .. | .copyRange .. => some (.count (rd 4 0 p))
  | .lseek .. => some (.offset (toI64 (rd 8 0 p)))
  | .statfs .. => some (.sfs
      { blocks := rd 8 0 p, bfree := rd 8 8 p, bavail := rd 8 16 p, files := rd 8 24 p, ffree := rd 8 32 p
        bsize := rd 4 40 p, namemax := rd 4 44 p, frsize := rd 4 48 p })
  | .getxattr _ _ size => if size = 0 then some (.count (rd 4 0 p)) else some (.bytes p)
  | .listxattr _ size => if size = 0 then some (.count (rd 4 0 p)) else some (.bytes p)
  | .open .. | .opendir .. | .unlink .. | .rmdir .. | .rename .. | .release .. | .fsync .. | .setxattr ..
  | .removexattr .. | .flush .. | .releasedir .. | .fsyncdir .. | .access .. | .fallocate .. | .syncfs .. => some .done
  | _ => none

/-- The value of a call, of the kind the call has and within the fields; the generation is told only with entries. -/
inductive Answers : Call → Val → Val → Prop
  | entry (c : Call) (s : St) (hc : c matches .lookup .. | .symlink .. | .mknod .. | .mkdir .. | .link .. | .create ..)
      (h : s.Fits) (h0 : s.ino ≠ 0) : Answers c (.stat s) (.stat s)
  | attr (c : Call) (s : St) (hc : c matches .getattr .. | .setattr ..) (h : s.Fits) :
      Answers c (.stat s) (.stat { s with gen := 0 })
  | data (c : Call) (l : List Nat) (hc : c matches .readlink .. | .read .. | .readdir ..) : Answers c (.bytes l) (.bytes l)
  | count (c : Call) (n : Nat) (hc : c matches .write .. | .copyRange ..) (h : n < 2 ^ 32) : Answers c (.count n) (.count n)
  | offset (c : Call) (o : Int) (hc : c matches .lseek ..) (h : IsI64 o) : Answers c (.offset o) (.offset o)
  | sfs (c : Call) (s : Sfs) (hc : c matches .statfs ..) (h1 : s.blocks < 2 ^ 64) (h2 : s.bfree < 2 ^ 64)
      (h3 : s.bavail < 2 ^ 64) (h4 : s.files < 2 ^ 64) (h5 : s.ffree < 2 ^ 64) (h6 : s.bsize < 2 ^ 32)
      (h7 : s.namemax < 2 ^ 32) (h8 : s.frsize < 2 ^ 32) : Answers c (.sfs s) (.sfs s)
  | xattr (i : Nat) (n l : List Nat) (size : Nat) (h : l.length < 2 ^ 32) :
      Answers (.getxattr i n size) (.bytes l) (if size = 0 then .count l.length else .bytes l)
  | xattrs (i size : Nat) (l : List Nat) (h : l.length < 2 ^ 32) :
      Answers (.listxattr i size) (.bytes l) (if size = 0 then .count l.length else .bytes l)
  | done (c : Call) (hc : c matches .open .. | .opendir .. | .unlink .. | .rmdir .. | .rename .. | .release .. | .fsync ..
      | .setxattr .. | .removexattr .. | .flush .. | .releasedir .. | .fsyncdir .. | .access .. | .fallocate ..
      | .syncfs ..) : Answers c .done .done

end Silofs.Fuse
