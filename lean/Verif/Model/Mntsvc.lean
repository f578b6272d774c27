import Verif.Model.Bytes
/-
The privileged mount service (lib/mntsvc.c): an unprivileged client sends one
message over a unix socket; the service, running as root, decides by the peer's
kernel-given credentials and the administrator's rules whether to mount or
unmount.

The file-system is outside of the service and may change between any two system
calls, so it is a function of time (`Nat → World`) and every check names the
time of its call.  Logging and the retries of interrupted socket calls are left
out.  Errors are positive numbers: errno values as they come from system calls,
1000 + errno or 10000 + n for the codes of include/silofs/errors.h.
-/
namespace Silofs.Mnt

abbrev Path := List Nat

/-- The fields of `struct stat` that the service looks at. -/
structure Stat where
  ino : Nat
  dev : Nat
  mode : Nat
  nlink : Nat
  uid : Nat
  deriving Repr, DecidableEq

/-- What is attached at a path: type of the file-system and the user on whose
behalf it was mounted. -/
structure Top where
  fstype : Nat
  owner : Nat
  deriving Repr, DecidableEq

/-- Answers of stat(2), canonicalize_file_name(3), statfs(2) at one moment, and
what umount2(2) of a path would detach. -/
structure World where
  stat : Path → Except Nat Stat
  canon : Path → Except Nat Path
  fstype : Path → Except Nat Nat
  top : Path → Option Top

/-- include/silofs/mntsvc.h:34-38 `struct silofs_mntrule`. -/
structure Rule where
  path : Path
  uid : Nat
  recursive : Bool
  deriving Repr, DecidableEq

/-- `(uid_t)(-1)`. -/
def uidNone : Nat := 4294967295

/-- lib/mntsvc.c:60-69 `struct silofs_mntparams`. -/
structure Params where
  path : Option Path
  flags : Nat
  userId : Nat
  groupId : Nat
  rootMode : Nat
  maxRead : Nat
  allowOther : Bool
  checkOnly : Bool
  deriving Repr, DecidableEq

/-- Peer credentials (getsockopt SO_PEERCRED) and the configuration. -/
structure Svc where
  peerUid : Nat
  peerGid : Nat
  pageSize : Nat
  rules : Option (List Rule)

/-- lib/mntsvc.c:129-143 `fsinfo_allowed`: magic, allowed, isfuse. -/
def fsinfoAllowed : List (Nat × Bool × Bool) :=
  [(0x65735546, false, true), (0x01021994, false, false), (0x58465342, true, false),
   (0x0000EF53, true, false), (0x2FC12FC1, true, false), (0x9123683E, true, false),
   (0x00C36400, true, false), (0xFF534D42, true, false), (0x0000F15F, false, false),
   (0xF2F52010, true, false), (0x00006969, true, false), (0x5346544E, true, false),
   (0x794C7630, false, false)]

/-- lib/mntsvc.c:159-171 `check_mntdir_fstype`. -/
def checkMntdirFstype (t : Nat) : Except Nat Unit :=
  match fsinfoAllowed.find? (fun i => i.1 == t) with
  | none => .error 1022
  | some (_, allowed, isfuse) => if isfuse || !allowed then .error 10007 else .ok ()

/-- `S_ISDIR`. -/
def isDir (mode : Nat) : Bool := mode &&& 0xF000 == 0x4000

/-- lib/mntsvc.c:189-231 `check_mntpoint` (with 173-187 `check_mntpoint_fstype`);
stat at time `t`, statfs at `t + 1`. -/
def checkMntpoint (w : Nat → World) (t : Nat) (path : Path) (uid : Nat) (mounting : Bool) :
    Except Nat Unit :=
  match (w t).stat path with
  | .error e => if e = 13 ∧ mounting = false then .ok () else .error e
  | .ok st =>
    if isDir st.mode = false then .error 1020
    else if mounting = true then
      if 2 < st.nlink then .error 1039
      else if st.ino = 1 then .error 1016
      else if uid ≠ st.uid then .error 10007
      else match (w (t + 1)).fstype path with
        | .error e => .error e
        | .ok ty => checkMntdirFstype ty
    else if st.ino ≠ 1 then .error 1022
    else .ok ()

/-- lib/str/strview.c:627-634 `silofs_strview_trim_chr` with '/'. -/
def trimSlash (p : Path) : Path := p.dropWhile (· == 47)

/-- lib/mntsvc.c:250-263 `equal_mntpath`. -/
def equalMntpath (p q : Path) : Bool :=
  !(trimSlash p).isEmpty && trimSlash p == trimSlash q

/-- lib/mntsvc.c:265-284 `equal_path_by_stat`. -/
def equalPathByStat (w : World) (p : Path) (st2 : Stat) : Bool :=
  match w.stat p with
  | .error _ => false
  | .ok st1 => st1.ino == st2.ino && st1.dev == st2.dev && st1.mode == st2.mode

/-- lib/mntsvc.c:286-304 `check_canonical_path`. -/
def checkCanonicalPath (w : World) (p : Path) : Except Nat Unit :=
  if p = [] then .error 1022
  else match w.canon p with
    | .error e => .error e
    | .ok c => if p = c then .ok () else .error 1022

/-- lib/mntsvc.c:306-319 `check_mount_path`. -/
def checkMountPath (w : Nat → World) (t : Nat) (p : Path) (uid : Nat) : Except Nat Unit :=
  match checkCanonicalPath (w t) p with
  | .error e => .error e
  | .ok _ => checkMntpoint w (t + 1) p uid true

/-- lib/mntsvc.c:321-337 `check_umount_path`; 107 is ENOTCONN. -/
def checkUmountPath (w : Nat → World) (t : Nat) (p : Path) (uid : Nat) (force : Bool) :
    Except Nat Unit :=
  match checkMntpoint w t p uid false with
  | .error e => if e ≠ 107 then .error e else if force = false then .error e else .ok ()
  | .ok _ => .ok ()

/-- lib/mntsvc.c:817-823, the loop of `mntsvc_check_mount_mntrule`: the first
rule whose path is the same directory; rule `i` is looked at at time `t + i`. -/
def matchMount (w : Nat → World) (st : Stat) : Nat → List Rule → Option Rule
  | _, [] => none
  | t, r :: l => if equalPathByStat (w t) r.path st then some r else matchMount w st (t + 1) l

/-- lib/mntsvc.c:795-840 `mntsvc_check_mount_mntrule`. -/
def checkMountRule (s : Svc) (w : Nat → World) (t : Nat) (p : Path) : Except Nat Unit :=
  match s.rules with
  | none => .error 10007
  | some rs => match (w t).stat p with
    | .error e => .error e
    | .ok st => match matchMount w st (t + 1) rs with
      | none => .error 10007
      | some r => if r.uid ≠ uidNone ∧ r.uid ≠ s.peerUid then .error 10007 else .ok ()

/-- lib/mntsvc.c:842-872 `mntsvc_check_umount_mntrule`. -/
def checkUmountRule (s : Svc) (p : Path) : Except Nat Unit :=
  match s.rules with
  | none => .ok ()
  | some [] => .ok ()
  | some (r :: l) => match (r :: l).find? (fun x => equalMntpath x.path p) with
    | none => .error 10008
    | some x => if x.uid ≠ uidNone ∧ x.uid ≠ s.peerUid then .error 10008 else .ok ()

/-- lib/mntsvc.c:878-879: complement of MS_LAZYTIME, MS_NOEXEC, MS_NOSUID,
MS_NODEV, MS_RDONLY within 64 bits. -/
def unsupMask : Nat := 0xFFFFFFFFFFFFFFFF ^^^ 0x200000F

/-- lib/mntsvc.c:874-913 `mntsvc_check_mount`: rules from time `t`, the path
after them. -/
def checkMount (s : Svc) (w : Nat → World) (t : Nat) (m : Params) : Except Nat Unit :=
  if m.flags &&& unsupMask ≠ 0 then .error 1095
  else if m.rootMode &&& 0x1C0 = 0 then .error 1095
  else if m.rootMode &&& 0x4000 = 0 then .error 1022
  else if m.userId ≠ s.peerUid ∨ m.groupId ≠ s.peerGid then .error 1013
  else if m.maxRead < 2 * s.pageSize then .error 1022
  else if 512 * s.pageSize < m.maxRead then .error 1022
  else match m.path with
    | none => .error 1022
    | some p => match checkMountRule s w t p with
      | .error e => .error e
      | .ok _ => checkMountPath w (t + 1 + (s.rules.getD []).length) p s.peerUid

/-- `%d` of an unsigned 32-bit value. -/
def asInt (x : Nat) : Int := if x < 2147483648 then x else (x : Int) - 4294967296

/-- lib/mntsvc.c:373-392 `format_mount_data`: the options handed to mount(2),
field by field ("default_permissions" is always there). -/
structure MountData where
  maxRead : Int
  fd : Nat
  rootMode : Nat
  userId : Int
  groupId : Int
  allowOther : Bool
  deriving Repr, DecidableEq

/-- System calls that change the mounts. -/
inductive Sys
  | mount (p : Path) (flags : Nat) (d : MountData)
  | umount (p : Path) (flags : Nat)
  deriving Repr, DecidableEq

/-- Failures of the system calls: opening /dev/fuse (otherwise the descriptor),
mount(2), umount2(2). -/
structure Env where
  dev : Except Nat Nat
  mountErr : Option Nat
  umountErr : Option Nat

/-- Outcome of a request: the changing system call made, if any, with its
time, the status, and the descriptor that the service holds afterwards. -/
structure Out where
  sys : Option (Nat × Sys)
  status : Nat
  fd : Option Nat
  deriving Repr, DecidableEq

def mountData (m : Params) (fd : Nat) : MountData :=
  ⟨asInt m.maxRead, fd, m.rootMode, asInt m.userId, asInt m.groupId, m.allowOther⟩

/-- lib/mntsvc.c:400-423 `do_mount_fuse_fs`, 915-928 `mntsvc_do_mount`; the
formatted data always fit their 256 bytes. -/
def doMount (e : Env) (t : Nat) (m : Params) (p : Path) : Out :=
  match e.dev with
  | .error x => ⟨none, x, none⟩
  | .ok fd => match e.mountErr with
    | some x => ⟨some (t, .mount p m.flags (mountData m fd)), x, none⟩
    | none => ⟨some (t, .mount p m.flags (mountData m fd)), 0, some fd⟩

/-- lib/mntsvc.c:930-947 `mntsvc_exec_mount`. -/
def execMount (s : Svc) (e : Env) (w : Nat → World) (t : Nat) (m : Params) : Out :=
  match checkMount s w t m with
  | .error x => ⟨none, x, none⟩
  | .ok _ =>
    if m.checkOnly then ⟨none, 0, none⟩
    else match m.path with
      | none => ⟨none, 0, none⟩
      | some p => doMount e (t + 4 + (s.rules.getD []).length) m p

/-- lib/mntsvc.c:949-977 `mntsvc_check_umount`; 3 is MNT_FORCE|MNT_DETACH. -/
def checkUmount (s : Svc) (w : Nat → World) (t : Nat) (m : Params) : Except Nat Unit :=
  match m.path with
  | none => .error 1001
  | some p =>
    if p = [] then .error 1001
    else if m.flags &&& (0xFFFFFFFFFFFFFFFF ^^^ 3) ≠ 0 then .error 1022
    else if m.flags ||| 3 ≠ 3 then .error 1022
    else match checkUmountPath w t p s.peerUid (m.flags &&& 1 ≠ 0) with
      | .error x => .error x
      | .ok _ => checkUmountRule s p

/-- lib/mntsvc.c:425-428 `do_umount_fuse_fs`, 979-990 `mntsvc_do_umount`. -/
def doUmount (e : Env) (t : Nat) (m : Params) (p : Path) : Out :=
  ⟨some (t, .umount p (m.flags % 4294967296)), e.umountErr.getD 0, none⟩

/-- lib/mntsvc.c:992-1006 `mntsvc_exec_umount`: a check that ends with
ENOTCONN does not stop it. -/
def execUmount (s : Svc) (e : Env) (w : Nat → World) (t : Nat) (m : Params) : Out :=
  match checkUmount s w t m with
  | .error x => if x ≠ 107 then ⟨none, x, none⟩ else
    match m.path with
    | none => ⟨none, x, none⟩
    | some p => doUmount e (t + 1) m p
  | .ok _ => match m.path with
    | none => ⟨none, 0, none⟩
    | some p => doUmount e (t + 1) m p

/-- lib/mntsvc.c:1018-1044 `mntsvc_exec_request`: commands 1 handshake,
2 mount, 3 umount. -/
def execRequest (s : Svc) (e : Env) (w : Nat → World) (t : Nat) (cmd : Nat) (m : Params) : Out :=
  if cmd = 1 then ⟨none, 0, none⟩
  else if cmd = 2 then execMount s e w t m
  else if cmd = 3 then execUmount s e w t m
  else ⟨none, 1095, none⟩

/-! ### The message -/

def metaMagic : Nat := 0x6F6C6973

/-- Version of the service (VERSION: 0.3). -/
structure Ver where
  major : Nat
  minor : Nat

/-- lib/mntsvc.c:36-50 `struct silofs_mntmsg`: 2048 bytes, little endian. -/
def encMsg (v : Ver) (cmd status flags uid gid mode maxRead : Nat) (allow checkonly : Bool)
    (path : Path) : List Nat :=
  leBytes 4 metaMagic ++ leBytes 2 v.major ++ leBytes 2 v.minor ++ leBytes 4 cmd ++
  leBytes 4 status ++ leBytes 8 flags ++ leBytes 4 uid ++ leBytes 4 gid ++ leBytes 4 mode ++
  leBytes 4 maxRead ++ [if allow then 1 else 0] ++ [if checkonly then 1 else 0] ++
  List.replicate 86 0 ++ (path ++ List.replicate (1920 - path.length) 0)

/-- lib/mntsvc.c:442-457 `mntmsg_init`, `mntmsg_reset`. -/
def resetMsg (v : Ver) (cmd : Nat) : List Nat := encMsg v cmd 0 0 0 0 0 0 false false []

/-- lib/mntsvc.c:468-511 `mntmsg_set_path`, `mntmsg_from_params`,
`mntmsg_setup`: the client's message, `none` where it fails with EINVAL. -/
def clientMsg (v : Ver) (cmd : Nat) (m : Params) : Option (List Nat) :=
  match m.path with
  | none => some (encMsg v cmd 0 m.flags m.userId m.groupId m.rootMode m.maxRead
      m.allowOther m.checkOnly [])
  | some p => if p.length = 0 ∨ 1920 ≤ p.length then none
    else some (encMsg v cmd 0 m.flags m.userId m.groupId m.rootMode m.maxRead
      m.allowOther m.checkOnly p)

/-- A little-endian field of `n` bytes at offset `o`. -/
def fld (b : List Nat) (o n : Nat) : Nat := leVal ((b.drop o).take n)

/-- lib/mntsvc.c:459-466 `mntmsg_path`. -/
def msgPath (b : List Nat) : Option Path :=
  let p := ((b.drop 128).take 1920).takeWhile (· ≠ 0)
  if p.length ≠ 0 ∧ p.length < 1920 then some p else none

/-- lib/mntsvc.c:479-490 `mntmsg_to_params`. -/
def toParams (b : List Nat) : Params :=
  ⟨msgPath b, fld b 16 8, fld b 24 4, fld b 28 4, fld b 32 4, fld b 36 4,
   decide (0 < fld b 40 1), decide (0 < fld b 41 1)⟩

/-- lib/mntsvc.c:536-557 `mntmsg_check`. -/
def checkMsg (v : Ver) (b : List Nat) : Except Nat Unit :=
  if fld b 0 4 ≠ metaMagic then .error 1022
  else if fld b 4 2 ≠ v.major then .error 1071
  else if v.minor < fld b 6 2 then .error 1071
  else if fld b 8 4 = 1 ∨ fld b 8 4 = 2 ∨ fld b 8 4 = 3 then .ok ()
  else .error 1022

/-- lib/mntsvc.c:621-640 `do_recvmsg`, 779-793 `mntsvc_recv_request`: at most
2048 bytes are taken; a message is refused only if it is shorter than `struct
msghdr` (56 bytes); what did not arrive stays as in the reset message. -/
def recvRequest (v : Ver) (rx : List Nat) : Except Nat (List Nat) :=
  if (rx.take 2048).length < 56 then .error 1070
  else
    match checkMsg v (rx.take 2048 ++ (resetMsg v 0).drop (rx.take 2048).length) with
    | .error e => .error e
    | .ok _ => .ok (rx.take 2048 ++ (resetMsg v 0).drop (rx.take 2048).length)

/-- lib/mntsvc.c:1046-1072 `mntsvc_fill_response`, `mntsvc_send_response`: the
message and the descriptor sent (only if positive). -/
structure Resp where
  msg : List Nat
  fd : Option Nat
  deriving Repr, DecidableEq

def response (v : Ver) (cmd : Nat) (o : Out) : Resp :=
  ⟨encMsg v cmd o.status 0 0 0 0 0 false false [],
   match o.fd with
   | some f => if 0 < f then some f else none
   | none => none⟩

/-- lib/mntsvc.c:1074-1088 `mntsvc_serve_request`: no response to a message
that is refused at reception. -/
def serve (v : Ver) (s : Svc) (e : Env) (w : Nat → World) (t : Nat) (rx : List Nat) :
    Option (Nat × Sys) × Option Resp :=
  match recvRequest v rx with
  | .error _ => (none, none)
  | .ok b =>
    ((execRequest s e w t (fld b 8 4) (toParams b)).sys,
     some (response v (fld b 8 4) (execRequest s e w t (fld b 8 4) (toParams b))))

/-- lib/mntsvc.c:1570-1596 `silofs_mntrpc_mount` with 1491-1519 `mntclnt_mount`:
what the client returns for a response: status (negated error) and descriptor.
The response must pass `mntmsg_check`. -/
def clientMount (v : Ver) (checkOnly : Bool) (r : Resp) : Nat × Option Nat :=
  match checkMsg v r.msg with
  | .error e => (e, none)
  | .ok _ =>
    if fld r.msg 12 4 ≠ 0 ∨ checkOnly then (fld r.msg 12 4, none) else (0, r.fd)

end Silofs.Mnt
