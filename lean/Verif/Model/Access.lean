/-
Permission decisions of lib/namei.c: `do_access` (282-338), `check_sticky`
(156-173), `o_flags_to_rwx` (783-802), `check_open_flags` (804-820).

Simplifications: the file-type bits of `i_mode` are a separate field `kind`;
`perm` holds the remaining mode bits (07777).  `host` is the uid of
`creds->host_cred`; capabilities are "host uid is 0" as in inode.c:34-38.
-/
namespace Silofs.Ns

/-- File types, the `S_IFMT` part of `i_mode`. -/
inductive Kind where
  | dir | reg | lnk | fifo | sock | chr | blk
  deriving Repr, DecidableEq

/-- Owner and mode of an inode (include/silofs/defs.h, `i_uid`, `i_gid`, `i_mode`). -/
structure Attr where
  kind : Kind
  perm : Nat
  uid : Nat
  gid : Nat
  deriving Repr, DecidableEq

/-- Credentials of a task (`struct silofs_creds`). -/
structure Cred where
  uid : Nat
  gid : Nat
  umask : Nat := 0
  host : Nat
  deriving Repr, DecidableEq

/-- Linux errno values used by namei.c. -/
inductive Err where
  | eacces | eperm | enoent | eexist | enotdir | eisdir | enotempty | ebusy
  | einval | emlink | emfile | ebadf | enametoolong | eopnotsupp | erofs
  | eio | enospc
  deriving Repr, DecidableEq

/-- `i_mode & bit`, as a truth value. -/
def hasBit (perm bit : Nat) : Bool := (perm &&& bit) != 0

/-- R_OK, W_OK, X_OK of unistd.h. -/
def R_OK : Nat := 4
def W_OK : Nat := 2
def X_OK : Nat := 1

/-- The `rwx` accumulated by one branch of `do_access`. -/
def rwxOf (r w x : Bool) : Nat :=
  ((0 ||| if r then R_OK else 0) ||| if w then W_OK else 0) ||| if x then X_OK else 0

/-- namei.c:282-338 `do_access`, up to the final comparison. -/
def doAccessRwx (cr : Cred) (a : Attr) : Nat :=
  if cr.uid = 0 then
    if a.kind = .reg then
      rwxOf true true (hasBit a.perm (0o100 ||| 0o10 ||| 0o1))
    else rwxOf true true true
  else if cr.uid = a.uid then
    rwxOf (hasBit a.perm 0o400) (hasBit a.perm 0o200) (hasBit a.perm 0o100)
  else if cr.gid = a.gid then
    rwxOf (hasBit a.perm 0o40) (hasBit a.perm 0o20) (hasBit a.perm 0o10)
  else
    rwxOf (hasBit a.perm 0o4) (hasBit a.perm 0o2) (hasBit a.perm 0o1)

/-- namei.c:338: `((rwx & mask) == mask) ? 0 : -EACCES`. -/
def doAccess (cr : Cred) (a : Attr) (mask : Nat) : Bool :=
  (doAccessRwx cr a &&& mask) == mask

/-- namei.c:78-84 `isowner`. -/
def isOwner (cr : Cred) (a : Attr) : Bool := cr.uid == a.uid

/-- namei.c:86-91 and inode.c:34-38. -/
def hasCapFowner (cr : Cred) : Bool := cr.host == 0

/-- namei.c:149-154. -/
def hasSticky (a : Attr) : Bool := (a.perm &&& 0o1000) == 0o1000

/-- namei.c:156-173 `check_sticky`; `child = none` is the NULL case. -/
def checkSticky (cr : Cred) (dir : Attr) (child : Option Attr) : Bool :=
  if !hasSticky dir then true
  else if isOwner cr dir then true
  else if (match child with | some c => isOwner cr c | none => false) then true
  else if hasCapFowner cr then true
  else false

/-- The bits of `o_flags` looked at by open. O_WRONLY=1, O_RDWR=2 are separate bits. -/
structure OFlags where
  wronly : Bool := false
  rdwr : Bool := false
  trunc : Bool := false
  append : Bool := false
  creat : Bool := false
  excl : Bool := false
  directory : Bool := false
  direct : Bool := false
  deriving Repr, DecidableEq

/-- namei.c:783-802 `o_flags_to_rwx` (O_RDONLY is 0, so its test always succeeds). -/
def oflagsToRwx (f : OFlags) : Nat :=
  let mask := if f.rdwr then R_OK ||| W_OK else if f.wronly then W_OK else R_OK
  let mask := if f.trunc then mask ||| W_OK else mask
  if f.append then mask ||| W_OK else mask

/-- namei.c:802-818 `check_open_flags`. -/
def checkOpenFlags (a : Attr) (f : OFlags) : Option Err :=
  if a.kind ≠ .dir ∧ f.directory then some .eisdir
  else if f.creat ∨ f.excl then some .eexist
  else if a.kind = .reg ∧ f.trunc ∧ ¬ (f.wronly ∨ f.rdwr) then some .eacces
  else if a.kind = .dir ∧ f.direct then some .eopnotsupp
  else none

end Silofs.Ns
