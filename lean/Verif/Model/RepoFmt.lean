/-!
# Making and opening a repository (C78)

`silofs init` (cmd/init.c), `repo_do_format` and `repo_do_open` (lib/repo.c), call by call.

Every system call may fail with any error or the process may be killed at it; a `pwrite` which fails or in which
the process is killed may have written any number of its bytes.  Everything is seen by the user who runs the
command: permissions are the owner's three bits, or all of them for the super user.

Simplifications.  No symbolic links; files of other kinds (pipes, devices) are one kind `other`.  What a power loss
may take back is not modelled (a killed process loses nothing it has written).  One process at a time.  The
descriptors which a failed format leaves open (they refuse a second attempt of the same process with `EALREADY`)
belong to the process: every attempt here is by a new one.
-/

namespace Silofs.Rf

/-- the owner's permission bits -/
structure Perm where
  r : Bool
  w : Bool
  x : Bool
deriving DecidableEq, Repr

/-- what a name stands for -/
inductive Obj where
  | dir (p : Perm)
  | file (p : Perm) (data : List Nat)
  | other (p : Perm)
deriving DecidableEq, Repr

/-- include/silofs/defs.h:69-93 and lib/repo.c:72-82: the names of a repository: its directory (`top`), `.silofs`
in it (`dots`), the names under `.silofs`, the directories `00` … `ff` in `objs` (`sub`), and `fsids.conf` in the
repository's directory (cmd/idsconf.c:816-819). -/
inductive Slot where
  | top | dots | blobs | pack | objs | refs | metaf | lockf | sub (i : Nat) | conf
deriving DecidableEq, Repr

/-- the host's directory: the repository's names, and how many other names are in `top` -/
structure Host where
  ent : Slot → Option Obj
  extra : Nat

def put (h : Host) (sl : Slot) (o : Option Obj) : Host := ⟨fun t => if t = sl then o else h.ent t, h.extra⟩

/-- what the host does at a call: serve it, fail it, or kill the process -/
inductive Fault where
  | go
  | fail (e : Nat)
  | kill

/-- the run: the host's answers by the number of the call, how much of an unfinished write is done, whether the
super user runs it, and the owner's bits of the umask -/
structure Env where
  fault : Nat → Fault
  part : Nat → Nat
  root : Bool
  mask : Perm

structure St where
  host : Host
  k : Nat

inductive Res where
  | ok
  | err (e : Nat)
  | dead
deriving DecidableEq, Repr

abbrev Op := Env → St → Res × St

def ENOENT : Nat := 2
def EIO : Nat := 5
def EACCES : Nat := 13
def EEXIST : Nat := 17
def ENOTDIR : Nat := 20
def EISDIR : Nat := 21
def EINVAL : Nat := 22
def SEACCES : Nat := 1013
def SENOTDIR : Nat := 1020
def SEISDIR : Nat := 1021
def SEINVAL : Nat := 1022
def SEFSCORRUPTED : Nat := 1117
def SEBADREPO : Nat := 10002

/-- one system call about one name: `chk` says why it is refused, `new` what the name stands for afterwards, `part`
what it may stand for when the call did not finish -/
def prim (sl : Slot) (chk : Env → Host → Option Nat) (new : Env → Option Obj → Option Obj)
    (part : Nat → Option Obj → Option Obj) : Op := fun e s =>
  match e.fault s.k with
  | .go =>
    match chk e s.host with
    | some x => (.err x, ⟨s.host, s.k + 1⟩)
    | none => (.ok, ⟨put s.host sl (new e (s.host.ent sl)), s.k + 1⟩)
  | .fail x => (.err x, ⟨put s.host sl (part (e.part s.k) (s.host.ent sl)), s.k + 1⟩)
  | .kill => (.dead, ⟨put s.host sl (part (e.part s.k) (s.host.ent sl)), s.k + 1⟩)

/-- a call which only looks -/
def look (sl : Slot) (chk : Env → Host → Option Nat) : Op := prim sl chk (fun _ o => o) (fun _ o => o)

/-- `err = a; if (err) return err; b` -/
def seq (a b : Op) : Op := fun e s =>
  match a e s with
  | (.ok, s') => b e s'
  | r => r

/-- `err = a; if (err && err != -x) return err;` -/
def allow (x : Nat) (a : Op) : Op := fun e s =>
  match a e s with
  | (.err y, s') => if y = x then (.ok, s') else (.err y, s')
  | r => r

/-- `err = a; if (!err) b else c` -/
def ifOk (a b c : Op) : Op := fun e s =>
  match a e s with
  | (.ok, s') => b e s'
  | (.err _, s') => c e s'
  | r => r

/-- `err = a; if (err == -x) c else if (err) return err` -/
def onErr (x : Nat) (a c : Op) : Op := fun e s =>
  match a e s with
  | (.err y, s') => if y = x then c e s' else (.err y, s')
  | r => r

/-- lib/sys/syscallx.c:235-247 `silofs_sys_closefd` -/
def close : Op := look .top (fun _ _ => none)

/-- `a; out: do_closefd(&fd); return err;`: what `close` says is not looked at -/
def closing (a : Op) : Op := fun e s =>
  match a e s with
  | (.dead, s') => (.dead, s')
  | (r, s') =>
    match close e s' with
    | (.dead, s'') => (.dead, s'')
    | (_, s'') => (r, s'')

/-- where a name is -/
def parent : Slot → Option Slot
  | .top => none
  | .dots => some .top
  | .conf => some .top
  | .sub _ => some .objs
  | _ => some .dots

/-- the host's search of the name's directory -/
def under (e : Env) (h : Host) (sl : Slot) : Option Nat :=
  match parent sl with
  | none => none
  | some q =>
    match h.ent q with
    | some (.dir p) => if e.root || p.x then none else some EACCES
    | some _ => some ENOTDIR
    | none => some ENOENT

/-- the host's check that names may be made and removed in the name's directory -/
def mayEdit (e : Env) (h : Host) (sl : Slot) : Bool :=
  match parent sl with
  | none => true
  | some q =>
    match h.ent q with
    | some (.dir p) => e.root || p.w
    | _ => false

/-- the bits of a new directory (0700) -/
def freshDir (e : Env) : Perm := ⟨!e.mask.r, !e.mask.w, !e.mask.x⟩
/-- the bits of a new file (0600) -/
def freshFile (e : Env) : Perm := ⟨!e.mask.r, !e.mask.w, false⟩

def mkdir (sl : Slot) : Op :=
  prim sl
    (fun e h =>
      match under e h sl with
      | some x => some x
      | none => if (h.ent sl).isSome then some EEXIST else if mayEdit e h sl then none else some EACCES)
    (fun e _ => some (.dir (freshDir e)))
    (fun _ o => o)

/-- `fstatat` and what is asked of its answer -/
def stat (sl : Slot) (q : Obj → Option Nat) : Op :=
  look sl (fun e h =>
    match under e h sl with
    | some x => some x
    | none => match h.ent sl with | none => some ENOENT | some o => q o)

/-- what is asked of an answer of `fstatat` later; no call -/
def test (sl : Slot) (q : Obj → Option Nat) : Op := fun _ s =>
  match s.host.ent sl with
  | none => (.err ENOENT, s)
  | some o => match q o with | none => (.ok, s) | some x => (.err x, s)

/-- `openat(O_DIRECTORY | O_RDONLY)` -/
def openDir (sl : Slot) : Op :=
  look sl (fun e h =>
    match under e h sl with
    | some x => some x
    | none =>
      match h.ent sl with
      | none => some ENOENT
      | some (.dir p) => if e.root || p.r then none else some EACCES
      | some _ => some ENOTDIR)

/-- `access` of a directory -/
def accessDir (sl : Slot) (need : Perm) : Op :=
  look sl (fun e h =>
    match under e h sl with
    | some x => some x
    | none =>
      match h.ent sl with
      | none => some ENOENT
      | some (.dir p) | some (.file p _) | some (.other p) =>
        if e.root || ((!need.r || p.r) && (!need.w || p.w) && (!need.x || p.x)) then none else some EACCES)

def unlink (sl : Slot) : Op :=
  prim sl
    (fun e h =>
      match under e h sl with
      | some x => some x
      | none =>
        match h.ent sl with
        | none => some ENOENT
        | some (.dir _) => some EISDIR
        | some _ => if mayEdit e h sl then none else some EACCES)
    (fun _ _ => none)
    (fun _ o => o)

/-- the check of `openat(O_RDWR)` and, with `creat`, of `openat(O_CREAT | O_RDWR)` -/
def rwChk (creat : Bool) (sl : Slot) (e : Env) (h : Host) : Option Nat :=
  match under e h sl with
  | some x => some x
  | none =>
    match h.ent sl with
    | none => if creat then (if mayEdit e h sl then none else some EACCES) else some ENOENT
    | some (.dir _) => some EISDIR
    | some (.file p _) | some (.other p) => if e.root || (p.r && p.w) then none else some EACCES

/-- `openat(O_CREAT | O_RDWR, 0600)` -/
def openCreat (sl : Slot) : Op :=
  prim sl (rwChk true sl)
    (fun e o => match o with | none => some (.file (freshFile e) []) | some o => some o)
    (fun _ o => o)

/-- `open(O_CREAT | O_RDWR | O_TRUNC, 0640)` -/
def openTrunc (sl : Slot) : Op :=
  prim sl (rwChk true sl)
    (fun e o => match o with
      | none => some (.file (freshFile e) []) | some (.file p _) => some (.file p []) | some o => some o)
    (fun _ o => o)

/-- `openat(O_RDWR)` -/
def openRw (sl : Slot) : Op := look sl (rwChk false sl)

/-- `openat(O_RDONLY)` -/
def openRd (sl : Slot) : Op :=
  look sl (fun e h =>
    match under e h sl with
    | some x => some x
    | none =>
      match h.ent sl with
      | none => some ENOENT
      | some (.dir p) | some (.file p _) | some (.other p) => if e.root || p.r then none else some EACCES)

def isFile (sl : Slot) (h : Host) : Bool := match h.ent sl with | some (.file _ _) => true | _ => false

/-- what `f` makes of a file's bytes -/
def onData (f : List Nat → List Nat) : Option Obj → Option Obj
  | some (.file p d) => some (.file p (f d))
  | o => o

def truncTo (n : Nat) (d : List Nat) : List Nat := d.take n ++ List.replicate (n - d.length) 0

/-- `ftruncate` of the file opened before -/
def ftruncate (sl : Slot) (n : Nat) : Op :=
  prim sl (fun _ h => if isFile sl h then none else some EINVAL) (fun _ => onData (truncTo n)) (fun _ o => o)

def overwrite (b d : List Nat) : List Nat := b ++ d.drop b.length

/-- lib/sys/syscallx.c:125-147 `silofs_sys_pwriten` at offset 0 -/
def pwriten (sl : Slot) (b : List Nat) : Op :=
  prim sl (fun _ h => if isFile sl h then none else some EINVAL) (fun _ => onData (overwrite b))
    (fun n => onData (overwrite (b.take n)))

def fdatasync (sl : Slot) : Op := look sl (fun _ _ => none)

/-- `fchmod` of the file opened before -/
def fchmod (sl : Slot) (p : Perm) : Op :=
  prim sl (fun _ _ => none) (fun _ o => match o with | some (.file _ d) => some (.file p d) | o => o) (fun _ o => o)

/-- lib/sys/syscallx.c:79-101 `silofs_sys_preadn` of `n` bytes at offset 0 (a short file: `EIO`,
lib/sys/syscallx.c:46-55), and what is asked of the bytes -/
def preadn (sl : Slot) (n : Nat) (q : List Nat → Option Nat) : Op :=
  look sl (fun _ h =>
    match h.ent sl with
    | some (.file _ d) => if d.length < n then some EIO else q (d.take n)
    | some (.dir _) => some EISDIR
    | _ => some EIO)

/-- include/silofs/defs.h:69 `SILOFS_REPO_METAFILE_SIZE` -/
def metaSize : Nat := 1024
/-- include/silofs/defs.h:93 `SILOFS_REPO_OBJS_NSUBS` -/
def nsubs : Nat := 256

/-- include/silofs/defs.h:33 `SILOFS_REPO_META_MAGIC`, as stored -/
def magic : List Nat := [0x23, 0x53, 0x49, 0x4C, 0x4F, 0x46, 0x53, 0x23]
/-- include/silofs/defs.h:27 `SILOFS_REPO_VERSION`, as stored -/
def version : List Nat := [1, 0, 0, 0]
/-- "SILOFS_LOCK" -/
def lockText : List Nat := [83, 73, 76, 79, 70, 83, 95, 76, 79, 67, 75]

/-- lib/repo.c:116-122 `rmeta_init` -/
def metaData : List Nat := magic ++ version ++ [1, 0, 0, 0] ++ List.replicate (metaSize - 16) 0
/-- lib/repo.c:2202 the bytes of the lock file -/
def lockData : List Nat := lockText ++ [10] ++ List.replicate (metaSize - 12) 0

/-- lib/repo.c:124-140 `rmeta_check` -/
def metaChk (d : List Nat) : Option Nat :=
  if d.take 8 ≠ magic then some SEFSCORRUPTED
  else if (d.drop 8).take 4 ≠ version then some SEFSCORRUPTED else none

/-- lib/repo.c:2264 -/
def lockChk (d : List Nat) : Option Nat := if d.take 11 = lockText then none else some SEBADREPO

def objPerm : Obj → Perm
  | .dir p => p
  | .file p _ => p
  | .other p => p

/-- lib/repo.c:1960-1981 `repo_create_skel_subdir`: asks for the owner's bits, not for a directory -/
def skelDir (sl : Slot) : Op :=
  seq (allow EEXIST (mkdir sl))
    (stat sl (fun o => if (objPerm o).r && (objPerm o).w && (objPerm o).x then none else some SEACCES))

/-- lib/repo.c:1983-2007 `repo_create_skel_subfile` -/
def skelFile (sl : Slot) (n : Nat) : Op :=
  seq (allow ENOENT (unlink sl)) (seq (openCreat sl) (seq (ftruncate sl n) close))

/-- lib/repo.c:2009-2052 `repo_create_skel` -/
def createSkel : Op :=
  seq (skelDir .blobs) (seq (skelDir .pack) (seq (skelDir .objs) (seq (skelDir .refs)
    (seq (skelFile .metaf metaSize) (skelFile .lockf metaSize)))))

/-- `S_ISDIR` -/
def wantDir : Obj → Option Nat
  | .dir _ => none
  | _ => some SENOTDIR

/-- lib/repo.c:1588-1613 `repo_objs_format_sub`: whatever error `fstatat` gave, the directory is made -/
def formatSub (i : Nat) : Op :=
  ifOk (stat (.sub i) (fun _ => none))
    (seq (test (.sub i) wantDir) (accessDir (.sub i) ⟨true, false, true⟩))
    (mkdir (.sub i))

/-- lib/repo.c:1615-1626 `repo_objs_format`: the first `n` sub-directories -/
def formatSubs : Nat → Op
  | 0 => fun _ s => (.ok, s)
  | n + 1 => seq (formatSubs n) (formatSub n)

/-- lib/repo.c:2171-2198 `repo_format_meta` -/
def formatMeta : Op :=
  seq (openRw .metaf)
    (closing (seq (pwriten .metaf metaData) (seq (fdatasync .metaf) (fchmod .metaf ⟨true, false, false⟩))))

/-- lib/repo.c:2200-2222 `repo_format_lock` -/
def formatLock : Op :=
  seq (openRw .lockf) (closing (seq (pwriten .lockf lockData) (fdatasync .lockf)))

/-- lib/repo.c:2281-2318 `repo_do_format` (2138-2150, 2152-2162, 2164-2169, 2270-2279 its first and middle steps) -/
def format : Op :=
  seq (openDir .top) (seq (allow EEXIST (mkdir .dots)) (seq (openDir .dots) (seq createSkel
    (seq (openDir .objs) (seq (formatSubs nsubs) (seq formatMeta formatLock))))))

/-- lib/repo.c:2072-2091 `repo_require_skel_subfile` -/
def wantFile (n : Nat) : Obj → Option Nat
  | .file _ d => if d.length < n then some SEBADREPO else none
  | .dir _ => some SEISDIR
  | .other _ => some SEINVAL

/-- lib/repo.c:2093-2136 `repo_require_skel` (2054-2070 `repo_require_skel_subdir`) -/
def requireSkel : Op :=
  seq (accessDir .top ⟨true, true, true⟩) (seq (stat .metaf (wantFile metaSize)) (seq (stat .refs wantDir)
    (seq (stat .objs wantDir) (seq (stat .blobs wantDir) (stat .pack wantDir)))))

/-- lib/repo.c:2224-2247 `repo_require_meta` -/
def requireMeta : Op := seq (openRd .metaf) (closing (preadn .metaf metaSize metaChk))

/-- lib/repo.c:2249-2268 `repo_require_lock` -/
def requireLock : Op := seq (openRd .lockf) (closing (preadn .lockf metaSize lockChk))

/-- lib/repo.c:2330-2359 `repo_do_open` -/
def openRepo : Op :=
  seq (openDir .top) (seq (openDir .dots) (seq requireSkel (seq requireMeta (seq requireLock (openDir .objs)))))

/-- cmd/cmdutils.c:101-115 `cmd_check_isdir` with `w_ok` -/
def checkIsDir : Op :=
  seq (stat .top (fun o => match o with | .dir _ => none | _ => some ENOTDIR)) (accessDir .top ⟨true, true, true⟩)

/-- names in the repository's directory, `.` and `..` among them -/
def ndes (h : Host) : Nat :=
  2 + (if (h.ent .dots).isSome then 1 else 0) + (if (h.ent .conf).isSome then 1 else 0) + h.extra

/-- cmd/cmdutils.c:295-320 `cmd_check_emptydir`: `getdents` gives three names when there are three; their number is
looked at after `close` -/
def checkEmptyDir : Op :=
  seq checkIsDir (seq (openDir .top) (seq (look .top (fun _ _ => none))
    (look .top (fun _ h => if ndes h > 2 then some 0 else none))))

/-- cmd/cmdutils.c:650-662 `cmd_realpath_dir` -/
def realpathDir : Op := seq (stat .top (fun _ => none)) checkIsDir

/-- cmd/init.c:112-131 `cmd_init_prepare_repodir`, `cmd_init_prepare` -/
def initPrepare : Op :=
  seq (onErr ENOENT (stat .top (fun _ => none)) (mkdir .top)) (seq realpathDir checkEmptyDir)

/-- cmd/init.c:133-169: the owner's name, ids and the environment, which may fail -/
def initSetup : Op := look .top (fun _ _ => none)

/-- cmd/idsconf.c:559-576 `cmd_save_idsconf_file` -/
def saveConf (txt : List Nat) : Op := seq (openTrunc .conf) (closing (pwriten .conf txt))

/-- cmd/init.c:188-224 `cmd_execute_init`; every failure is `cmd_die` -/
def init (txt : List Nat) : Op :=
  seq initPrepare (seq initSetup (seq format (seq close (saveConf txt))))

end Silofs.Rf
