import Verif.Model.Cmdval
import Verif.Model.Passwd
/-
The command line of "mount": cmd/optargs.c, cmd/mount.c, and the switches of the file-system they set:
lib/fsenv.c.  getopt_long(3) is that of glibc without POSIXLY_CORRECT in the environment: options and
other arguments may be mixed.  Texts are lists of bytes without a zero.
-/
namespace Silofs.Oa

abbrev Word := List Nat

/-- cmd/cmd.h `struct cmd_optdesc` -/
structure Desc where
  long : Word
  short : Nat
  arg : Bool
  deriving DecidableEq

/-- What getopt_long(3) returns: the option, and optarg. -/
structure Ev where
  opt : Nat
  arg : Option Word
  deriving DecidableEq

/-- The options found before the end or before a bad one; the other arguments; whether a bad one was
met. -/
structure Scan where
  evs : List Ev
  args : List Word
  bad : Bool
  deriving DecidableEq

/-- A letter, in the string of short options built by cmd/optargs.c:55-75 `getopti_add`. -/
def findShort (ds : List Desc) (c : Nat) : Option Desc := ds.find? (fun d => d.short == c)

/-- A word after "--": the name. -/
def longName (w : Word) : Word := w.takeWhile (· ≠ 61)

/-- A word after "--": what is behind '='. -/
def longVal (w : Word) : Option Word := if 61 ∈ w then some ((w.dropWhile (· ≠ 61)).drop 1) else none

/-- A long option: by its name, or by the beginning of its name if no other begins so. -/
def findLong (ds : List Desc) (n : Word) : Option Desc :=
  match ds.find? (fun d => d.long == n) with
  | some d => some d
  | none =>
    match ds.filter (fun d => n.isPrefixOf d.long) with
    | [d] => some d
    | _ => none

/-- Letters behind '-': options; an option which wants the next word; whether a bad one was met. -/
def cluster (ds : List Desc) : Word → List Ev × Option Nat × Bool
  | [] => ([], none, false)
  | c :: l =>
    match findShort ds c with
    | none => ([], none, true)
    | some d =>
      if d.arg then (if l = [] then ([], some c, false) else ([⟨c, some l⟩], none, false))
      else (⟨c, none⟩ :: (cluster ds l).1, (cluster ds l).2)

/-- More options in front. -/
def Scan.add (e : List Ev) (s : Scan) : Scan := { s with evs := e ++ s.evs }

/-- getopt_long(3), called until it returns -1 or '?': cmd/optargs.c:178-197 `cmd_optargs_parse` ends
the command at '?'. -/
def scan (ds : List Desc) : List Word → Scan
  | [] => ⟨[], [], false⟩
  | w :: rest =>
    match w with
    | 45 :: 45 :: [] => ⟨[], rest, false⟩
    | 45 :: 45 :: n =>
      match findLong ds (longName n), longVal n, rest with
      | none, _, _ => ⟨[], [], true⟩
      | some d, some v, rest => if d.arg then (scan ds rest).add [⟨d.short, some v⟩] else ⟨[], [], true⟩
      | some d, none, [] => if d.arg then ⟨[], [], true⟩ else ⟨[⟨d.short, none⟩], [], false⟩
      | some d, none, v :: rest =>
        if d.arg then (scan ds rest).add [⟨d.short, some v⟩] else (scan ds (v :: rest)).add [⟨d.short, none⟩]
    | 45 :: c :: l =>
      match cluster ds (c :: l), rest with
      | (es, _, true), _ => ⟨es, [], true⟩
      | (es, none, false), rest => (scan ds rest).add es
      | (es, some _, false), [] => ⟨es, [], true⟩
      | (es, some o, false), v :: rest => (scan ds rest).add (es ++ [⟨o, some v⟩])
    | w => { scan ds rest with args := w :: (scan ds rest).args }

/-! ### mount -/

/-- cmd/mount.c:155-172: the options of "mount". -/
def mountOds : List Desc :=
  [⟨[111, 112, 116, 115], 111, true⟩,                                                            -- opts, o
   ⟨[97, 108, 108, 111, 119, 45, 104, 111, 115, 116, 105, 100, 115], 105, false⟩,                -- allow-hostids, i
   ⟨[97, 108, 108, 111, 119, 45, 120, 97, 116, 116, 114, 45, 97, 99, 108], 69, false⟩,           -- allow-xattr-acl, E
   ⟨[110, 111, 45, 97, 108, 108, 111, 119, 45, 111, 116, 104, 101, 114], 65, false⟩,             -- no-allow-other, A
   ⟨[119, 114, 105, 116, 101, 98, 97, 99, 107, 45, 99, 97, 99, 104, 101], 87, true⟩,             -- writeback-cache, W
   ⟨[98, 117, 102, 102, 101, 114, 45, 99, 111, 112, 121, 45, 109, 111, 100, 101], 66, false⟩,    -- buffer-copy-mode, B
   ⟨[110, 111, 100, 97, 101, 109, 111, 110], 68, false⟩,                                         -- nodaemon, D
   ⟨[99, 111, 114, 101, 100, 117, 109, 112], 67, false⟩,                                         -- coredump, C
   ⟨[97, 115, 121, 110, 99, 119, 114], 97, true⟩,                                                -- asyncwr, a
   ⟨[115, 116, 100, 97, 108, 108, 111, 99], 77, false⟩,                                          -- stdalloc, M
   ⟨[110, 111, 45, 112, 114, 111, 109, 112, 116], 80, false⟩,                                    -- no-prompt, P
   ⟨[112, 97, 115, 115, 119, 111, 114, 100], 112, true⟩,                                         -- password, p
   ⟨[108, 111, 103, 108, 101, 118, 101, 108], 76, true⟩,                                         -- loglevel, L
   ⟨[115, 121, 115, 116, 101, 109, 100, 45, 114, 117, 110], 82, false⟩,                          -- systemd-run, R
   ⟨[104, 101, 108, 112], 104, false⟩]                                                           -- help, h

/-- cmd/mount.c:27-43 `cmd_mount_help_desc`: the options shown to the user, letter and name. -/
def mountHelp : List (Nat × Word) :=
  [(111, [111, 112, 116, 115]), (114, [114, 100, 111, 110, 108, 121]), (88, [110, 111, 101, 120, 101, 99]),
   (83, [110, 111, 115, 117, 105, 100]),
   (105, [97, 108, 108, 111, 119, 45, 104, 111, 115, 116, 105, 100, 115]),
   (69, [97, 108, 108, 111, 119, 45, 120, 97, 116, 116, 114, 45, 97, 99, 108]),
   (65, [110, 111, 45, 97, 108, 108, 111, 119, 45, 111, 116, 104, 101, 114]),
   (87, [119, 114, 105, 116, 101, 98, 97, 99, 107, 45, 99, 97, 99, 104, 101]),
   (66, [98, 117, 102, 102, 101, 114, 45, 99, 111, 112, 121, 45, 109, 111, 100, 101]),
   (68, [110, 111, 100, 97, 101, 109, 111, 110]), (67, [99, 111, 114, 101, 100, 117, 109, 112]),
   (77, [115, 116, 100, 97, 108, 108, 111, 99]), (76, [108, 111, 103, 108, 101, 118, 101, 108])]

/-- include/silofs/boot.h:54-71 `struct silofs_fs_cflags` and what else cmd/mount.c:45-58 keeps; the
first part is the one sub-options change. -/
structure Mnt where
  sub : Pw.Flags
  withFuse : Bool
  asyncwr : Bool
  allowAdmin : Bool
  allowOther : Bool
  xattrAcl : Bool
  writeback : Bool
  splice : Bool
  lazytime : Bool
  stdalloc : Bool
  daemon : Bool
  coredump : Bool
  noPrompt : Bool
  systemd : Bool
  level : Option Word
  deriving DecidableEq

/-- cmd/mount.c:336-355 `cmd_mount_mkdefaults`, cmd/main.c:100-101 -/
def defaults : Mnt :=
  { sub := ⟨false, false, false, false, false, none⟩
    withFuse := true, asyncwr := true, allowAdmin := true, allowOther := true, xattrAcl := false
    writeback := true, splice := true, lazytime := false, stdalloc := false
    daemon := true, coredump := false, noPrompt := false, systemd := false, level := none }

/-- How the command goes on. -/
inductive Out where
  | ok (m : Mnt)
  | die
  | undef
  | help
  deriving DecidableEq

/-- cmd/mount.c:153-238 `cmd_mount_parse_optargs`, one turn of the switch. -/
def step (m : Mnt) (e : Ev) : Out :=
  match e.opt with
  | 111 =>
    match Pw.getsubopts (e.arg.getD []) m.sub with
    | .flags f => .ok { m with sub := f }
    | .die _ => .die
    | .undef => .undef
  | 105 => .ok { m with sub := { m.sub with hostids := true } }
  | 65 => .ok { m with allowOther := false }
  | 69 => .ok { m with xattrAcl := true }
  | 87 =>
    match Cv.parseBool (e.arg.getD []) with
    | .ok b => .ok { m with writeback := b }
    | _ => .die
  | 66 => .ok { m with splice := false }
  | 68 => .ok { m with daemon := false }
  | 67 => .ok { m with coredump := true }
  | 97 =>
    match Cv.parseBool (e.arg.getD []) with
    | .ok b => .ok { m with asyncwr := b }
    | _ => .die
  | 77 => .ok { m with stdalloc := true }
  | 80 => .ok { m with noPrompt := true }
  | 112 =>
    match Pw.optPass (e.arg.getD []) with
    | some (.ok p) => .ok { m with sub := { m.sub with password := some p } }
    | some (.error _) => .die
    | none => .undef
  | 76 => .ok { m with level := some (e.arg.getD []) }
  | 82 => .ok { m with systemd := true }
  | 104 => .help
  | _ => .ok m

/-- The loop of cmd/mount.c:177-232. -/
def steps : List Ev → Mnt → Out
  | [], m => .ok m
  | e :: l, m =>
    match step m e with
    | .ok m => steps l m
    | o => o

/-- How "mount" goes on: the settings, the file-system and the mount-point. -/
inductive Res where
  | ok (m : Mnt) (repodirName mntpoint : Word)
  | die
  | undef
  | help
  deriving DecidableEq

/-- cmd/mount.c:153-238 `cmd_mount_parse_optargs` with cmd/optargs.c:212-224 `cmd_optargs_getarg` twice
and 244-249 `cmd_optargs_endargs`. -/
def mountArgs (argv : List Word) : Res :=
  match steps (scan mountOds argv).evs defaults with
  | .die => .die
  | .undef => .undef
  | .help => .help
  | .ok m =>
    if (scan mountOds argv).bad then .die
    else match (scan mountOds argv).args with
      | [r, p] => .ok m r p
      | _ => .die

/-! ### Switches of the file-system -/

/-- `SILOFS_ENVF_…`, include/silofs/fsenv.h:25-34 -/
def ENVF_WITHFUSE : Nat := 1
def ENVF_NLOOKUP : Nat := 2
def ENVF_WRITEBACK : Nat := 4
def ENVF_MAYSPLICE : Nat := 8
def ENVF_ALLOWOTHER : Nat := 16
def ENVF_ALLOWADMIN : Nat := 32
def ENVF_ALLOWXACL : Nat := 64
def ENVF_ASYNCWR : Nat := 128

/-- mount(2) -/
def MS_RDONLY : Nat := 1
def MS_NOSUID : Nat := 2
def MS_NODEV : Nat := 4
def MS_NOEXEC : Nat := 8
def MS_LAZYTIME : Nat := 33554432

/-- One of two masks. -/
def pick (b : Bool) (mask : Nat) (p : Nat × Nat) : Nat × Nat :=
  if b then (p.1 ||| mask, p.2) else (p.1, p.2 ||| mask)

/-- lib/fsenv.c:70-103 `fsenv_update_mntflags`, from the 0 of lib/fsenv.c:189 -/
def msFlags (m : Mnt) : Nat :=
  (0 ||| (pick m.sub.rdonly MS_RDONLY (pick m.sub.nodev MS_NODEV (pick m.sub.nosuid MS_NOSUID
      (pick m.sub.noexec MS_NOEXEC (pick m.lazytime MS_LAZYTIME (0, 0)))))).1) &&&
    (0xFFFFFFFFFFFFFFFF ^^^ (pick m.sub.rdonly MS_RDONLY (pick m.sub.nodev MS_NODEV (pick m.sub.nosuid MS_NOSUID
      (pick m.sub.noexec MS_NOEXEC (pick m.lazytime MS_LAZYTIME (0, 0)))))).2)

/-- A flag more. -/
def orIf (b : Bool) (mask x : Nat) : Nat := if b then x ||| mask else x

/-- lib/fsenv.c:105-131 `fsenv_update_ctlflags`, from the 0 of lib/fsenv.c:188 -/
def ctlFlags (m : Mnt) : Nat :=
  orIf m.asyncwr ENVF_ASYNCWR (orIf m.allowAdmin ENVF_ALLOWADMIN (orIf m.xattrAcl ENVF_ALLOWXACL
    (orIf m.allowOther ENVF_ALLOWOTHER (orIf m.splice ENVF_MAYSPLICE (orIf m.writeback ENVF_WRITEBACK
      (orIf m.withFuse ENVF_NLOOKUP (orIf m.withFuse ENVF_WITHFUSE 0)))))))

/-- lib/super.c:686-698 `silof_sbi_check_mut_fs`: error number -/
def checkMut (ms : Nat) (fossil : Bool) : Nat :=
  if ms &&& MS_RDONLY = MS_RDONLY then 1030 else if fossil then 1030 else 0

/-- lib/namei.c:688-695, device nodes in `check_mknod` -/
def checkDev (ms rdev : Nat) : Nat :=
  if rdev = 0 then 1022 else if ms &&& MS_NODEV ≠ 0 then 1095 else 0

/-- Who asks, lib/opers.c:159-199. -/
structure Who where
  kernel : Bool
  owner : Bool
  admin : Bool

/-- lib/opers.c:201-219 `op_authorize` on a mounted file-system -/
def authorize (ctl : Nat) (w : Who) : Nat :=
  if w.kernel then 0 else if w.owner then 0
  else if ctl &&& ENVF_ALLOWADMIN ≠ 0 ∧ w.admin then 0
  else if ctl &&& ENVF_ALLOWOTHER ≠ 0 then 0 else 1001

/-- lib/xattr.c:634-639 `xac_allow_acl` -/
def allowAcl (ctl : Nat) : Bool := decide (ctl &&& ENVF_ALLOWXACL ≠ 0)

/-- lib/execlib.c:470-475 `has_ctlf`, as 490-491 ask it for write-back and splice -/
def hasCtlf (ctl mask : Nat) : Bool := decide (ctl &&& mask = mask)

end Silofs.Oa
