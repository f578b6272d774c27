/-
How commands get the password: cmd/getpass.c, the option `-p` (cmd/optargs.c), the sub-options of
`silofs mount -o` (cmd/mount.c:89-151), and how it is kept (lib/crypt/passwd.c).

Texts are lists of bytes.  The classes of characters are those of the C locale.  An error ends the
program (cmd_die); its number is the error code given, 0 when there is none.
-/
namespace Silofs.Pw

/-- isspace(3) -/
def isSpace (c : Nat) : Bool := c == 32 || (9 ≤ c && c ≤ 13)

/-- cmd/getpass.c:55-58 `isskip` -/
def isSkip (c : Nat) : Bool := c == 0 || isSpace c

/-- cmd/getpass.c:36-53 `check_password_char`, its five tests. -/
def charOk (c : Nat) : Bool :=
  c < 128 && !(c < 32 || c == 127) && !isSpace c && (32 ≤ c && c < 127) &&
    ((48 ≤ c && c ≤ 57) || (65 ≤ c && c ≤ 90) || (97 ≤ c && c ≤ 122) ||
      ((33 ≤ c && c ≤ 47) || (58 ≤ c && c ≤ 64) || (91 ≤ c && c ≤ 96) || (123 ≤ c && c ≤ 126)))

/-- SILOFS_PASSWORD_MAX, include/silofs/defs.h -/
def PASSWORD_MAX : Nat := 255

def EINVAL : Nat := 22
def EFBIG : Nat := 27

/-- The two loops of cmd/getpass.c:60-82 `parse_dup_password`: blanks and zeros at both ends. -/
def trimSkip (b : List Nat) : List Nat := ((b.dropWhile isSkip).reverse.dropWhile isSkip).reverse

/-- cmd/getpass.c:60-82 `parse_dup_password` of the whole buffer given. -/
def parseDup (b : List Nat) : Except Nat (List Nat) :=
  if (trimSkip b).length = 0 then .error EINVAL
  else if PASSWORD_MAX < (trimSkip b).length then .error EINVAL
  else if (trimSkip b).all charOk then .ok (trimSkip b)
  else .error EINVAL

/-- What a read from a terminal or a pipe gives next.  A terminal (which is put in canonical mode)
gives lines, with their newline, or without it when the line was ended by end-of-file; a pipe gives
what was written in one go. -/
inductive Ev where
  | data (l : List Nat)
  | fail (e : Nat)
  deriving DecidableEq

/-- Where a password is read from. -/
inductive In where
  | tty (evs : List Ev)
  | reg (f : List Nat) (pos : Nat)
  | other (evs : List Ev)
  deriving DecidableEq

/-- read(2) of up to `n` bytes, from what is to come; nothing at the end. -/
def readEvs (n : Nat) : List Ev → Except Nat (List Nat) × List Ev
  | [] => (.ok [], [])
  | .fail e :: r => (.error e, r)
  | .data l :: r => if l.length ≤ n then (.ok l, r) else (.ok (l.take n), .data (l.drop n) :: r)

/-- read(2).  Regular files are read whole (they are short). -/
def read (n : Nat) : In → Except Nat (List Nat) × In
  | .tty evs => ((readEvs n evs).1, .tty (readEvs n evs).2)
  | .other evs => ((readEvs n evs).1, .other (readEvs n evs).2)
  | .reg f pos => (.ok ((f.drop pos).take n), .reg f (pos + min n (f.length - pos)))

/-- cmd/getpass.c:83-103 `read_password_buf_from_fd` -/
def readBuf (i : In) (bsz : Nat) : Except Nat (List Nat) × In :=
  match (read bsz i).1 with
  | .error e => (.error e, (read bsz i).2)
  | .ok l =>
    if l.length = 0 then (.error EINVAL, (read bsz i).2)
    else if l.length = bsz then
      match (read 1 (read bsz i).2).1 with
      | .ok (_ :: _) => (.error EINVAL, (read 1 (read bsz i).2).2)
      | _ => (.ok l, (read 1 (read bsz i).2).2)
    else (.ok l, (read bsz i).2)

/-- cmd/getpass.c:105-122 `read_password_from_file` -/
def readFile (i : In) (size bsz : Nat) : Except Nat (List Nat) × In :=
  if size = 0 then (.error EINVAL, i)
  else if bsz < size then (.error EFBIG, i)
  else readBuf i size

/-- cmd/getpass.c:124-167 `read_password_from_tty`; setting the terminal succeeds. -/
def readTty (i : In) (bsz : Nat) : Except Nat (List Nat) × In :=
  match (read bsz i).1 with
  | .error e => (.error e, (read bsz i).2)
  | .ok l =>
    if l.length = 0 then (.error EINVAL, (read bsz i).2)
    else if l.getLast? = some 10 then (.ok l, (read bsz i).2)
    else (.error EINVAL, (read bsz i).2)

/-- cmd/getpass.c:178-187 `read_password_from` -/
def readFrom (i : In) (bsz : Nat) : Except Nat (List Nat) × In :=
  match i with
  | .tty evs => readTty (.tty evs) bsz
  | .reg f pos => readFile (.reg f pos) f.length bsz
  | .other evs => readBuf (.other evs) bsz

/-- cmd/getpass.c:220-230 `getpass_from` -/
def getpassFrom (i : In) : Except Nat (List Nat) × In :=
  match (readFrom i 1024).1 with
  | .error e => (.error e, (readFrom i 1024).2)
  | .ok l => (parseDup l, (readFrom i 1024).2)

/-- cmd/getpass.c:232-258 `do_getpass` without a path (no caller gives one), 260-263 `cmd_getpass`,
265-268 `cmd_getpass2`, 270-273 `cmd_getpass_simple`. -/
def doGetpass (again : Bool) (i : In) : Except Nat (List Nat) :=
  match (getpassFrom i).1 with
  | .error e => .error e
  | .ok p =>
    if again then
      match (getpassFrom (getpassFrom i).2).1 with
      | .error e => .error e
      | .ok q => if p = q then .ok p else .error 0
    else .ok p

/-- cmd/getpass.c:275-278 `cmd_duppass`; a null pointer is read. -/
def dupPass (s : Option (List Nat)) : Option (Except Nat (List Nat)) :=
  match s with
  | none => none
  | some s => some (parseDup s)

/-- cmd/optargs.c:256-263 `cmd_optargs_getpass`, 204-210 `cmd_optarg_dupoptarg` -/
def optPass (optarg : List Nat) : Option (Except Nat (List Nat)) :=
  if optarg.length = 0 then some (.error 0) else dupPass (some optarg)

/-- include/silofs/crypt/passwd.h `struct silofs_password` -/
structure Password where
  pass : List Nat
  passlen : Nat
  deriving DecidableEq

/-- lib/crypt/passwd.c:25-37 `silofs_password_setup`, of a C string or a null pointer -/
def setup (s : Option (List Nat)) : Except Nat Password :=
  if 256 ≤ (s.getD []).length then .error EINVAL
  else .ok ⟨s.getD [] ++ List.replicate (256 - (s.getD []).length) 0, (s.getD []).length⟩

/-- The bytes which keys are derived from, lib/crypt/cipher.c:239-260 `silofs_derive_ivkey`, when
lib/crypt/passwd.c:57-63 `silofs_password_check` passes; lib/fsenv.c:361-372 `silofs_fsenv_setup`
derives nothing for an empty password. -/
def keyInput (p : Password) : Option (List Nat) :=
  if p.passlen = 0 ∨ 256 < p.passlen then none else some (p.pass.take p.passlen)

/-! ### Sub-options of mount -/

/-- cmd/mount.c:76-87 `enum cmd_mount_subopts` and the tokens, 92-101. -/
def toks : List (List Nat) :=
  [[114, 111], [114, 119], [100, 101, 118], [110, 111, 100, 101, 118], [115, 117, 105, 100],
   [110, 111, 115, 117, 105, 100], [101, 120, 101, 99], [110, 111, 101, 120, 101, 99],
   [104, 111, 115, 116, 105, 100, 115], [112, 97, 115, 115, 119, 100]]

/-- getsubopt(3): the number of the token up to '=' or ',', the value behind '=', and the rest behind
','. -/
def getsubopt (s : List Nat) : Option Nat × Option (List Nat) × List Nat :=
  (toks.findIdx? (· == ((s.takeWhile (· ≠ 44)).takeWhile (· ≠ 61))),
   (if 61 ∈ s.takeWhile (· ≠ 44) then some (((s.takeWhile (· ≠ 44)).dropWhile (· ≠ 61)).drop 1) else none),
   (s.dropWhile (· ≠ 44)).drop 1)

/-- The flags of cmd/mount.c `struct cmd_mount_in_args` which sub-options change, and the password. -/
structure Flags where
  rdonly : Bool
  nodev : Bool
  nosuid : Bool
  noexec : Bool
  hostids : Bool
  password : Option (List Nat)
  deriving DecidableEq

/-- How a command ends. -/
inductive Out where
  | flags (f : Flags)
  | die (e : Nat)
  | undef
  deriving DecidableEq

/-- The loop of cmd/mount.c:89-151 `cmd_mount_getsubopts`; each turn takes a character. -/
def suboptLoop : Nat → List Nat → Flags → Out
  | 0, _, f => .flags f
  | k + 1, s, f =>
    match s with
    | [] => .flags f
    | c :: s =>
      match (getsubopt (c :: s)).1 with
      | some 0 => suboptLoop k (getsubopt (c :: s)).2.2 { f with rdonly := true }
      | some 1 => suboptLoop k (getsubopt (c :: s)).2.2 { f with rdonly := false }
      | some 2 => suboptLoop k (getsubopt (c :: s)).2.2 { f with nodev := false }
      | some 3 => suboptLoop k (getsubopt (c :: s)).2.2 { f with nodev := true }
      | some 4 => suboptLoop k (getsubopt (c :: s)).2.2 { f with nosuid := false }
      | some 5 => suboptLoop k (getsubopt (c :: s)).2.2 { f with nosuid := true }
      | some 6 => suboptLoop k (getsubopt (c :: s)).2.2 { f with noexec := false }
      | some 7 => suboptLoop k (getsubopt (c :: s)).2.2 { f with noexec := true }
      | some 8 => suboptLoop k (getsubopt (c :: s)).2.2 { f with hostids := true }
      | some 9 =>
        match dupPass (getsubopt (c :: s)).2.1 with
        | none => .undef
        | some (.error e) => .die e
        | some (.ok p) => suboptLoop k (getsubopt (c :: s)).2.2 { f with password := some p }
      | _ => .die 0

/-- cmd/mount.c:89-151 `cmd_mount_getsubopts` -/
def getsubopts (optarg : List Nat) (f : Flags) : Out :=
  if 256 ≤ optarg.length then .die 0 else suboptLoop (optarg.length + 1) optarg f

end Silofs.Pw
