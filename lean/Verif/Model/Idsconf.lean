import Verif.Model.Idsmap
import Verif.Model.Mntconf
/-
The file of user and group mappings of a repository, cmd/idsconf.c: written by "init", read by every
other command.  Texts are lists of bytes, cut by the functions of lib/str/strview.c as lists
(see C59).  `none` is the exit of the command with an error.

The databases of users and groups of the host are a parameter.  Memory suffices.
-/
namespace Silofs.Idsconf

open Silofs.Mnt (splitChr stripWs strtol)
open Silofs.Ids (Ent)

/-- A user of the host; `size` is the room its entry takes in the buffer of getpwnam_r(3). -/
structure Pw where
  name : List Nat
  uid : Nat
  gid : Nat
  size : Nat
  deriving DecidableEq

/-- A group of the host. -/
structure Gr where
  name : List Nat
  gid : Nat
  size : Nat
  deriving DecidableEq

/-- The host: getpwnam_r(3), getpwuid_r(3), getgrnam_r(3), getgrgid_r(3), getgrouplist(3) with room for
64 groups, and the buffer sizes sysconf(3) asks for. -/
structure Db where
  pwName : List Nat → Option Pw
  pwUid : Nat → Option Pw
  grName : List Nat → Option Gr
  grGid : Nat → Option Gr
  groups : List Nat → Option (List Nat)
  scPw : Nat
  scGr : Nat

/-- cmd/idsconf.c:153-162 `cmd_sysconf`: the key is returned, not the value. -/
def sysconf (key _value : Nat) : Nat := key

/-- cmd/idsconf.c:164-174 `cmd_getxx_bsz`; the keys are those of glibc. -/
def bufSize (db : Db) : Nat :=
  (max (sysconf 70 db.scPw) (sysconf 69 db.scGr) + 1023) / 1024 * 1024

/-- cmd/idsconf.c:176-195 `cmd_resolve_uid_by_name` -/
def uidByName (db : Db) (name : List Nat) : Option Nat :=
  match db.pwName name with
  | none => none
  | some p => if bufSize db < p.size then none else some p.uid

/-- cmd/idsconf.c:197-216 `cmd_resolve_gid_by_name` -/
def gidByName (db : Db) (name : List Nat) : Option Nat :=
  match db.grName name with
  | none => none
  | some p => if bufSize db < p.size then none else some p.gid

/-- cmd/idsconf.c:218-242 `cmd_resolve_uid_to_name`, into 256 bytes -/
def uidToName (db : Db) (uid : Nat) : Option (List Nat) :=
  match db.pwUid uid with
  | none => none
  | some p =>
    if bufSize db < p.size then none
    else if p.name = [] ∨ 256 ≤ p.name.length then none else some p.name

/-- cmd/idsconf.c:244-268 `cmd_resolve_gid_to_name`, into 256 bytes -/
def gidToName (db : Db) (gid : Nat) : Option (List Nat) :=
  match db.grGid gid with
  | none => none
  | some p =>
    if bufSize db < p.size then none
    else if p.name = [] ∨ 256 ≤ p.name.length then none else some p.name

/-- cmd/cmdutils.c:482-496 `cmd_parse_str_as_long`: one character may be left over. -/
def parseLong (s : List Nat) : Option Int :=
  match strtol s with
  | none => none
  | some (v, r) => if 1 < r.length then none else some v

/-- cmd/cmdutils.c:520-529 `cmd_parse_str_as_uid`, 531-540 `cmd_parse_str_as_gid`; cmd/idsconf.c:125-136
`cmd_parse_uid_by_value`, 138-149 `cmd_parse_gid_by_value` -/
def parseId (s : List Nat) : Option Nat :=
  if 64 ≤ s.length then none
  else match parseLong s with
    | none => none
    | some v => if v < 0 ∨ v > 1073741823 then none else some v.toNat

/-- cmd/idsconf.c:376-387 `cmd_parse_uid_by_name` -/
def parseUidName (db : Db) (name : List Nat) : Option Nat :=
  if 256 ≤ name.length then none else uidByName db name

/-- cmd/idsconf.c:389-400 `cmd_parse_gid_by_name` -/
def parseGidName (db : Db) (name : List Nat) : Option Nat :=
  if 256 ≤ name.length then none else gidByName db name

/-- cmd/idsconf.c:402-409 `cmd_parse_uids`: the name is the id of the file system, the value that of the
host. -/
def parseUids (db : Db) (name value : List Nat) : Option Ent :=
  match parseUidName db name with
  | none => none
  | some fs =>
    match parseId value with
    | none => none
    | some host => some ⟨host, fs⟩

/-- cmd/idsconf.c:411-418 `cmd_parse_gids`: the name is the id of the host, the value that of the file
system. -/
def parseGids (db : Db) (name value : List Nat) : Option Ent :=
  match parseGidName db name with
  | none => none
  | some host =>
    match parseId value with
    | none => none
    | some fs => some ⟨host, fs⟩

/-- The mappings: include/silofs/fs/types.h `struct silofs_fs_ids` -/
structure FsIds where
  users : List Ent
  groups : List Ent
  deriving DecidableEq, Repr

/-- cmd/idsconf.c:781-787 `cmd_fs_ids_init` -/
def FsIds.empty : FsIds := ⟨[], []⟩

/-- cmd/idsconf.c:420-437 `cmd_parse_user_conf` with 315-320 `cmd_append_uids1` -/
def parseUser (db : Db) (ids : FsIds) (line : List Nat) : Option FsIds :=
  if stripWs (splitChr 61 line).1 = [] ∨ stripWs (splitChr 61 line).2 = [] then none
  else match parseUids db (stripWs (splitChr 61 line).1) (stripWs (splitChr 61 line).2) with
    | none => none
    | some e => some { ids with users := ids.users ++ [e] }

/-- cmd/idsconf.c:439-456 `cmd_parse_group_conf` -/
def parseGroup (db : Db) (ids : FsIds) (line : List Nat) : Option FsIds :=
  if stripWs (splitChr 61 line).1 = [] ∨ stripWs (splitChr 61 line).2 = [] then none
  else match parseGids db (stripWs (splitChr 61 line).1) (stripWs (splitChr 61 line).2) with
    | none => none
    | some e => some { ids with groups := ids.groups ++ [e] }

/-- cmd/idsconf.c:90-94 `enum idsconf_sec` -/
inductive Sec where
  | nil | users | groups
  deriving DecidableEq, Repr

/-- "users". -/
def txtUsers : List Nat := [117, 115, 101, 114, 115]
/-- "groups". -/
def txtGroups : List Nat := [103, 114, 111, 117, 112, 115]

/-- cmd/idsconf.c:96-100, 580-588 `idsconf_sec_to_name` -/
def secName : Sec → List Nat
  | .nil => []
  | .users => txtUsers
  | .groups => txtGroups

/-- cmd/idsconf.c:590-601 `idsconf_sec_by_name` -/
def secByName (s : List Nat) : Sec :=
  if s = secName .nil then .nil else if s = secName .users then .users
  else if s = secName .groups then .groups else .nil

/-- `silofs_strview_strip_any_of` with "[]" -/
def stripBrackets (s : List Nat) : List Nat :=
  ((s.dropWhile (fun x => x == 91 || x == 93)).reverse.dropWhile (fun x => x == 91 || x == 93)).reverse

/-- cmd/idsconf.c:635-647 `cmd_parse_sec_state` -/
def parseSec (line : List Nat) : Sec :=
  if (stripWs line).head? = some 91 ∧ (stripWs line).getLast? = some 93 then
    secByName (stripWs (stripBrackets (stripWs line)))
  else .nil

/-- cmd/idsconf.c:617-633 `fs_ids_parse_line` -/
def parseIn (db : Db) (sec : Sec) (ids : FsIds) (line : List Nat) : Option FsIds :=
  match sec with
  | .nil => some ids
  | .users => parseUser db ids line
  | .groups => parseGroup db ids line

/-- cmd/idsconf.c:669-679, one line: the comment is cut off. -/
def parseLine (db : Db) (sec : Sec) (ids : FsIds) (line : List Nat) : Option (Sec × FsIds) :=
  if parseSec (stripWs (splitChr 35 line).1) ≠ .nil ∧ parseSec (stripWs (splitChr 35 line).1) ≠ sec then
    some (parseSec (stripWs (splitChr 35 line).1), ids)
  else if stripWs (splitChr 35 line).1 ≠ [] then
    match parseIn db sec ids (stripWs (splitChr 35 line).1) with
    | none => none
    | some ids' => some (sec, ids')
  else some (sec, ids)

/-- cmd/idsconf.c:664-681, the loop (the number bounds its rounds; the length of the text is enough). -/
def parseLines (db : Db) : Nat → List Nat → Sec → FsIds → Option FsIds
  | 0, _, _, _ => none
  | n + 1, s, sec, ids =>
    if (splitChr 10 s).1 = [] ∧ (splitChr 10 s).2 = [] then some ids
    else match parseLine db sec ids (splitChr 10 s).1 with
      | none => none
      | some (sec', ids') => parseLines db n (splitChr 10 s).2 sec' ids'

/-- cmd/idsconf.c:649-682 `fs_ids_parse`; a text ends at its first zero byte. -/
def parse (db : Db) (text : List Nat) : Option FsIds :=
  parseLines db (text.length + 1) (text.takeWhile (· != 0)) .nil .empty

/-- cmd/idsconf.c:821-831 `cmd_fs_ids_load` with 522-557 `cmd_load_idsconf_file`; the argument is the
content of the file. -/
def load (db : Db) (file : List Nat) : Option FsIds :=
  if 1048576 ≤ file.length then none
  else if file.any (fun x => decide (128 ≤ x)) then none
  else parse db file

/-- Decimal digits as printf(3) writes them; `n` digits suffice. -/
def decN : Nat → Nat → List Nat
  | 0, _ => []
  | n + 1, v => if v < 10 then [48 + v] else decN n (v / 10) ++ [48 + v % 10]

/-- "%u" of a number of 32 bits. -/
def dec (v : Nat) : List Nat := decN 10 v

/-- cmd/idsconf.c:480-486 `cmd_append_section` -/
def sectionLine (s : Sec) : List Nat := [91] ++ secName s ++ [93, 10]

/-- cmd/idsconf.c:488-494 `cmd_append_id`: "%s = %u\n", at most 510 bytes -/
def idLine (name : List Nat) (id : Nat) : List Nat := (name ++ [32, 61, 32] ++ dec id ++ [10]).take 510

/-- cmd/idsconf.c:496-502 `cmd_append_user` -/
def userLine (db : Db) (e : Ent) : Option (List Nat) :=
  match uidToName db e.host with
  | none => none
  | some name => some (idLine name e.fs)

/-- cmd/idsconf.c:504-510 `cmd_append_group` -/
def groupLine (db : Db) (e : Ent) : Option (List Nat) :=
  match gidToName db e.fs with
  | none => none
  | some name => some (idLine name e.host)

/-- The loops of cmd/idsconf.c:684-704. -/
def lines (f : Ent → Option (List Nat)) : List Ent → Option (List Nat)
  | [] => some []
  | e :: es =>
    match f e with
    | none => none
    | some l =>
      match lines f es with
      | none => none
      | some r => some (l ++ r)

/-- cmd/idsconf.c:684-704 `fs_ids_unparse`, 833-842 `cmd_fs_ids_save`: the content of the file. -/
def save (db : Db) (ids : FsIds) : Option (List Nat) :=
  match lines (userLine db) ids.users with
  | none => none
  | some u =>
    match lines (groupLine db) ids.groups with
    | none => none
    | some g => some (sectionLine .users ++ u ++ [10] ++ sectionLine .groups ++ g ++ [10])

/-- cmd/idsconf.c:718-726 `fs_ids_has_host_uid`, 728-736 `fs_ids_has_host_gid` -/
def hasHost (es : List Ent) (id : Nat) : Bool := es.any (fun e => e.host == id)

/-- cmd/idsconf.c:846-866 `cmd_resolve_uidgid` -/
def resolve (db : Db) (name : List Nat) : Option (Nat × Nat) :=
  match db.pwName name with
  | none => none
  | some p => if bufSize db < p.size then none else some (p.uid, p.gid)

/-- cmd/idsconf.c:738-761 `fs_ids_add_supgr`, the loop; -1 is skipped. -/
def addGroups : List Ent → List Nat → List Ent
  | gs, [] => gs
  | gs, g :: l =>
    if g = 4294967295 then addGroups gs l
    else if hasHost gs g then addGroups gs l
    else addGroups (gs ++ [⟨g, g⟩]) l

/-- cmd/idsconf.c:763-779 `cmd_fs_ids_add_user` -/
def addUser (db : Db) (ids : FsIds) (user : List Nat) (sup : Bool) : Option FsIds :=
  match resolve db user with
  | none => none
  | some (u, g) =>
    if sup then
      match db.groups user with
      | none => none
      | some l => some ⟨ids.users ++ [⟨u, u⟩], addGroups (ids.groups ++ [⟨g, g⟩]) l⟩
    else some ⟨ids.users ++ [⟨u, u⟩], ids.groups ++ [⟨g, g⟩]⟩

/-- cmd/init.c:151-164 `cmd_init_setup_fs_ids`; the name of the user 0 goes into 255 bytes
(cmd/idsconf.c:895-901). -/
def initIds (db : Db) (user : List Nat) (sup root : Bool) : Option FsIds :=
  match uidToName db 0 with
  | none => none
  | some rn =>
    if 255 ≤ rn.length then none
    else match addUser db .empty user sup with
      | none => none
      | some ids => if root ∧ rn ≠ user then addUser db ids rn false else some ids

/-- cmd/idsconf.c:868-878 `cmd_require_uidgid`, used by mkfs -/
def requireIds (db : Db) (ids : FsIds) (user : List Nat) : Option (Nat × Nat) :=
  match resolve db user with
  | none => none
  | some (u, g) => if hasHost ids.users u ∧ hasHost ids.groups g then some (u, g) else none

/-- cmd/idsconf.c:798-808 `cmd_fs_ids_assign`, the loops: the entry appended in round `i` is that at `i`
of the own table before it grows.  A null table (294-300) leaves the new entry zero; reading behind the end
of a table which was just freed is `none`. -/
def assignLoop (es : List Ent) (i : Nat) : Nat → Option (List Ent)
  | 0 => some es
  | n + 1 =>
    if es = [] then assignLoop [⟨0, 0⟩] (i + 1) n
    else match es[i]? with
      | none => none
      | some e => assignLoop (es ++ [e]) (i + 1) n

/-- cmd/idsconf.c:798-808 `cmd_fs_ids_assign` -/
def assign (other : FsIds) : Option FsIds :=
  match assignLoop [] 0 other.users.length with
  | none => none
  | some u =>
    match assignLoop [] 0 other.groups.length with
    | none => none
    | some g => some ⟨u, g⟩

end Silofs.Idsconf
