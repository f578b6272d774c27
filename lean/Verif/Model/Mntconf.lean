import Verif.Model.Mntsvc
/-
The configuration file of the mount service (mntd/mntconf.c): text to rules.
A text that makes the daemon exit with an error is parsed to `none`.
realpath(3) is a parameter; where it fails the path is kept as written.
-/
namespace Silofs.Mnt

/-- lib/str/strview.c:544-552 `silofs_strview_split_chr`. -/
def splitChr (c : Nat) (s : List Nat) : List Nat × List Nat :=
  (s.takeWhile (· != c), (s.dropWhile (· != c)).drop 1)

/-- Space and tab. -/
def isSep (b : Nat) : Bool := b == 32 || b == 9

/-- lib/str/strview.c:530-542 `silofs_strview_nsplit` with " \t": up to the first
separator, and from the first non-separator after it. -/
def splitSep (s : List Nat) : List Nat × List Nat :=
  (s.takeWhile (fun b => !isSep b), (s.dropWhile (fun b => !isSep b)).dropWhile isSep)

/-- " \n\t\r\v\f", lib/str/strview.c:704. -/
def isWs (b : Nat) : Bool := b == 32 || b == 10 || b == 9 || b == 13 || b == 11 || b == 12

/-- lib/str/strview.c:701-707 `silofs_strview_strip_ws` (682-690, 617-625,
654-662). -/
def stripWs (s : List Nat) : List Nat := ((s.dropWhile isWs).reverse.dropWhile isWs).reverse

/-- Value of a digit in bases up to 16. -/
def digitVal (b : Nat) : Nat :=
  if 48 ≤ b ∧ b ≤ 57 then b - 48 else if 97 ≤ b ∧ b ≤ 102 then b - 87
  else if 65 ≤ b ∧ b ≤ 70 then b - 55 else 99

/-- Digits of `base` at the head of the text: value, number of digits, rest. -/
def digits (base : Nat) : Nat → List Nat → Nat × Nat × List Nat
  | acc, [] => (acc, 0, [])
  | acc, b :: l =>
    if digitVal b < base then
      ((digits base (acc * base + digitVal b) l).1, (digits base (acc * base + digitVal b) l).2.1 + 1,
       (digits base (acc * base + digitVal b) l).2.2)
    else (acc, 0, b :: l)

/-- Magnitude as strtol(3) in base 0 reads it, after white space and sign: a
hexadecimal number after "0x", octal after "0", else decimal; `none` if there
are no digits. -/
def strtoulBody (s : List Nat) : Option (Nat × List Nat) :=
  match s with
  | 48 :: x :: l =>
    if (x = 120 ∨ x = 88) ∧ (digits 16 0 l).2.1 ≠ 0 then some ((digits 16 0 l).1, (digits 16 0 l).2.2)
    else some ((digits 8 0 (48 :: x :: l)).1, (digits 8 0 (48 :: x :: l)).2.2)
  | s => if (digits 10 0 s).2.1 = 0 then none else some ((digits 10 0 s).1, (digits 10 0 s).2.2)

/-- strtol(3), base 0: value and rest; `none` for no conversion or ERANGE. -/
def strtol (s : List Nat) : Option (Int × List Nat) :=
  match s.dropWhile isWs with
  | 45 :: l => match strtoulBody l with
    | none => none
    | some (v, r) => if 9223372036854775808 < v then none else some (-(v : Int), r)
  | 43 :: l => match strtoulBody l with
    | none => none
    | some (v, r) => if 9223372036854775807 < v then none else some ((v : Int), r)
  | l => match strtoulBody l with
    | none => none
    | some (v, r) => if 9223372036854775807 < v then none else some ((v : Int), r)

/-- mntd/mntconf.c:125-146 `mntc_parse_long`: one character may be left over. -/
def parseLong (s : List Nat) : Option Int :=
  if 80 ≤ s.length then none
  else match strtol s with
    | none => none
    | some (v, r) => if 1 < r.length then none else some v

/-- mntd/mntconf.c:148-159 `mntc_parse_int`, 161-171 `mntc_parse_uid`. -/
def parseUid (s : List Nat) : Option Nat :=
  match parseLong s with
  | none => none
  | some v =>
    if v > 2147483647 ∨ v < -2147483648 then none
    else if v < 0 ∨ v > 1073741823 then none
    else some v.toNat

/-- "1", "true", "0", "false": mntd/mntconf.c:110-123 `mntc_parse_bool`. -/
def parseBool (s : List Nat) : Option Bool :=
  if s = [49] ∨ s = [116, 114, 117, 101] then some true
  else if s = [48] ∨ s = [102, 97, 108, 115, 101] then some false
  else none

/-- "uid". -/
def kwUid : List Nat := [117, 105, 100]
/-- "recursive". -/
def kwRecursive : List Nat := [114, 101, 99, 117, 114, 115, 105, 118, 101]

/-- mntd/mntconf.c:193-204, one argument. -/
def parseArg (a : List Nat) (r : Rule) : Option Rule :=
  if (splitChr 61 a).1 = [] ∨ (splitChr 61 a).2 = [] then none
  else if (splitChr 61 a).1 = kwRecursive then
    match parseBool (splitChr 61 a).2 with
    | none => none
    | some b => some { r with recursive := b }
  else if (splitChr 61 a).1 = kwUid then
    match parseUid (splitChr 61 a).2 with
    | none => none
    | some u => some { r with uid := u }
  else none

/-- mntd/mntconf.c:175-207 `mntc_parse_rule_args`, the loop (the number bounds
its rounds; the length of the text is enough). -/
def parseArgs : Nat → List Nat → Rule → Option Rule
  | 0, _, _ => none
  | n + 1, s, r =>
    if (splitSep s).1 = [] ∧ (splitSep s).2 = [] then some r
    else match parseArg (splitSep s).1 r with
      | none => none
      | some r' => parseArgs n (splitSep s).2 r'

/-- mntd/mntconf.c:226-239 `mntc_parse_line`, 209-224 `mntc_parse_rule`. -/
def parseLine (rp : Path → Path) (line : List Nat) (rules : List Rule) : Option (List Rule) :=
  if stripWs (splitChr 35 line).1 = [] then some rules
  else if 1024 ≤ rules.length then none
  else match parseArgs ((stripWs (splitChr 35 line).1).length + 1) (splitSep (stripWs (splitChr 35 line).1)).2
      ⟨rp (splitSep (stripWs (splitChr 35 line).1)).1, uidNone, false⟩ with
    | none => none
    | some r => some (rules ++ [r])

/-- mntd/mntconf.c:241-257 `mntc_parse_rules`, the loop. -/
def parseLines (rp : Path → Path) : Nat → List Nat → List Rule → Option (List Rule)
  | 0, _, _ => none
  | n + 1, s, rules =>
    if (splitChr 10 s).1 = [] ∧ (splitChr 10 s).2 = [] then some rules
    else match parseLine rp (splitChr 10 s).1 rules with
      | none => none
      | some rules' => parseLines rp n (splitChr 10 s).2 rules'

/-- mntd/mntconf.c:259-266 `parse_mntrules`, 323-333 `mountd_parse_mntrules`; a
text ends at its first zero byte. -/
def parseConf (rp : Path → Path) (text : List Nat) : Option (List Rule) :=
  parseLines rp (text.length + 1) (text.takeWhile (· != 0)) []

end Silofs.Mnt
