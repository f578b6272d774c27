import Verif.Model.Idsconf
/-
Values on the command line: sizes, numbers, booleans, paths (cmd/cmdutils.c), and what "mkfs" makes of
the size (cmd/mkfs.c, lib/execlib.c).  Texts are lists of bytes without a zero.

strtold(3), modfl(3), toupper(3) and getopt's part are those of glibc on x86-64 in the "C" locale: long
double has a significand of 64 bits; conversion rounds to nearest, ties to even.
-/
namespace Silofs.Cv

open Silofs.Mnt (digits digitVal isWs strtol)

/-! ### strtold -/

/-- A number as written: n / d. -/
structure Q where
  n : Nat
  d : Nat
  deriving DecidableEq

/-- What strtold(3) finds in a text, before rounding. -/
inductive Lit where
  | num (q : Q)
  | inf
  | nan
  deriving DecidableEq

/-- Lower case of an ASCII letter. -/
def lower (b : Nat) : Nat := if 65 ≤ b ∧ b ≤ 90 then b + 32 else b

/-- toupper(3) -/
def upper (b : Nat) : Nat := if 97 ≤ b ∧ b ≤ 122 then b - 32 else b

/-- The text begins with the word, whatever the case. -/
def startsWith (w s : List Nat) : Bool := (s.take w.length).map lower == w

/-- The "(...)" which may follow "nan". -/
def isNanChar (b : Nat) : Bool :=
  (48 ≤ b && b ≤ 57) || (97 ≤ b && b ≤ 122) || (65 ≤ b && b ≤ 90) || b == 95

/-- Rest after "nan". -/
def nanRest (s : List Nat) : List Nat :=
  match s with
  | 40 :: l =>
    match l.dropWhile isNanChar with
    | 41 :: r => r
    | _ => s
  | _ => s

/-- An exponent: its value and the rest; 0 if there is none. -/
def expo (c : Nat) (s : List Nat) : Int × List Nat :=
  match s with
  | e :: 45 :: l =>
    if lower e = c ∧ (digits 10 0 l).2.1 ≠ 0 then (-((digits 10 0 l).1 : Int), (digits 10 0 l).2.2) else (0, s)
  | e :: 43 :: l =>
    if lower e = c ∧ (digits 10 0 l).2.1 ≠ 0 then (((digits 10 0 l).1 : Int), (digits 10 0 l).2.2) else (0, s)
  | e :: l =>
    if lower e = c ∧ (digits 10 0 l).2.1 ≠ 0 then (((digits 10 0 l).1 : Int), (digits 10 0 l).2.2) else (0, s)
  | [] => (0, [])

/-- Digits with at most one point among them: value of the digits, how many there are, how many of
them are behind the point, the rest. -/
def mantissa (base : Nat) (s : List Nat) : Nat × Nat × Nat × List Nat :=
  match (digits base 0 s).2.2 with
  | 46 :: l =>
    if (digits base 0 s).2.1 = 0 ∧ (digits base 0 l).2.1 = 0 then (0, 0, 0, s)
    else ((digits base (digits base 0 s).1 l).1, (digits base 0 s).2.1 + (digits base 0 l).2.1,
      (digits base 0 l).2.1, (digits base 0 l).2.2)
  | r => ((digits base 0 s).1, (digits base 0 s).2.1, 0, r)

/-- n / (base ^ f) times b ^ x -/
def scaleQ (n base f b : Nat) (x : Int) : Q :=
  if 0 ≤ x then ⟨n * b ^ x.toNat, base ^ f⟩ else ⟨n, base ^ f * b ^ (-x).toNat⟩

/-- A decimal number. -/
def decLit (s : List Nat) : Option (Lit × List Nat) :=
  if (mantissa 10 s).2.1 = 0 then none
  else some (.num (scaleQ (mantissa 10 s).1 10 (mantissa 10 s).2.2.1 10 (expo 101 (mantissa 10 s).2.2.2).1),
    (expo 101 (mantissa 10 s).2.2.2).2)

/-- A hexadecimal number, after "0x". -/
def hexLit (s : List Nat) : Option (Lit × List Nat) :=
  if (mantissa 16 s).2.1 = 0 then none
  else some (.num (scaleQ (mantissa 16 s).1 16 (mantissa 16 s).2.2.1 2 (expo 112 (mantissa 16 s).2.2.2).1),
    (expo 112 (mantissa 16 s).2.2.2).2)

/-- What follows the sign. -/
def body (s : List Nat) : Option (Lit × List Nat) :=
  if startsWith [105, 110, 102, 105, 110, 105, 116, 121] s then some (.inf, s.drop 8)
  else if startsWith [105, 110, 102] s then some (.inf, s.drop 3)
  else if startsWith [110, 97, 110] s then some (.nan, nanRest (s.drop 3))
  else if startsWith [48, 120] s then
    match hexLit (s.drop 2) with
    | some r => some r
    | none => decLit s
  else decLit s

/-- strtold(3): sign, literal and rest; `none` if there is no number. -/
def lit (s : List Nat) : Option (Bool × Lit × List Nat) :=
  match s.dropWhile isWs with
  | 45 :: l => (body l).map (fun r => (true, r.1, r.2))
  | 43 :: l => (body l).map (fun r => (false, r.1, r.2))
  | l => (body l).map (fun r => (false, r.1, r.2))

/-- A fraction divided by 2 ^ e, as a fraction. -/
def scaled (q : Q) (e : Int) : Q :=
  if 0 ≤ e then ⟨q.n, q.d * 2 ^ e.toNat⟩ else ⟨q.n * 2 ^ (-e).toNat, q.d⟩

/-- A first guess at the exponent. -/
def exp0 (q : Q) : Int := (Nat.log2 q.n : Int) - (Nat.log2 q.d : Int) - 63

/-- The exponent with which the significand has 64 bits. -/
def exponent (q : Q) : Int :=
  if 2 ^ 63 * (scaled q (exp0 q)).d ≤ (scaled q (exp0 q)).n then exp0 q else exp0 q - 1

/-- Rounding to the nearest whole number, ties to even. -/
def nearest (q : Q) : Nat :=
  if q.d < 2 * (q.n % q.d) ∨ (2 * (q.n % q.d) = q.d ∧ q.n / q.d % 2 = 1) then q.n / q.d + 1 else q.n / q.d

/-- Rounding to long double: m times 2 ^ e.  Numbers below 2 ^ -16382 have fewer bits in fact; all of
them come out as 0 in the end either way. -/
def round (q : Q) : Nat × Int :=
  if q.n = 0 then (0, 0) else (nearest (scaled q (exponent q)), exponent q)

/-- Whole part of m times 2 ^ e. -/
def whole (m : Nat) (e : Int) : Nat := if 0 ≤ e then m * 2 ^ e.toNat else m / 2 ^ (-e).toNat

/-- errno is ERANGE: too large for a long double, or too small and not exact. -/
def erange (q : Q) : Bool :=
  q.n != 0 && (decide (16384 ≤ (round q).2 + 63 + (if (round q).1 = 2 ^ 64 then 1 else 0)) ||
    (decide ((round q).2 + 63 < -16382) && (q.n * 2 ^ 16445 % q.d != 0)))

/-! ### Sizes -/

/-- A command ends with an error, does something the C language does not define, or goes on. -/
inductive Out (α : Type) where
  | die
  | undef
  | ok (v : α)
  deriving DecidableEq

/-- The suffix, cmd/cmdutils.c:449-470: power of two. -/
def suffix (r : List Nat) : Option Nat :=
  match r with
  | [] => some 0
  | [c] =>
    if upper c = 75 then some 10 else if upper c = 77 then some 20 else if upper c = 71 then some 30
    else if upper c = 84 then some 40 else if upper c = 80 then some 50 else none
  | _ => none

/-- The conversion to long, cmd/cmdutils.c:475: not defined unless the whole part fits. -/
def toLong (neg : Bool) (v : Nat) : Out Int :=
  if neg then (if 2 ^ 63 < v then .undef else .ok (-(v : Int)))
  else (if 2 ^ 63 ≤ v then .undef else .ok (v : Int))

/-- cmd/cmdutils.c:434-480 `cmd_parse_str_as_size`.  The multiplication is by a power of two, thus
exact.  Line 472: only the whole part is compared with zero. -/
def parseSize (s : List Nat) : Out Int :=
  match lit s with
  | none => .die
  | some (_, .nan, _) => .die
  | some (neg, .inf, r) =>
    match suffix r with
    | none => .die
    | some _ => if neg then .die else .undef
  | some (neg, .num q, r) =>
    if erange q then .die
    else match suffix r with
      | none => .die
      | some k =>
        if neg = true ∧ whole (round q).1 (round q).2 ≠ 0 then .die
        else toLong neg (whole (round q).1 ((round q).2 + k))

/-! ### mkfs -/

/-- cmd/mkfs.c:49-89 `cmd_mkfs_parse_optargs`, the sizes given with "-s" in turn, starting from the -1
of cmd/mkfs.c:221-224; cmd/optargs.c:290-295 `cmd_require_arg_size`. -/
def mkfsArg : List (List Nat) → Int → Out Nat
  | [], v => if v < 0 then .die else .ok v.toNat
  | s :: l, _ =>
    match parseSize s with
    | .die => .die
    | .undef => .undef
    | .ok v => mkfsArg l v

/-- lib/execlib.c:1346-1355 `check_fs_capacity` -/
def capOk (c : Nat) : Bool := !(c < 2147483648) && !(c > 70368744177664)

/-- lib/execlib.c:1390-1395 `calc_aligned_fs_cap` -/
def alignCap (c : Nat) : Nat := c / 16777216 * 16777216

/-- The capacity of what "mkfs" makes: cmd/mkfs.c:166-175 `cmd_mkfs_setup_fs_args`, lib/execlib.c:1357-1370
`check_want_capacity`, 1397-1420 `format_umeta`. -/
def mkfsCap (sizes : List (List Nat)) : Out Nat :=
  match mkfsArg sizes (-1) with
  | .die => .die
  | .undef => .undef
  | .ok c => if capOk c then .ok (alignCap c) else .die

/-! ### Numbers and booleans -/

/-- cmd/cmdutils.c:498-507 `cmd_parse_str_as_u32`, 509-518 `cmd_parse_str_as_u32v` -/
def parseU32v (lo hi : Nat) (s : List Nat) : Out Nat :=
  match Idsconf.parseLong s with
  | none => .die
  | some v =>
    if v < 0 ∨ 4294967295 < v then .die
    else if v.toNat < lo ∨ hi < v.toNat then .die else .ok v.toNat

/-- cmd/cmdutils.c:542-554 `cmd_parse_str_as_bool` -/
def parseBool (s : List Nat) : Out Bool :=
  if s = [48] ∨ s = [102, 97, 108, 115, 101] then .ok false
  else if s = [49] ∨ s = [116, 114, 117, 101] then .ok true
  else .die

/-! ### Paths -/

/-- Position of the last '/', strrchr(3). -/
def rchr (c : Nat) : List Nat → Option Nat
  | [] => none
  | b :: l =>
    match rchr c l with
    | some i => some (i + 1)
    | none => if b = c then some 0 else none

/-- cmd/cmdutils.c:678-700 `cmd_split_path` -/
def splitPath (cwd path : List Nat) : Out (List Nat × List Nat) :=
  match rchr 47 path with
  | none => .ok (cwd, path)
  | some i =>
    if (path.drop (i + 1)).length = 0 then .die
    else if i = 0 then .die
    else .ok (path.take i, path.drop (i + 1))

/-- Bytes written into memory. -/
def put (b : List Nat) (off : Nat) (l : List Nat) : List Nat := b.take off ++ l ++ b.drop (off + l.length)

/-- cmd/cmdutils.c:193-205 `cmd_joinpath_safe`: the string in the memory. -/
def joinPath (path name : List Nat) : List Nat :=
  (put (put (put (put (List.replicate (path.length + name.length + 2) 0) 0 path) (1 + path.length) name)
    path.length [47]) (path.length + name.length + 1) [0]).takeWhile (· != 0)

end Silofs.Cv
