/-
Views of text, lib/str/strview.c, and the scans of characters below them, lib/str/strchr.c.

A view is a place and a length inside one memory object, which is a list of bytes.  A function
returns `none` where the code reads outside the object.  A pointer into the object is its index,
a null pointer is `none`.  Characters are bytes; their sign does not matter to any function here.
-/
namespace Silofs.Sv

/-- The memory object. -/
abbrev Buf := List Nat

/-- include/silofs/str/strview.h `struct silofs_strview` -/
structure View where
  pos : Nat
  len : Nat
  deriving DecidableEq, Repr

/-- lib/str/strview.c:41-49 `silofs_strview_max_size`, `silofs_strview_npos` -/
def npos : Nat := 4611686018427387903

/-- The loop of lib/str/strchr.c:126-137 `silofs_str_find_first_of`, 139-150
`silofs_str_find_first_not_of`, 152-162 `silofs_str_find_first_not_eq` and of memchr(3) (80-83
`silofs_str_find_chr`): the first of `n` characters from `p` on which passes the test. -/
def scan (b : Buf) (f : Nat → Bool) : Nat → Nat → Option (Option Nat)
  | 0, _ => some none
  | n + 1, p =>
    match b[p]? with
    | none => none
    | some x => if f x then some (some p) else scan b f n (p + 1)

/-- The loop of lib/str/strchr.c:177-188 `silofs_str_find_last_not_of`, 190-198
`silofs_str_find_last_not_eq`: from the end, `n` characters at `p`. -/
def scanBack (b : Buf) (f : Nat → Bool) : Nat → Nat → Option (Option Nat)
  | 0, _ => some none
  | n + 1, p =>
    match b[p + n]? with
    | none => none
    | some x => if f x then some (some (p + n)) else scanBack b f n p

/-- lib/str/strchr.c:63-66 `silofs_str_compare` is zero -/
def same (b : Buf) (p : Nat) (s : List Nat) : Option Bool :=
  if p + s.length ≤ b.length then some ((b.drop p).take s.length == s) else none

/-- lib/str/strchr.c:92-98, the loop over `n` places from `p` on. -/
def findLoop (b : Buf) (s : List Nat) : Nat → Nat → Option (Option Nat)
  | 0, _ => some none
  | n + 1, p =>
    match same b p s with
    | none => none
    | some true => some (some p)
    | some false => findLoop b s n (p + 1)

/-- lib/str/strchr.c:85-100 `silofs_str_find` -/
def strFind (b : Buf) (p n : Nat) (s : List Nat) : Option (Option Nat) :=
  if s.length = 0 ∨ n < s.length then some none
  else findLoop b s (n - s.length + 1) p

/-- lib/str/strview.c:115-131 `silofs_strview_offset` -/
def offset (v : View) (p : Option Nat) : Nat :=
  match p with
  | none => npos
  | some p => if p < v.pos then npos else if v.pos + v.len ≤ p then npos else p - v.pos

/-- lib/str/strview.c:260-271 `silofs_strview_find_chr` -/
def findChr (b : Buf) (v : View) (pos c : Nat) : Option Nat :=
  if pos < v.len then
    match scan b (fun x => x == c) (v.len - pos) (v.pos + pos) with
    | none => none
    | some p => some (offset v p)
  else some (offset v none)

/-- lib/str/strview.c:240-258 `silofs_strview_nfind` -/
def find (b : Buf) (v : View) (pos : Nat) (s : List Nat) : Option Nat :=
  if pos < v.len then
    if 1 < s.length then
      match strFind b (v.pos + pos) (v.len - pos) s with
      | none => none
      | some p => some (offset v p)
    else if s.length = 1 then
      match scan b (fun x => x == s.headD 0) (v.len - pos) (v.pos + pos) with
      | none => none
      | some p => some (offset v p)
    else some (offset v (some (v.pos + pos)))
  else some (offset v none)

/-- lib/str/strview.c:320-337 `silofs_strview_nfind_first_of` -/
def findFirstOf (b : Buf) (v : View) (pos : Nat) (s : List Nat) : Option Nat :=
  if s.length ≠ 0 ∧ pos < v.len then
    if s.length = 1 then
      match scan b (fun x => x == s.headD 0) (v.len - pos) (v.pos + pos) with
      | none => none
      | some p => some (offset v p)
    else
      match scan b (fun x => s.contains x) (v.len - pos) (v.pos + pos) with
      | none => none
      | some p => some (offset v p)
  else some (offset v none)

/-- lib/str/strview.c:377-398 `silofs_strview_nfind_first_not_of` -/
def findFirstNotOf (b : Buf) (v : View) (pos : Nat) (s : List Nat) : Option Nat :=
  if pos < v.len then
    if s.length = 0 then some (offset v (some (v.pos + pos)))
    else if s.length = 1 then
      match scan b (fun x => !(x == s.headD 0)) (v.len - pos) (v.pos + pos) with
      | none => none
      | some p => some (offset v p)
    else
      match scan b (fun x => !s.contains x) (v.len - pos) (v.pos + pos) with
      | none => none
      | some p => some (offset v p)
  else some (offset v none)

/-- lib/str/strview.c:421-441 `silofs_strview_nfind_last_not_of` -/
def findLastNotOf (b : Buf) (v : View) (pos : Nat) (s : List Nat) : Option Nat :=
  if v.len ≠ 0 then
    if s.length = 0 then
      some (offset v (some (v.pos + (if pos < v.len then pos + 1 else v.len) - 1)))
    else if s.length = 1 then
      match scanBack b (fun x => !(x == s.headD 0)) (if pos < v.len then pos + 1 else v.len) v.pos with
      | none => none
      | some p => some (offset v p)
    else
      match scanBack b (fun x => !s.contains x) (if pos < v.len then pos + 1 else v.len) v.pos with
      | none => none
      | some p => some (offset v p)
  else some (offset v none)

/-- lib/str/strview.c:457-466 `silofs_strview_sub` -/
def sub (v : View) (i n : Nat) : View :=
  ⟨v.pos + min i v.len, min n (v.len - min i v.len)⟩

/-- lib/str/strview.c:468-477 `silofs_strview_rsub`; the difference is a size of 64 bits. -/
def rsub (v : View) (n : Nat) : View :=
  ⟨v.pos + (v.len + 18446744073709551616 - n) % 18446744073709551616, min n v.len⟩

/-- lib/str/strview.c:515-521 `strview_make_split_pair` -/
def mkPair (v : View) (i1 n1 i2 n2 : Nat) : View × View := (sub v i1 n1, sub v i2 n2)

/-- lib/str/strview.c:530-542 `silofs_strview_nsplit` -/
def split (b : Buf) (v : View) (seps : List Nat) : Option (View × View) :=
  match findFirstOf b v 0 seps with
  | none => none
  | some i =>
    if i < v.len then
      match findFirstNotOf b v i seps with
      | none => none
      | some j => some (mkPair v 0 i j v.len)
    else some (mkPair v 0 i v.len v.len)

/-- lib/str/strview.c:544-552 `silofs_strview_split_chr` -/
def splitChr (b : Buf) (v : View) (c : Nat) : Option (View × View) :=
  match findChr b v 0 c with
  | none => none
  | some i => some (mkPair v 0 i (if i < v.len then i + 1 else v.len) v.len)

/-- lib/str/strview.c:554-562 `silofs_strview_split_str` -/
def splitStr (b : Buf) (v : View) (s : List Nat) : Option (View × View) :=
  match find b v 0 s with
  | none => none
  | some i => some (mkPair v 0 i (if i < v.len then i + s.length else v.len) v.len)

/-- lib/str/strview.c:617-625 `silofs_strview_ntrim_any_of` -/
def trim (b : Buf) (v : View) (set : List Nat) : Option View :=
  match findFirstNotOf b v 0 set with
  | none => none
  | some i => some (sub v i v.len)

/-- lib/str/strview.c:654-662 `silofs_strview_nchop_any_of` -/
def chop (b : Buf) (v : View) (set : List Nat) : Option View :=
  match findLastNotOf b v v.len set with
  | none => none
  | some j => some (sub v 0 (if j < v.len then j + 1 else 0))

/-- lib/str/strview.c:682-690 `silofs_strview_nstrip_any_of` -/
def strip (b : Buf) (v : View) (set : List Nat) : Option View :=
  match trim b v set with
  | none => none
  | some u => chop b u set

/-- " \n\t\r\v\f", lib/str/strview.c:701-707 `silofs_strview_strip_ws` -/
def stripWs (b : Buf) (v : View) : Option View := strip b v [32, 10, 9, 13, 11, 12]

/-- lib/str/strview.c:183-193 `silofs_strview_nisequal` -/
def isEqual (b : Buf) (v : View) (s : List Nat) : Option Bool :=
  if v.len ≠ s.length then some false else same b v.pos s

/-- lib/str/strview.c:852-858 `silofs_strview_starts_with` -/
def startsWith (b : Buf) (v : View) (c : Nat) : Option Bool :=
  if 0 < v.len then
    match b[v.pos]? with
    | none => none
    | some x => some (x == c)
  else some false

/-- lib/str/strview.c:883-889 `silofs_strview_ends_with` -/
def endsWith (b : Buf) (v : View) (c : Nat) : Option Bool :=
  if 0 < v.len then
    match b[v.pos + (v.len - 1)]? with
    | none => none
    | some x => some (x == c)
  else some false

/-- lib/str/strview.c:971-983 `silofs_strview_test_if`, 1029-1032 `silofs_strview_isascii`: the
first character which fails the test ends the loop. -/
def isAscii (b : Buf) (v : View) : Option Bool :=
  match scan b (fun x => decide (128 ≤ x)) v.len v.pos with
  | none => none
  | some none => some true
  | some (some _) => some false

/-- lib/str/strview.c:147-158 `silofs_strview_copyto` into a buffer of `n` bytes holding zeros: what
the buffer holds afterwards, and the length copied. -/
def copyTo (b : Buf) (v : View) (n : Nat) : Option (List Nat × Nat) :=
  if v.pos + min n v.len ≤ b.length then
    some ((b.drop v.pos).take (min n v.len) ++ List.replicate (n - min n v.len) 0, min n v.len)
  else none

end Silofs.Sv
