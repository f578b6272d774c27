/-
Model of lib/infra/base64.c.

Bytes are natural numbers below 256, characters of the text are `Int`s (the
value of a C `char`, which is signed on the supported x86-64 platform, so text
bytes >= 0x80 are negative).
-/
namespace Silofs.Base64

/-- lib/infra/base64.c:31-32 `base64_encode_tbl` (ASCII codes). -/
def encTbl : List Nat :=
  [65,66,67,68,69,70,71,72,73,74,75,76,77,78,79,80,81,82,83,84,85,86,87,88,89,90,
   97,98,99,100,101,102,103,104,105,106,107,108,109,110,111,112,113,114,115,116,
   117,118,119,120,121,122,48,49,50,51,52,53,54,55,56,57,43,47]

/-- lib/infra/base64.c:69-72 `base64_encode_sext`: the argument is truncated to
`uint8_t` and masked with 0x3F, i.e. reduced modulo 64. -/
def encSext (s : Nat) : Int := (encTbl.getD (s % 64) 0 : Nat)

/-- lib/infra/base64.c:95-114 `base64_encode_head`, one round of the loop. -/
def encHead3 (a b c : Nat) : List Int :=
  [encSext (a / 4), encSext (a * 16 + b / 16), encSext (b * 4 + c / 64), encSext c]

/-- '=' -/
def pad : Int := 61

/-- lib/infra/base64.c:152-174 body of `silofs_base64_encode`: full triples by
`base64_encode_head` (95-114), the rest by `base64_encode_tail` (116-150).
The tail routine is always called with `outlen` 0 (nothing left) or 4, so the
early exits for `outlen` 1..3 are unreachable and not modelled. -/
def encBody : List Nat → List Int
  | a :: b :: c :: rest => encHead3 a b c ++ encBody rest
  | [a, b] => [encSext (a / 4), encSext (a * 16 + b / 16), encSext (b * 4), pad]
  | [a] => [encSext (a / 4), encSext (a * 16), pad, pad]
  | [] => []

/-- lib/infra/base64.c:27 `BASE64_ENCODE_LEN`. -/
def encLen (n : Nat) : Nat := (n + 2) / 3 * 4

/-- lib/infra/base64.c:152-181 `silofs_base64_encode`: `none` is `-EINVAL`.  The
result is everything written to the output buffer (including the terminating
NUL when there is room) together with `*out_len`. -/
def encode (inp : List Nat) (outMax : Nat) : Option (List Int × Nat) :=
  let outlen := encLen inp.length
  if outlen > outMax then none
  else some (encBody inp ++ (if outlen < outMax then [0] else []), outlen)

/-- Outcome of decoding one character. -/
inductive SextRes where
  | ok (s : Nat)
  | einval
  | ub
  deriving Repr, DecidableEq

/-- lib/infra/base64.c:34-67 `base64_decode_tbl` minus the constant offset:
entries not listed are 0, i.e. -64 after subtracting `BASE64_DECODE_ADD`. -/
def decTbl (c : Nat) : Int :=
  if 65 ≤ c ∧ c ≤ 90 then c - 65
  else if 97 ≤ c ∧ c ≤ 122 then c - 97 + 26
  else if 48 ≤ c ∧ c ≤ 57 then c - 48 + 52
  else if c = 43 then 62
  else if c = 47 then 63
  else -64

/-- lib/infra/base64.c:79-93 `base64_decode_sext`.  There is no lower bound
check: a negative character indexes the table out of bounds (undefined
behaviour). -/
def decSext (c : Int) : SextRes :=
  if c ≥ 123 then .einval
  else if c < 0 then .ub
  else
    let s := decTbl c.toNat
    if s < 0 ∨ s > 63 then .einval else .ok s.toNat

/-- lib/infra/base64.c:183-195 `base64_decode_sextets` (`inb` = `s`, `cnt`). -/
def decSextets (s : List Nat) (cnt : Nat) : List Nat :=
  let g := fun i => s.getD i 0
  ([(g 0 * 4 + g 1 / 16) % 256, (g 1 * 16 + g 2 / 4) % 256, (g 2 * 64 + g 3) % 256]).take cnt

inductive DecRes where
  /-- decoded bytes, number of input characters read -/
  | ok (out : List Nat) (inrd : Nat)
  /-- `-EINVAL`; bytes already written, characters read -/
  | einval (out : List Nat) (inrd : Nat)
  | ub
  deriving Repr, DecidableEq

/-- lib/infra/base64.c:233-246: what happens after the loop. -/
def decFinish (outMax : Nat) (incnt : Nat) (sx : List Nat) (out : List Nat) : DecRes :=
  if sx.length ≠ 0 then
    if out.length + sx.length - 1 > outMax then .einval out incnt
    else .ok (out ++ decSextets sx (sx.length - 1)) incnt
  else .ok out incnt

/-- lib/infra/base64.c:209-232: the main loop of `silofs_base64_decode`.
In the C code `|` is used between disjoint bit ranges, here `+`. -/
def decLoop (outMax : Nat) : List Int → Nat → List Nat → Nat → List Nat → DecRes
  | [], incnt, sx, _, out => decFinish outMax incnt sx out
  | c :: rest, incnt, sx, npads, out =>
    if out.length < outMax ∧ npads < 2 then
      if c = pad then decLoop outMax rest (incnt + 1) sx (npads + 1) out
      else if npads > 0 then decFinish outMax incnt sx out
      else match decSext c with
        | .ub => .ub
        | .einval => .einval out incnt
        | .ok s =>
          let sx' := sx ++ [s]
          if out.length + sx'.length - 1 > outMax then .einval out incnt
          else if sx'.length = 4 then
            decLoop outMax rest (incnt + 1) [] npads (out ++ decSextets sx' 3)
          else decLoop outMax rest (incnt + 1) sx' npads out
    else decFinish outMax incnt sx out

/-- lib/infra/base64.c:197-247 `silofs_base64_decode`. -/
def decode (inp : List Int) (outMax : Nat) : DecRes := decLoop outMax inp 0 [] 0 []

end Silofs.Base64
