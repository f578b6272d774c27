import Verif.Model.Addr
/-
Text names of content-addressed objects: lib/addr/caddr.c:57-148 and
lib/addr/meta.c:356-392 (`silofs_hash256_to_name/by_name`).
-/
namespace Silofs.Caddr
open Silofs Silofs.Addr

/-- Digits of `n` in base `b` (most significant first, "0" for zero) as printed by
`%d` (b = 10) and `%x` (b = 16). -/
def digits (b : Nat) (n : Nat) : List Nat :=
  if _h : n < b ∨ b ≤ 1 then [nibToAscii n] else digits b (n / b) ++ [nibToAscii (n % b)]
termination_by n
decreasing_by
  have hb : 1 < b := by omega
  exact Nat.div_lt_self (by omega) hb

/-- "silofs.v" -/
def prefix_ : List Nat := [115, 105, 108, 111, 102, 115, 46, 118]

/-- lib/addr/caddr.c:61-80 `caddr_to_str`: `"silofs.v%d.%d.%x:"` + 64 hex digits
(the 256-character buffer is always large enough). -/
def toName (c : Caddr) : List Nat :=
  prefix_ ++ (digits 10 1 ++ ([46] ++ (digits 10 c.ctype ++ ([46] ++ (digits 16 c.size ++
    ([58] ++ memToAscii c.hash 255))))))

/-- lib/addr/caddr.c:82-100 `check_ctype_size`. -/
def checkCtypeSize (ctype size : Nat) : Bool :=
  if ctype = 1 then size == 1024
  else if ctype = 3 ∨ ctype = 2 then size % 1024 == 0
  else false

/-- One digit in base `b`. -/
def digitOf (b c : Nat) : Option Nat :=
  match asciiToNib c with
  | some d => if d < b then some d else none
  | none => none

/-- Scan a maximal run of digits: value, count of digits and rest.  Models `%d`
and `%x` of sscanf without sign, leading blanks and 0x prefix. -/
def scanNum (b : Nat) : List Nat → Nat → Nat → Nat × Nat × List Nat
  | [], acc, k => (acc, k, [])
  | c :: rest, acc, k =>
    match digitOf b c with
    | some d => scanNum b rest (acc * b + d) (k + 1)
    | none => (acc, k, c :: rest)

/-- Skip an exact literal. -/
def scanLit : List Nat → List Nat → Option (List Nat)
  | [], t => some t
  | x :: lit, y :: t => if x = y then scanLit lit t else none
  | _ :: _, [] => none

inductive Parse (α : Type) where
  | ok (a : α)
  | einval
  | eproto
  | eillstr
  deriving Repr, DecidableEq

/-- lib/addr/caddr.c:102-140 `caddr_from_str`, with lib/addr/meta.c:371-392
`silofs_hash256_by_name`; the text is given after blank stripping and the
ASCII check (lib/addr/caddr.c:140-151). -/
def byName (t : List Nat) : Parse Caddr :=
  if t.length ≥ 256 then .einval
  else match scanLit prefix_ t with
  | none => .einval
  | some t1 =>
    let (vers, k1, t2) := scanNum 10 t1 0 0
    if k1 = 0 then .einval else
    match scanLit [46] t2 with
    | none => .einval
    | some t3 =>
      let (ctype, k2, t4) := scanNum 10 t3 0 0
      if k2 = 0 then .einval else
      match scanLit [46] t4 with
      | none => .einval
      | some t5 =>
        let (size, k3, t6) := scanNum 16 t5 0 0
        if k3 = 0 then .einval else
        match scanLit [58] t6 with
        | none => .einval
        | some t7 =>
          let hname := t7.take 64
          if hname = [] then .einval
          else if vers ≠ 1 then .eproto
          else if checkCtypeSize ctype size = false then .eproto
          else
            let (hash, err) := asciiToMem hname 32
            if err then .einval
            else if hash.length ≠ 32 then .eillstr
            else .ok ⟨hash, size, ctype⟩

end Silofs.Caddr
