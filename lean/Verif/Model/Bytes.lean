/-
Byte-level helpers shared by the models: fixed-width little- and big-endian
integers and hexadecimal text (include/silofs/addr/htox.h, lib/str/ascii.c).
A byte is a natural number below 256.
-/
namespace Silofs

/-- A list of `n` bytes. -/
def IsBytes (n : Nat) (l : List Nat) : Prop := l.length = n ∧ ∀ b ∈ l, b < 256

/-- Little-endian encoding of the low `8*n` bits of `v`
(include/silofs/addr/htox.h:24-60 `silofs_cpu_to_le16/32/64` stored to memory). -/
def leBytes : Nat → Nat → List Nat
  | 0, _ => []
  | n + 1, v => v % 256 :: leBytes n (v / 256)

/-- Value of a little-endian byte string (`silofs_le*_to_cpu`). -/
def leVal : List Nat → Nat
  | [] => 0
  | b :: l => b + 256 * leVal l

theorem leBytes_length (n v : Nat) : (leBytes n v).length = n := by
  induction n generalizing v with
  | zero => rfl
  | succ n ih => simp [leBytes, ih]

theorem leBytes_lt (n v : Nat) : ∀ b ∈ leBytes n v, b < 256 := by
  induction n generalizing v with
  | zero => simp [leBytes]
  | succ n ih =>
    intro b hb
    simp only [leBytes, List.mem_cons] at hb
    rcases hb with rfl | hb
    · exact Nat.mod_lt _ (by decide)
    · exact ih _ _ hb

theorem leBytes_isBytes (n v : Nat) : IsBytes n (leBytes n v) :=
  ⟨leBytes_length n v, leBytes_lt n v⟩

theorem leVal_leBytes (n v : Nat) : leVal (leBytes n v) = v % 256 ^ n := by
  induction n generalizing v with
  | zero => simp [leBytes, leVal, Nat.mod_one]
  | succ n ih =>
    rw [leBytes, leVal, ih, Nat.pow_succ, Nat.mul_comm (256 ^ n) 256, Nat.mod_mul]

theorem leVal_lt (l : List Nat) (h : ∀ b ∈ l, b < 256) : leVal l < 256 ^ l.length := by
  induction l with
  | nil => simp [leVal]
  | cons b l ih =>
    have h1 := ih (fun x hx => h x (by simp [hx]))
    have h2 := h b (by simp)
    simp only [leVal, List.length_cons, Nat.pow_succ]
    omega

theorem leBytes_leVal (l : List Nat) (h : ∀ b ∈ l, b < 256) : leBytes l.length (leVal l) = l := by
  induction l with
  | nil => rfl
  | cons b l ih =>
    have h1 := ih (fun x hx => h x (by simp [hx]))
    have h2 := h b (by simp)
    simp only [List.length_cons, leBytes, leVal]
    have e1 : (b + 256 * leVal l) % 256 = b := by omega
    have e2 : (b + 256 * leVal l) / 256 = leVal l := by omega
    rw [e1, e2, h1]

/-- Two's complement view of an `int64_t` stored as `uint64_t`. -/
def toU64 (x : Int) : Nat := (x % 18446744073709551616).toNat
/-- And back. -/
def toI64 (u : Nat) : Int := if u < 9223372036854775808 then (u : Int) else (u : Int) - 18446744073709551616
/-- `int64_t` range. -/
def IsI64 (x : Int) : Prop := -9223372036854775808 ≤ x ∧ x < 9223372036854775808

theorem toU64_lt (x : Int) : toU64 x < 18446744073709551616 := by unfold toU64; omega

theorem toI64_toU64 (x : Int) (h : IsI64 x) : toI64 (toU64 x) = x := by
  unfold IsI64 at h; unfold toI64 toU64; split <;> omega

/-! ### Hexadecimal text, lib/str/ascii.c -/

/-- lib/str/ascii.c:21-63 `silofs_nibble_to_ascii`. -/
def nibToAscii (n : Nat) : Nat := if n % 16 < 10 then 48 + n % 16 else 97 + (n % 16 - 10)

/-- lib/str/ascii.c:65-107 `silofs_ascii_to_nibble` (`none` is -1); the character
is first lowered by `tolower` (C locale). -/
def asciiToNib (c : Nat) : Option Nat :=
  if 48 ≤ c ∧ c ≤ 57 then some (c - 48)
  else if 97 ≤ c ∧ c ≤ 102 then some (c - 97 + 10)
  else if 65 ≤ c ∧ c ≤ 70 then some (c - 65 + 10)
  else none

/-- lib/str/ascii.c:109-113 `silofs_byte_to_ascii`. -/
def byteToAscii (b : Nat) : List Nat := [nibToAscii (b / 16), nibToAscii b]

/-- lib/str/ascii.c:115-134 `silofs_ascii_to_byte`. -/
def asciiToByte (a b : Nat) : Option Nat :=
  match asciiToNib a, asciiToNib b with
  | some x, some y => some (x * 16 + y)
  | _, _ => none

theorem asciiToNib_nib (n : Nat) : asciiToNib (nibToAscii n) = some (n % 16) := by
  unfold nibToAscii asciiToNib
  have : n % 16 < 16 := Nat.mod_lt _ (by decide)
  split <;> (repeat' split) <;> (try omega) <;> (simp; try omega)

theorem asciiToByte_byte (b : Nat) (h : b < 256) :
    asciiToByte (nibToAscii (b / 16)) (nibToAscii b) = some b := by
  simp only [asciiToByte, asciiToNib_nib, Option.some.injEq]
  omega

/-- lib/str/ascii.c:168-182 `silofs_mem_to_ascii` into a buffer of `asz` chars. -/
def memToAscii : List Nat → Nat → List Nat
  | [], _ => []
  | b :: rest, asz => if 2 > asz then [] else byteToAscii b ++ memToAscii rest (asz - 2)

/-- lib/str/ascii.c:184-203 `silofs_ascii_to_mem` into a buffer of `msz` bytes:
decoded bytes and whether an error was hit. -/
def asciiToMem : List Nat → Nat → List Nat × Bool
  | a :: b :: rest, msz =>
    if msz = 0 then ([], false)
    else match asciiToByte a b with
      | none => ([], true)
      | some v => (v :: (asciiToMem rest (msz - 1)).1, (asciiToMem rest (msz - 1)).2)
  | _, _ => ([], false)

theorem memToAscii_length (l : List Nat) (n : Nat) (h : 2 * l.length ≤ n) :
    (memToAscii l n).length = 2 * l.length := by
  induction l generalizing n with
  | nil => rfl
  | cons b l ih =>
    simp only [List.length_cons] at h
    rw [memToAscii, if_neg (by omega), List.length_append, ih _ (by omega)]
    simp [byteToAscii]; omega

/-- Text never exceeds the given buffer. -/
theorem memToAscii_bound (l : List Nat) (n : Nat) : (memToAscii l n).length ≤ n := by
  induction l generalizing n with
  | nil => simp [memToAscii]
  | cons b l ih =>
    rw [memToAscii]
    split
    · simp
    · have := ih (n - 2)
      simp [byteToAscii]; omega

theorem asciiToMem_bound (t : List Nat) (m : Nat) : (asciiToMem t m).1.length ≤ m := by
  fun_induction asciiToMem t m <;> simp_all
  omega

theorem asciiToMem_memToAscii (l : List Nat) (hb : ∀ b ∈ l, b < 256) (n m : Nat)
    (hn : 2 * l.length ≤ n) (hm : l.length ≤ m) :
    asciiToMem (memToAscii l n) m = (l, false) := by
  induction l generalizing n m with
  | nil => simp [memToAscii, asciiToMem]
  | cons b l ih =>
    simp only [List.length_cons] at hn hm
    rw [memToAscii, if_neg (by omega)]
    simp only [byteToAscii, List.cons_append, List.nil_append]
    rw [asciiToMem, if_neg (by omega), asciiToByte_byte b (hb b (by simp))]
    simp only
    rw [ih (fun x hx => hb x (by simp [hx])) _ _ (by omega) (by omega)]

end Silofs
