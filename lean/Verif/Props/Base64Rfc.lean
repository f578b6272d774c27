import Verif.Model.Base64
/-
C28: the encoder produces exactly the text RFC 4648 (section 4) prescribes, so that any other
implementation can read it.
-/
namespace Silofs.Base64

/-- The bits of an octet string, most significant first. -/
def bits : List Nat → List Nat
  | [] => []
  | b :: l => [b / 128 % 2, b / 64 % 2, b / 32 % 2, b / 16 % 2, b / 8 % 2, b / 4 % 2, b / 2 % 2, b % 2] ++ bits l

/-- Groups of six bits, the last filled up with zero bits on the right. -/
def groups : List Nat → List Nat
  | a :: b :: c :: d :: e :: f :: l => (32 * a + 16 * b + 8 * c + 4 * d + 2 * e + f) :: groups l
  | [] => []
  | l =>
    let g := fun i => l.getD i 0
    [32 * g 0 + 16 * g 1 + 8 * g 2 + 4 * g 3 + 2 * g 4]

/-- Table 1 of the RFC. -/
def letter (v : Nat) : Nat :=
  if v < 26 then v + 'A'.toNat
  else if v < 52 then v - 26 + 'a'.toNat
  else if v < 62 then v - 52 + '0'.toNat
  else if v = 62 then '+'.toNat else '/'.toNat

/-- The text: one letter per group, filled up with '=' to a multiple of four. -/
def rfc (l : List Nat) : List Int :=
  let t := (groups (bits l)).map (fun v => (letter v : Int))
  t ++ List.replicate ((4 - t.length % 4) % 4) ('='.toNat : Int)

theorem letter_all : ∀ s, s < 64 → encTbl.getD s 0 = letter s := by decide

theorem encSext_letter (s : Nat) : encSext s = (letter (s % 64) : Int) := by
  unfold encSext
  rw [letter_all _ (Nat.mod_lt _ (by decide))]

theorem rfc_cons (a b c : Nat) (l : List Nat) (ha : a < 256) (hb : b < 256) (hc : c < 256) :
    rfc (a :: b :: c :: l) = encHead3 a b c ++ rfc l := by
  have h1 : 32 * (a / 128 % 2) + 16 * (a / 64 % 2) + 8 * (a / 32 % 2) + 4 * (a / 16 % 2) + 2 * (a / 8 % 2) + a / 4 % 2
      = (a / 4) % 64 := by omega
  have h2 : 32 * (a / 2 % 2) + 16 * (a % 2) + 8 * (b / 128 % 2) + 4 * (b / 64 % 2) + 2 * (b / 32 % 2) + b / 16 % 2
      = (a * 16 + b / 16) % 64 := by omega
  have h3 : 32 * (b / 8 % 2) + 16 * (b / 4 % 2) + 8 * (b / 2 % 2) + 4 * (b % 2) + 2 * (c / 128 % 2) + c / 64 % 2
      = (b * 4 + c / 64) % 64 := by omega
  have h4 : 32 * (c / 32 % 2) + 16 * (c / 16 % 2) + 8 * (c / 8 % 2) + 4 * (c / 4 % 2) + 2 * (c / 2 % 2) + c % 2
      = c % 64 := by omega
  simp only [rfc, bits, List.cons_append, List.nil_append, groups, List.map_cons, List.length_cons, h1, h2, h3, h4]
  simp only [encHead3, encSext_letter, List.cons_append, List.nil_append, List.length_map]
  have h5 : ∀ n : Nat, (4 - (n + 1 + 1 + 1 + 1) % 4) % 4 = (4 - n % 4) % 4 := by omega
  rw [h5]

/-- C28: for every octet string, the encoder's text is the one of the RFC. -/
theorem C28_encode_rfc (l : List Nat) (hb : ∀ b ∈ l, b < 256) : encBody l = rfc l := by
  fun_induction encBody l with
  | case1 a b c rest ih =>
    rw [rfc_cons a b c rest (hb a (by simp)) (hb b (by simp)) (hb c (by simp)), ih (fun x hx => hb x (by simp [hx]))]
  | case2 a b =>
    have ha : a < 256 := hb a (by simp)
    have hb' : b < 256 := hb b (by simp)
    have h1 : 32 * (a / 128 % 2) + 16 * (a / 64 % 2) + 8 * (a / 32 % 2) + 4 * (a / 16 % 2) + 2 * (a / 8 % 2) + a / 4 % 2
        = (a / 4) % 64 := by omega
    have h2 : 32 * (a / 2 % 2) + 16 * (a % 2) + 8 * (b / 128 % 2) + 4 * (b / 64 % 2) + 2 * (b / 32 % 2) + b / 16 % 2
        = (a * 16 + b / 16) % 64 := by omega
    have h3 : 32 * (b / 8 % 2) + 16 * (b / 4 % 2) + 8 * (b / 2 % 2) + 4 * (b % 2) + 2 * 0
        = (b * 4) % 64 := by omega
    simp only [rfc, bits, List.cons_append, List.nil_append, groups, List.map_cons, List.length_cons, h1, h2,
      List.getD_cons_zero, List.getD_cons_succ, List.getD_nil, h3, List.map_nil, List.length_nil, encSext_letter]
    rfl
  | case3 a =>
    have ha : a < 256 := hb a (by simp)
    have h1 : 32 * (a / 128 % 2) + 16 * (a / 64 % 2) + 8 * (a / 32 % 2) + 4 * (a / 16 % 2) + 2 * (a / 8 % 2) + a / 4 % 2
        = (a / 4) % 64 := by omega
    have h2 : 32 * (a / 2 % 2) + 16 * (a % 2) + 8 * 0 + 4 * 0 + 2 * 0 = (a * 16) % 64 := by omega
    simp only [rfc, bits, List.cons_append, List.nil_append, groups, List.map_cons, List.length_cons, h1,
      List.getD_cons_zero, List.getD_cons_succ, List.getD_nil, h2, List.map_nil, List.length_nil, encSext_letter]
    rfl
  | case4 => rfl

/-- RFC 4648, section 10: "foob" is "Zm9vYg==". -/
example : rfc [102, 111, 111, 98] = [90, 109, 57, 118, 89, 103, 61, 61] := by decide

end Silofs.Base64
