import Verif.Model.Addr
/-!
C27: every on-disk and text address encoding round-trips.
-/
namespace Silofs.Addr
open Silofs

theorem leVal_leBytes4 (v : Nat) (h : v < 4294967296) : leVal (leBytes 4 v) = v := by
  rw [leVal_leBytes]; exact Nat.mod_eq_of_lt h
theorem leVal_leBytes8 (v : Nat) (h : v < 18446744073709551616) : leVal (leBytes 8 v) = v := by
  rw [leVal_leBytes]; exact Nat.mod_eq_of_lt h

theorem take_app {α} (l r : List α) (n : Nat) (h : l.length = n) : (l ++ r).take n = l := by
  subst h; simp
theorem drop_app {α} (l r : List α) (n : Nat) (h : l.length = n) : (l ++ r).drop n = r := by
  subst h; simp
theorem drop_app_add {α} (l r : List α) (n m k : Nat) (h : l.length = n) (hk : k = n + m) :
    (l ++ r).drop k = r.drop m := by
  subst h; subst hk; simp
theorem getD_app {α} (l r : List α) (n m k : Nat) (d : α) (h : l.length = n) (hk : k = n + m) :
    (l ++ r).getD k d = r.getD m d := by
  subst h; subst hk; simp [List.getD_eq_getElem?_getD, List.getElem?_append_right]

/-- **C27 (object address)**: an object address of a valid kind with an aligned
non-negative offset survives its 8-byte on-disk form. -/
theorem C27_vaddr64_roundtrip (t : Nat) (off : Int) (ht0 : t ≠ LTYPE_NONE) (ht : t < 256)
    (h0 : 0 ≤ off) (h1 : off < 9223372036854775808) (ha : off % 256 = 0) :
    vaddr64Xtoh (vaddr64Htox (vaddrSetup t off)) = vaddrSetup t off := by
  have ht0' : 0 < t := Nat.pos_of_ne_zero ht0
  unfold vaddr64Xtoh vaddr64Htox voffLtype vaddrSetup
  simp only [ht0, ne_eq, not_false_eq_true, if_true]
  have hu : toU64 off < 9223372036854775808 ∧ (toU64 off : Int) = off := by
    unfold toU64; omega
  rw [leVal_leBytes8 _ (by omega)]
  have e1 : (toU64 off / 256 * 256 + t % 256) % 256 = t := by omega
  have e2 : (toU64 off / 256 * 256 + t % 256) / 256 * 256 = toU64 off := by omega
  rw [if_pos (by omega), e1, e2]
  congr 1
  unfold toI64; rw [if_pos hu.1]; exact hu.2

/-- The null object address decodes to null. -/
theorem C27_vaddr64_none : vaddr64Xtoh (vaddr64Htox vaddrNone) = vaddrNone := by decide

/-- **C27 (56-bit offsets)**: aligned offsets survive the 7-byte form, and the
decoder never hits undefined behaviour on what the encoder produced. -/
theorem C27_vaddr56_roundtrip (off : Int) (h0 : 0 ≤ off) (h1 : off < 9223372036854775808)
    (ha : off % 256 = 0) : vaddr56Xtoh (vaddr56Htox off) = some off := by
  unfold vaddr56Htox
  rw [if_pos h0]
  have hu : toU64 off < 9223372036854775808 ∧ (toU64 off : Int) = off := by
    unfold toU64; omega
  have hv : leVal (leBytes 7 (toU64 off / 256)) = toU64 off / 256 := by
    rw [leVal_leBytes]; exact Nat.mod_eq_of_lt (by omega)
  unfold vaddr56Xtoh
  rw [if_neg, hv, if_pos (by omega)]
  · congr 1; omega
  · intro he
    have : leVal (leBytes 7 (toU64 off / 256)) = leVal [255, 255, 255, 255, 255, 255, 255] := by
      rw [he]
    rw [hv] at this
    simp [leVal] at this
    omega

/-- Null offsets survive as null. -/
theorem C27_vaddr56_null (off : Int) (h : off < 0) : vaddr56Xtoh (vaddr56Htox off) = some (-1) := by
  unfold vaddr56Htox
  rw [if_neg (by omega)]
  rfl

/-- Distinct valid offsets have distinct stored forms. -/
theorem C27_vaddr56_injective (o1 o2 : Int) (h1 : 0 ≤ o1 ∧ o1 < 9223372036854775808 ∧ o1 % 256 = 0)
    (h2 : 0 ≤ o2 ∧ o2 < 9223372036854775808 ∧ o2 % 256 = 0) (he : vaddr56Htox o1 = vaddr56Htox o2) :
    o1 = o2 := by
  have e1 := C27_vaddr56_roundtrip o1 h1.1 h1.2.1 h1.2.2
  have e2 := C27_vaddr56_roundtrip o2 h2.1 h2.2.1 h2.2.2
  rw [he, e2] at e1
  exact (Option.some.inj e1).symm

/-- **C27 (ranges)**: a range of at most 2^58 bytes with a legal height survives its
16-byte form. -/
theorem C27_vrange_roundtrip (height : Nat) (beg : Int) (len : Nat) (hh : height < 16)
    (hl : len ≤ 288230376151711744) (hb : IsI64 beg) :
    vrange128Xtoh (vrange128Htox (vrangeSetup height beg (beg + len))) =
      vrangeSetup height beg (beg + len) := by
  have hul : toU64 (beg + len - beg) = len := by unfold toU64; omega
  simp only [vrange128Xtoh, vrange128Htox, vrangeSetup, hul]
  rw [take_app _ _ _ (leBytes_length _ _), drop_app _ _ _ (leBytes_length _ _),
    leVal_leBytes8 _ (toU64_lt _), toI64_toU64 _ hb]
  have hlh : lenHeight len height < 18446744073709551616 := by unfold lenHeight; omega
  rw [leVal_leBytes8 _ hlh]
  have e1 : lenHeight len height % 16 = height := by unfold lenHeight; omega
  have e2 : lenHeight len height / 16 = len := by unfold lenHeight; omega
  rw [e1, e2, hul]

theorem lsid32Htox_length (l : Lsid) (h : l.Fits) : (lsid32Htox l).length = 32 := by
  simp [lsid32Htox, leBytes_length, h.lvid.1]

theorem C27_lsid_roundtrip (l : Lsid) (h : l.Fits) : lsid32Xtoh (lsid32Htox l) = l := by
  have hl := h.lvid.1
  cases l with | mk lvid lsize vindex vspace height ltype =>
  simp only at hl
  simp only [lsid32Xtoh, lsid32Htox, Lsid.mk.injEq]
  refine ⟨take_app _ _ _ hl, ?_, ?_, ?_, ?_, ?_⟩
  · rw [drop_app _ _ _ hl, take_app _ _ _ (leBytes_length _ _), leVal_leBytes4 _ h.lsize]
  · rw [drop_app_add _ _ 16 4 20 hl rfl, drop_app _ _ _ (leBytes_length _ _),
      take_app _ _ _ (leBytes_length _ _), leVal_leBytes4 _ h.vindex]
  · rw [getD_app _ _ 16 8 24 0 hl rfl, getD_app _ _ 4 4 8 0 (leBytes_length _ _) rfl,
      getD_app _ _ 4 0 4 0 (leBytes_length _ _) rfl]
    simpa using Nat.mod_eq_of_lt h.vspace
  · rw [getD_app _ _ 16 9 25 0 hl rfl, getD_app _ _ 4 5 9 0 (leBytes_length _ _) rfl,
      getD_app _ _ 4 1 5 0 (leBytes_length _ _) rfl]
    simpa using Nat.mod_eq_of_lt h.height
  · rw [getD_app _ _ 16 10 26 0 hl rfl, getD_app _ _ 4 6 10 0 (leBytes_length _ _) rfl,
      getD_app _ _ 4 2 6 0 (leBytes_length _ _) rfl]
    simpa using Nat.mod_eq_of_lt h.ltype

theorem laddr48Htox_length (a : Laddr) (h : a.Fits) : (laddr48Htox a).length = 48 := by
  simp [laddr48Htox, leBytes_length, lsid32Htox_length _ h.lsid]

/-- **C27 (storage address)**: a storage address whose fields fit their on-disk
width survives its 48-byte form. -/
theorem C27_laddr_roundtrip (a : Laddr) (h : a.Fits) : laddr48Xtoh (laddr48Htox a) = a := by
  have hl := lsid32Htox_length _ h.lsid
  cases a with | mk lsid pos len =>
  have hp : ((toU32 pos : Nat) : Int) = pos ∧ toU32 pos < 4294967296 := by
    have := h.pos0; have := h.pos1; unfold toU32; simp only at *; omega
  simp only at hl
  simp only [laddr48Xtoh, laddr48Htox, Laddr.mk.injEq]
  refine ⟨?_, ?_, ?_⟩
  · rw [take_app _ _ _ hl]; exact C27_lsid_roundtrip _ h.lsid
  · rw [drop_app _ _ _ hl, take_app _ _ _ (leBytes_length _ _), leVal_leBytes4 _ hp.2, hp.1]
  · rw [drop_app_add _ _ 32 4 36 hl rfl, drop_app _ _ _ (leBytes_length _ _),
      take_app _ _ _ (leBytes_length _ _), leVal_leBytes4 _ h.len]

/-- **C27 (index-node address)**. -/
theorem C27_uaddr_roundtrip (u : Uaddr) (h : u.laddr.Fits) (hv : IsI64 u.voff) :
    uaddr64Xtoh (uaddr64Htox u) = u := by
  have hl := laddr48Htox_length _ h
  cases u with | mk laddr voff =>
  simp only at hl hv
  simp only [uaddr64Xtoh, uaddr64Htox, Uaddr.mk.injEq]
  refine ⟨?_, ?_⟩
  · rw [take_app _ _ _ hl]; exact C27_laddr_roundtrip _ h
  · rw [drop_app _ _ _ hl, take_app _ _ _ (leBytes_length _ _), leVal_leBytes8 _ (toU64_lt _),
      toI64_toU64 _ hv]

/-- **C27 (persistent address)**. -/
theorem C27_paddr_roundtrip (p : Paddr) (h : p.Fits) : paddr48Xtoh (paddr48Htox p) = p := by
  cases p with | mk psid off len ptype =>
  cases psid with | mk pvid index =>
  have hv : pvid.length = 16 := h.pvid.1
  have hl : (psid32Htox ⟨pvid, index⟩).length = 32 := by simp [psid32Htox, leBytes_length, hv]
  simp only [paddr48Xtoh, paddr48Htox, Paddr.mk.injEq]
  refine ⟨?_, ?_, ?_, ?_⟩
  · rw [take_app _ _ _ hl]
    simp only [psid32Xtoh, psid32Htox, Psid.mk.injEq]
    refine ⟨take_app _ _ _ hv, ?_⟩
    rw [drop_app _ _ _ hv, take_app _ _ _ (leBytes_length _ _), leVal_leBytes4 _ h.index]
  · rw [drop_app _ _ _ hl, take_app _ _ _ (leBytes_length _ _), leVal_leBytes8 _ (toU64_lt _),
      toI64_toU64 _ h.off]
  · rw [drop_app_add _ _ 32 8 40 hl rfl, drop_app _ _ _ (leBytes_length _ _),
      take_app _ _ _ (leBytes_length _ _), leVal_leBytes4 _ h.len]
  · rw [getD_app _ _ 32 12 44 0 hl rfl, getD_app _ _ 8 4 12 0 (leBytes_length _ _) rfl,
      getD_app _ _ 4 0 4 0 (leBytes_length _ _) rfl]
    simpa using Nat.mod_eq_of_lt h.ptype

/-- **C27 (content address)**, binary form. -/
theorem C27_caddr_roundtrip (c : Caddr) (h : c.Fits) : caddr64Xtoh (caddr64Htox c) = c := by
  cases c with | mk hash size ctype =>
  have hv : hash.length = 32 := h.hash.1
  simp only [caddr64Xtoh, caddr64Htox, Caddr.mk.injEq]
  refine ⟨take_app _ _ _ hv, ?_, ?_⟩
  · rw [drop_app _ _ _ hv, take_app _ _ _ (leBytes_length _ _), leVal_leBytes4 _ h.size]
  · rw [getD_app _ _ 32 4 36 0 hv rfl, getD_app _ _ 4 0 4 0 (leBytes_length _ _) rfl]
    simpa using Nat.mod_eq_of_lt h.ctype

/-! ### Addresses built by the file system fit the on-disk form -/

theorem lsegSize_le (h : Nat) : lsegSize h ≤ 16777216 := by
  unfold lsegSize; exact Nat.min_le_right _ _

/-- **C27 (construction)**: every storage address the file system constructs for an
object of a 2^56-byte volume survives its on-disk form: with a 16-byte volume
id, non-negative offset below 2^56 (at least when segments are 64K or larger)
and a length below 4G, nothing is truncated. -/
theorem C27_laddr_setup_roundtrip (lvid : List Nat) (hv : IsBytes 16 lvid) (voff : Int) (off : Int)
    (vspace height ltype len : Nat) (h1 : vspace < 256) (h2 : 1 ≤ height ∧ height ≤ 8)
    (h3 : ltype < 256) (hl : len < 4294967296) (ho : 0 ≤ off) :
    laddr48Xtoh (laddr48Htox (laddrSetup (lsidSetup lvid voff vspace height ltype) off len)) =
      laddrSetup (lsidSetup lvid voff vspace height ltype) off len := by
  apply C27_laddr_roundtrip
  have hle := lsegSize_le height
  have hpos : lsegSize height ≠ 0 := by
    obtain ⟨a, b⟩ := h2
    have : height = 1 ∨ height = 2 ∨ height = 3 ∨ height = 4 ∨ height = 5 ∨ height = 6 ∨
      height = 7 ∨ height = 8 := by omega
    rcases this with h|h|h|h|h|h|h|h <;> subst h <;> decide
  have hfits : (lsidSetup lvid voff vspace height ltype).Fits := by
    refine ⟨hv, ?_, ?_, h1, ?_, h3⟩
    · simp only [lsidSetup]; omega
    · simp only [lsidSetup, vindexOf]; split <;> omega
    · simp only [lsidSetup]; omega
  have e : laddrSetup (lsidSetup lvid voff vspace height ltype) off len =
      ⟨lsidSetup lvid voff vspace height ltype, Int.tmod off (lsegSize height), len⟩ := by
    simp [laddrSetup, lsidPos, lsidSetup, hpos, ho]
  rw [e]
  have hm : Int.tmod off (lsegSize height) = off % (lsegSize height) :=
    Int.tmod_eq_emod_of_nonneg ho
  refine ⟨hfits, ?_, ?_, hl⟩
  · rw [hm]; exact Int.emod_nonneg _ (by omega)
  · rw [hm]
    have := Int.emod_lt_of_pos off (show (0:Int) < lsegSize height by omega)
    simp only; omega

/-- An address and its position determine the volume offset: addresses of two
different offsets in the same volume, space and height differ.
(`off = vindex * lsize + pos`, below 2^32 segments.) -/
theorem C27_laddr_setup_injective (lvid : List Nat) (o1 o2 : Int) (vspace height ltype len : Nat)
    (h2 : 1 ≤ height ∧ height ≤ 8)
    (hr1 : 0 ≤ o1 ∧ o1 / lsegSize height < 4294967296)
    (hr2 : 0 ≤ o2 ∧ o2 / lsegSize height < 4294967296)
    (he : laddrSetup (lsidSetup lvid o1 vspace height ltype) o1 len =
      laddrSetup (lsidSetup lvid o2 vspace height ltype) o2 len) : o1 = o2 := by
  have hpos : 0 < lsegSize height := by
    obtain ⟨a, b⟩ := h2
    have : height = 1 ∨ height = 2 ∨ height = 3 ∨ height = 4 ∨ height = 5 ∨ height = 6 ∨
      height = 7 ∨ height = 8 := by omega
    rcases this with h|h|h|h|h|h|h|h <;> subst h <;> decide
  generalize hs : lsegSize height = s at *
  have key : ∀ o : Int, 0 ≤ o → o / s < 4294967296 → ((vindexOf o s : Nat) : Int) = o / s := by
    intro o h0 h1
    have hd : Int.tdiv o s = o / s := Int.tdiv_eq_ediv_of_nonneg h0
    have hq : 0 ≤ o / s := Int.ediv_nonneg h0 (by omega)
    unfold vindexOf
    rw [if_pos hpos, hd]
    have : Int.tdiv (o / s * s) s = o / s := Int.mul_tdiv_cancel _ (by omega)
    rw [this]
    omega
  have k1 := key o1 hr1.1 hr1.2
  have k2 := key o2 hr2.1 hr2.2
  have hne : s ≠ 0 := by omega
  simp only [laddrSetup, lsidPos, lsidSetup, hs, hne, hr1.1, hr2.1, ne_eq, not_false_eq_true,
    true_and, if_true, Laddr.mk.injEq, Lsid.mk.injEq, and_true] at he
  obtain ⟨hv, hp⟩ := he
  rw [Int.tmod_eq_emod_of_nonneg hr1.1, Int.tmod_eq_emod_of_nonneg hr2.1] at hp
  have hv' : o1 / s = o2 / s := by rw [← k1, ← k2, hv]
  have d1 := Int.mul_ediv_add_emod o1 s
  have d2 := Int.mul_ediv_add_emod o2 s
  rw [← d1, ← d2, hv', hp]

/-- A null position of an otherwise live address is *not* preserved by the on-disk
form: -1 is stored as 0xFFFFFFFF and read back as 4294967295, which is no
longer null.  (The full claim "null stays null" is therefore violated for
addresses made by `silofs_laddr_setup` with a null offset.) -/
theorem C27_laddr_null_violated :
    ¬ ∀ a : Laddr, a.isNull = true → a.lsid.Fits → (laddr48Xtoh (laddr48Htox a)).isNull = true := by
  intro h
  have := h (laddrSetup (lsidSetup (List.replicate 16 7) 0 12 1 12) (-1) 65536) (by decide)
    ⟨⟨by decide, by decide⟩, by decide, by decide, by decide, by decide, by decide⟩
  revert this
  decide

/-! ### Text form -/

theorem hexVal_append (l : List Nat) (c : Nat) :
    hexVal (l ++ [c]) = hexStep (hexVal l) c := by
  simp [hexVal, List.foldl_append]

theorem hexVal_hexFixed (n v : Nat) (h : v < 16 ^ n) : hexVal (hexFixed n v) = some v := by
  induction n generalizing v with
  | zero => simp at h; subst h; rfl
  | succ n ih =>
    rw [hexFixed, hexVal_append, ih _ (by rw [Nat.pow_succ] at h; omega)]
    simp only [hexStep, asciiToNib_nib]
    simp; omega

theorem hexFixed_length (n v : Nat) : (hexFixed n v).length = n := by
  induction n generalizing v with
  | zero => rfl
  | succ n ih => simp [hexFixed, ih]

theorem flatMap_byteToAscii_length (l : List Nat) : (l.flatMap byteToAscii).length = 2 * l.length := by
  induction l with
  | nil => rfl
  | cons b l ih => simp [byteToAscii] at *; omega

theorem hexPairs_flatMap (l : List Nat) (h : ∀ b ∈ l, b < 256) :
    hexPairs (l.flatMap byteToAscii) = some l := by
  induction l with
  | nil => rfl
  | cons b l ih =>
    simp only [List.flatMap_cons, byteToAscii, List.cons_append, List.nil_append, hexPairs]
    rw [asciiToByte_byte b (h b (by simp))]
    rw [ih (fun x hx => h x (by simp [hx]))]

theorem list16 (u : List Nat) (h : u.length = 16) : ∃ a0 a1 a2 a3 a4 a5 a6 a7 a8 a9 b0 b1 b2 b3 b4 b5,
    u = [a0, a1, a2, a3, a4, a5, a6, a7, a8, a9, b0, b1, b2, b3, b4, b5] := by
  match u, h with
  | [a0, a1, a2, a3, a4, a5, a6, a7, a8, a9, b0, b1, b2, b3, b4, b5], _ =>
    exact ⟨a0, a1, a2, a3, a4, a5, a6, a7, a8, a9, b0, b1, b2, b3, b4, b5, rfl⟩

theorem uuidText_length (u : List Nat) (h : u.length = 16) : (uuidText u).length = 36 := by
  obtain ⟨a0, a1, a2, a3, a4, a5, a6, a7, a8, a9, b0, b1, b2, b3, b4, b5, rfl⟩ := list16 u h
  simp [uuidText, byteToAscii]

/-- The UUID text form round-trips. -/
theorem C27_uuid_roundtrip (u : List Nat) (h : IsBytes 16 u) : uuidParse (uuidText u) = some u := by
  obtain ⟨hl, hb⟩ := h
  unfold uuidParse
  rw [if_pos]
  · have key : (uuidText u).take 8 ++ ((uuidText u).drop 9).take 4 ++ ((uuidText u).drop 14).take 4 ++
        ((uuidText u).drop 19).take 4 ++ (uuidText u).drop 24 = u.flatMap byteToAscii := by
      obtain ⟨a0, a1, a2, a3, a4, a5, a6, a7, a8, a9, b0, b1, b2, b3, b4, b5, rfl⟩ := list16 u hl
      simp [uuidText, byteToAscii]
    rw [key]
    exact hexPairs_flatMap u hb
  · obtain ⟨a0, a1, a2, a3, a4, a5, a6, a7, a8, a9, b0, b1, b2, b3, b4, b5, rfl⟩ := list16 u hl
    simp [uuidText, byteToAscii]

/-- **C27 (text address)**: the text form of every valid storage address (height
below 16, position below 2^31, as all segments are at most 16M) parses back to
the same address. -/
theorem C27_laddr_ascii_roundtrip (a : Laddr) (h : a.Fits) (hh : a.lsid.height < 16)
    (hp : a.pos < 2147483648) (hv : a.isValid = true) : laddrFromAscii (laddrToAscii a) = some a := by
  cases a with | mk lsid pos len =>
  cases lsid with | mk lvid lsize vindex vspace height ltype =>
  obtain ⟨⟨⟨hl, hb⟩, h1, h2, h3, h4, h5⟩, h6, h7, h8⟩ := h
  simp only at hl hb h1 h2 h3 h4 h5 h6 h7 h8 hh hp
  have hu := uuidText_length lvid hl
  have hup : toU32 pos < 4294967296 ∧ toI32 (toU32 pos) = pos := by
    unfold toU32 toI32; split <;> omega
  have hm1 : lsize % 4294967296 = lsize := Nat.mod_eq_of_lt h1
  have hm2 : vindex % 4294967296 = vindex := Nat.mod_eq_of_lt h2
  have hm3 : len % 4294967296 = len := Nat.mod_eq_of_lt h8
  have hm4 : vspace % 256 = vspace := Nat.mod_eq_of_lt h3
  have hm5 : ltype % 256 = ltype := Nat.mod_eq_of_lt h5
  have hf : ∀ n v, (hexFixed n v).length = n := hexFixed_length
  unfold laddrFromAscii laddrToAscii
  simp only [hm1, hm2, hm3, hm4, hm5, byteToAscii]
  rw [if_pos]
  · rw [take_app _ _ 36 hu, C27_uuid_roundtrip lvid ⟨hl, hb⟩]
    rw [getD_app _ _ 36 1 37 0 hu rfl, getD_app _ _ 36 2 38 0 hu rfl, getD_app _ _ 36 3 39 0 hu rfl,
      getD_app _ _ 36 4 40 0 hu rfl, getD_app _ _ 36 5 41 0 hu rfl, getD_app _ _ 36 6 42 0 hu rfl,
      drop_app_add _ _ 36 8 44 hu rfl, drop_app_add _ _ 36 17 53 hu rfl,
      drop_app_add _ _ 36 26 62 hu rfl, drop_app_add _ _ 36 35 71 hu rfl]
    simp only [List.cons_append, List.nil_append, List.getD_cons_succ, List.getD_cons_zero,
      List.drop_succ_cons, List.drop_zero]
    rw [take_app _ _ 8 (hf 8 _), drop_app_add _ _ 8 1 9 (hf 8 _) rfl]
    rw [drop_app_add _ _ 8 10 18 (hf 8 _) rfl, drop_app_add _ _ 8 19 27 (hf 8 _) rfl]
    simp only [List.drop_succ_cons, List.drop_zero]
    rw [take_app _ _ 8 (hf 8 _), drop_app_add _ _ 8 1 9 (hf 8 _) rfl,
      drop_app_add _ _ 8 10 18 (hf 8 _) rfl]
    simp only [List.drop_succ_cons, List.drop_zero]
    rw [take_app _ _ 8 (hf 8 _), drop_app_add _ _ 8 1 9 (hf 8 _) rfl]
    simp only [List.drop_succ_cons, List.drop_zero]
    rw [List.take_of_length_le (Nat.le_of_eq (hf 8 len))]
    rw [hexVal_hexFixed _ _ (by omega), hexVal_hexFixed _ _ (by omega), hexVal_hexFixed _ _ (by omega),
      hexVal_hexFixed _ _ (by omega), asciiToByte_byte _ h3, asciiToByte_byte _ h5, asciiToNib_nib,
      asciiToNib_nib]
    simp only [Nat.mod_eq_of_lt hh, hup.2]
    simp [hv]
  · refine ⟨by simp [hu, hf], ?_, ?_, ?_, ?_, ?_⟩
    · rw [getD_app _ _ 36 0 36 0 hu rfl]; rfl
    · rw [getD_app _ _ 36 7 43 0 hu rfl]; rfl
    · rw [getD_app _ _ 36 16 52 0 hu rfl]
      simp only [List.cons_append, List.nil_append, List.getD_cons_succ]
      rw [getD_app _ _ 8 0 8 0 (hf 8 _) rfl]; rfl
    · rw [getD_app _ _ 36 25 61 0 hu rfl]
      simp only [List.cons_append, List.nil_append, List.getD_cons_succ]
      rw [getD_app _ _ 8 9 17 0 (hf 8 _) rfl]
      simp only [List.getD_cons_succ]
      rw [getD_app _ _ 8 0 8 0 (hf 8 _) rfl]; rfl
    · rw [getD_app _ _ 36 34 70 0 hu rfl]
      simp only [List.cons_append, List.nil_append, List.getD_cons_succ]
      rw [getD_app _ _ 8 18 26 0 (hf 8 _) rfl]
      simp only [List.getD_cons_succ]
      rw [getD_app _ _ 8 9 17 0 (hf 8 _) rfl]
      simp only [List.getD_cons_succ]
      rw [getD_app _ _ 8 0 8 0 (hf 8 _) rfl]; rfl

/-- Whatever text is parsed successfully yields a valid address. -/
theorem C27_laddr_ascii_valid (t : List Nat) (a : Laddr) (h : laddrFromAscii t = some a) :
    a.isValid = true := by
  unfold laddrFromAscii at h
  split at h
  · split at h
    · split at h
      · simp at h
      · simp only at h
        split at h
        · rename_i hv
          rw [← Option.some.inj h]; exact hv
        · simp at h
    · simp at h
  · simp at h

/-! Non-vacuity -/
def sampleLaddr : Laddr := ⟨⟨List.replicate 16 171, 16777216, 77, 12, 1, 12⟩, 131072, 65536⟩
example : sampleLaddr.Fits ∧ sampleLaddr.lsid.height < 16 ∧ sampleLaddr.pos < 2147483648 ∧
    sampleLaddr.isValid = true :=
  ⟨⟨⟨⟨by decide, by decide⟩, by decide, by decide, by decide, by decide, by decide⟩,
      by decide, by decide, by decide⟩, by decide, by decide, by decide⟩
example : (vaddr64Htox (vaddrSetup LTYPE_DTNODE 73728)) = [8, 32, 1, 0, 0, 0, 0, 0] := by decide
example : vaddr56Htox 73728 = [32, 1, 0, 0, 0, 0, 0] := by decide

end Silofs.Addr
