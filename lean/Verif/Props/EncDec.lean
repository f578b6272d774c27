import Verif.Model.EncDec
import Verif.Props.Addr
/-!
C29: blocks decrypt to what was encrypted, distinct storage locations use distinct IVs.
-/
set_option linter.unusedSimpArgs false
namespace Silofs.EncDec
open Silofs Silofs.Addr

/-- **C29 (round trip)**: decrypting with the link that recorded the block's address and
seed gives back the content. -/
theorem C29_roundtrip (C : Cipher) (main : IvKey) (a : Laddr) (seed view : List Nat) :
    decryptView C main a seed (encryptView C main a seed view) = view := C.dec_enc _ _ _

theorem xor_left_cancel (a b c : Nat) (h : a ^^^ b = a ^^^ c) : b = c := by
  have := congrArg (a ^^^ ·) h
  simpa [← Nat.xor_assoc] using this

theorem xor_right_cancel (a b c : Nat) (h : b ^^^ a = c ^^^ a) : b = c := by
  rw [Nat.xor_comm b, Nat.xor_comm c] at h; exact xor_left_cancel a b c h

theorem xorBytes_left_cancel (l a b : List Nat) (ha : a.length = l.length) (hb : b.length = l.length)
    (h : xorBytes l a = xorBytes l b) : a = b := by
  induction l generalizing a b with
  | nil => simp at ha hb; rw [ha, hb]
  | cons x l ih =>
    match a, b, ha, hb with
    | y :: a, z :: b, ha, hb =>
      simp only [xorBytes, List.zipWith_cons_cons, List.cons.injEq] at h
      rw [xor_left_cancel _ _ _ h.1, ih a b (by simpa using ha) (by simpa using hb) h.2]

theorem xorBytes_comm (a b : List Nat) : xorBytes a b = xorBytes b a := by
  unfold xorBytes
  exact List.zipWith_comm_of_comm (fun x y => Nat.xor_comm x y)

theorem xorBytes_right_cancel (l a b : List Nat) (ha : a.length = l.length) (hb : b.length = l.length)
    (h : xorBytes a l = xorBytes b l) : a = b := by
  rw [xorBytes_comm a, xorBytes_comm b] at h
  exact xorBytes_left_cancel l a b ha hb h

theorem xorBytes_length (a b : List Nat) : (xorBytes a b).length = min a.length b.length := by
  simp [xorBytes]

theorem xorBytes_append (a b c d : List Nat) (h : a.length = c.length) :
    xorBytes (a ++ b) (c ++ d) = xorBytes a c ++ xorBytes b d := by
  simp [xorBytes, List.zipWith_append h]

/-- The IV of an address in terms of its fields. -/
theorem laddrIv_eq (a : Laddr) (h : a.lsid.Fits) :
    laddrIv a = xorBytes (xorBytes a.lsid.lvid (leBytes 4 a.lsid.lsize ++ (leBytes 4 a.lsid.vindex ++
        ([a.lsid.vspace % 256, a.lsid.height % 256, a.lsid.ltype % 256] ++ [0, 0, 0, 0, 0]))))
      (leBytes 4 (toU32 a.pos) ++ (leBytes 4 a.len ++ [0, 0, 0, 0, 0, 0, 0, 0])) := by
  have hl := h.lvid.1
  have h32 := lsid32Htox_length _ h
  unfold laddrIv laddr48Htox
  simp only
  rw [drop_app _ _ 32 h32]
  have ht : ((lsid32Htox a.lsid ++ (leBytes 4 (toU32 a.pos) ++ (leBytes 4 a.len ++ [0, 0, 0, 0, 0, 0, 0, 0]))).take 16)
      = a.lsid.lvid := by
    unfold lsid32Htox; rw [List.append_assoc]; exact take_app _ _ _ hl
  have hd : (((lsid32Htox a.lsid ++ (leBytes 4 (toU32 a.pos) ++ (leBytes 4 a.len ++ [0, 0, 0, 0, 0, 0, 0, 0]))).drop 16).take 16)
      = leBytes 4 a.lsid.lsize ++ (leBytes 4 a.lsid.vindex ++
        ([a.lsid.vspace % 256, a.lsid.height % 256, a.lsid.ltype % 256] ++ [0, 0, 0, 0, 0])) := by
    unfold lsid32Htox
    rw [List.append_assoc, drop_app _ _ _ hl]
    apply take_app
    simp [leBytes_length]
  rw [ht, hd]

theorem leBytes4_inj (x y : Nat) (hx : x < 4294967296) (hy : y < 4294967296)
    (h : leBytes 4 x = leBytes 4 y) : x = y := by
  rw [← leVal_leBytes4 x hx, ← leVal_leBytes4 y hy, h]

/-- **C29 (IV uniqueness)**: two blocks of one volume whose segments have the same size
and whose block length is the same (in particular any two blocks of the same
kind) derive different IVs from their addresses unless they are the same
location. -/
theorem C29_iv_unique (a b : Laddr) (ha : a.Fits) (hb : b.Fits) (hv : a.lsid.lvid = b.lsid.lvid)
    (hs : a.lsid.lsize = b.lsid.lsize) (hl : a.len = b.len) (h : laddrIv a = laddrIv b) : a = b := by
  rw [laddrIv_eq a ha.lsid, laddrIv_eq b hb.lsid] at h
  cases a with | mk la pa na =>
  cases b with | mk lb pb nb =>
  cases la with | mk v1 s1 i1 vs1 h1 t1 =>
  cases lb with | mk v2 s2 i2 vs2 h2 t2 =>
  obtain ⟨⟨⟨hvl, _⟩, _, hi1, hvs1, hh1, ht1⟩, hp0, hp1, hn⟩ := ha
  obtain ⟨⟨⟨hvl2, _⟩, _, hi2, hvs2, hh2, ht2⟩, hp0', hp1', hn'⟩ := hb
  simp only at *
  subst hv hs hl
  -- split off 16 = 4 + 4 + 8 bytes
  have lb : ∀ v, (leBytes 4 v).length = 4 := leBytes_length 4
  obtain ⟨x, y, z, hvx, hx, hy, hz⟩ : ∃ x y z : List Nat, v1 = x ++ (y ++ z) ∧ x.length = 4 ∧
      y.length = 4 ∧ z.length = 8 :=
    ⟨v1.take 4, (v1.drop 4).take 4, v1.drop 8, by
      rw [show v1.drop 8 = (v1.drop 4).drop 4 by simp, List.take_append_drop, List.take_append_drop],
      by simp; omega, by simp; omega, by simp; omega⟩
  subst hvx
  rw [xorBytes_append _ _ _ _ (by simp [xorBytes_length, lb, hx, hy]), xorBytes_append _ _ _ _ (by simp [xorBytes_length, lb, hx, hy]),
    xorBytes_append _ _ _ _ (by simp [xorBytes_length, lb, hx, hy]),
    xorBytes_append _ _ _ _ (by simp [xorBytes_length, lb, hx, hy]),
    xorBytes_append _ _ _ _ (by simp [xorBytes_length, lb, hx, hy]), xorBytes_append _ _ _ _ (by simp [xorBytes_length, lb, hx, hy]),
    xorBytes_append _ _ _ _ (by simp [xorBytes_length, lb, hx, hy]),
    xorBytes_append _ _ _ _ (by simp [xorBytes_length, lb, hx, hy])] at h
  have hA := List.append_inj h (by simp [xorBytes_length, lb])
  have hB := List.append_inj hA.2 (by simp [xorBytes_length, lb])
  have hpos := leBytes4_inj _ _ (by unfold toU32; omega) (by unfold toU32; omega)
    (xorBytes_left_cancel _ _ _ (by simp [xorBytes_length, lb, hx]) (by simp [xorBytes_length, lb, hx]) hA.1)
  have hidx := leBytes4_inj _ _ hi1 hi2
    (xorBytes_left_cancel _ _ _ (by simp [lb, hy]) (by simp [lb, hy])
      (xorBytes_right_cancel _ _ _ (by simp [xorBytes_length, lb, hy]) (by simp [xorBytes_length, lb, hy]) hB.1))
  have hrest := xorBytes_left_cancel _ _ _ (by simp [hz]) (by simp [hz])
      (xorBytes_right_cancel _ _ _ (by simp [xorBytes_length, hz]) (by simp [xorBytes_length, hz]) hB.2)
  simp only [List.cons_append, List.cons.injEq] at hrest
  rw [Nat.mod_eq_of_lt hvs1, Nat.mod_eq_of_lt hvs2, Nat.mod_eq_of_lt hh1, Nat.mod_eq_of_lt hh2,
    Nat.mod_eq_of_lt ht1, Nat.mod_eq_of_lt ht2] at hrest
  have hpp : pa = pb := by unfold toU32 at hpos; omega
  rw [hpp, hidx, hrest.1, hrest.2.1, hrest.2.2.1]

/-- The effective IV mixes in the volume's main IV and the per-block seed without
losing that distinction: with the same seed, equal effective IVs mean equal
address IVs. -/
theorem C29_effective_iv_unique (main : IvKey) (a b : Laddr) (seed : List Nat) (hm : main.iv.length = 16)
    (hs : seed.length = 16) (ha : a.Fits) (hb : b.Fits)
    (h : resolveIv main a seed = resolveIv main b seed) : laddrIv a = laddrIv b := by
  have l1 : ∀ a : Laddr, a.Fits → (laddrIv a).length = 16 := by
    intro a ha
    rw [laddrIv_eq a ha.lsid]
    simp [xorBytes_length, leBytes_length, ha.lsid.lvid.1]
  unfold resolveIv at h
  have := xorBytes_left_cancel _ _ _ (by simp [xorBytes_length, hm, hs, l1 a ha])
    (by simp [xorBytes_length, hm, hs, l1 b hb]) h
  exact xorBytes_right_cancel _ _ _ (by rw [l1 a ha, hs]) (by rw [l1 b hb, hs]) this

/-- Changing the seed of a location changes its effective IV (fresh random seed per
rewrite gives a fresh IV). -/
theorem C29_seed_changes_iv (main : IvKey) (a : Laddr) (s1 s2 : List Nat) (hm : main.iv.length = 16)
    (h1 : s1.length = 16) (h2 : s2.length = 16) (ha : a.Fits)
    (h : resolveIv main a s1 = resolveIv main a s2) : s1 = s2 := by
  have l1 : (laddrIv a).length = 16 := by
    rw [laddrIv_eq a ha.lsid]
    simp [xorBytes_length, leBytes_length, ha.lsid.lvid.1]
  unfold resolveIv at h
  have := xorBytes_left_cancel _ _ _ (by simp [xorBytes_length, hm, h1, l1])
    (by simp [xorBytes_length, hm, h2, l1]) h
  exact xorBytes_left_cancel _ _ _ (by rw [l1, h1]) (by rw [l1, h2]) this

/-- Without the length hypothesis uniqueness fails: two live locations of one volume
(a 64K block and a differently sized block) can share an IV. -/
theorem C29_iv_unique_any_len_violated :
    ¬ ∀ (a b : Laddr), a.Fits → b.Fits → a.lsid.lvid = b.lsid.lvid → a.lsid.lsize = b.lsid.lsize →
      laddrIv a = laddrIv b → a = b := by
  intro h
  have := h ⟨⟨List.replicate 16 9, 16777216, 1024, 12, 1, 12⟩, 0, 4096⟩
    ⟨⟨List.replicate 16 9, 16777216, 4096, 12, 1, 12⟩, 0, 1024⟩
    ⟨⟨⟨by decide, by decide⟩, by decide, by decide, by decide, by decide, by decide⟩, by decide, by decide, by decide⟩
    ⟨⟨⟨by decide, by decide⟩, by decide, by decide, by decide, by decide, by decide⟩, by decide, by decide, by decide⟩
    rfl rfl (by decide)
  revert this; decide

/-! Non-vacuity: two different addresses satisfying the hypotheses of `C29_iv_unique`
(all but equality of the IVs), and a cipher. -/
example : laddrIv ⟨⟨List.replicate 16 9, 16777216, 5, 12, 1, 12⟩, 65536, 65536⟩ ≠
    laddrIv ⟨⟨List.replicate 16 9, 16777216, 5, 12, 1, 12⟩, 131072, 65536⟩ := by decide
example : Cipher := ⟨fun k _ p => k ++ p, fun k _ c => c.drop k.length, by simp⟩

end Silofs.EncDec
