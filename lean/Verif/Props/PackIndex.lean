import Verif.Model.Pack
import Verif.Props.Addr
/-
C45: the index of an archive: round trip, integrity, and where a forged index leads.
-/
set_option linter.unusedSimpArgs false
set_option linter.unusedVariables false
namespace Silofs.Pack
open Silofs Silofs.Addr

/-- The fields of a descriptor fit their stored form. -/
structure Desc.Fits (d : Desc) : Prop where
  caddr : d.caddr.Fits
  laddr : d.laddr.Fits

theorem caddr64Htox_length {c : Caddr} (h : c.Fits) : (caddr64Htox c).length = 64 := by
  simp [caddr64Htox, leBytes_length, h.hash.1]

theorem descHtox_length {d : Desc} (h : d.Fits) : (descHtox d).length = 256 := by
  simp [descHtox, caddr64Htox_length h.caddr, laddr48Htox_length _ h.laddr]

theorem desc_roundtrip {d : Desc} (h : d.Fits) : descXtoh (descHtox d) = d := by
  cases d with | mk c a =>
  have h1 := caddr64Htox_length h.caddr
  have h2 := laddr48Htox_length _ h.laddr
  simp only at h1 h2
  simp only [descXtoh, descHtox, Desc.mk.injEq]
  refine ⟨?_, ?_⟩
  · rw [take_app _ _ _ h1]; exact C27_caddr_roundtrip _ h.caddr
  · rw [drop_app _ _ _ h1, take_app _ _ _ h2]; exact C27_laddr_roundtrip _ h.laddr

theorem flat_length {ds : List Desc} (h : ∀ d ∈ ds, d.Fits) : (ds.flatMap descHtox).length = 256 * ds.length := by
  induction ds with
  | nil => rfl
  | cons d ds ih =>
    rw [List.flatMap_cons, List.length_append, ih (fun d hd => h d (List.mem_cons_of_mem _ hd)),
      descHtox_length (h d (List.mem_cons_self ..)), List.length_cons]
    omega

theorem flat_at {ds : List Desc} (h : ∀ d ∈ ds, d.Fits) (t : Bytes) (i : Nat) (hi : i < ds.length) :
    ((ds.flatMap descHtox ++ t).drop (256 * i)).take 256 = descHtox ds[i] := by
  induction ds generalizing i with
  | nil => simp at hi
  | cons d ds ih =>
    have hd := descHtox_length (h d (List.mem_cons_self ..))
    rw [List.flatMap_cons, List.append_assoc]
    cases i with
    | zero => rw [Nat.mul_zero, List.drop_zero, take_app _ _ _ hd]; rfl
    | succ i =>
      rw [drop_app_add _ _ 256 (256 * i) _ hd (by omega)]
      exact ih (fun d hd => h d (List.mem_cons_of_mem _ hd)) i (by simpa using hi)

theorem indexSize_ge (n : Nat) : 1024 + 256 * n ≤ indexSize n := by unfold indexSize; omega

theorem area_length {ds : List Desc} (h : ∀ d ∈ ds, d.Fits) : (descArea ds).length = indexSize ds.length - 1024 := by
  have := indexSize_ge ds.length
  simp only [descArea, List.length_append, flat_length h, List.length_replicate]
  omega

theorem hdrHead_length (n c : Nat) : (hdrHead n c).length = 1016 := by
  simp only [hdrHead, List.length_append, leBytes_length, List.length_replicate]

theorem hdrBytes_length (xs : Bytes → Nat) (n c : Nat) : (hdrBytes xs n c).length = 1024 := by
  simp only [hdrBytes, List.length_append, hdrHead_length, leBytes_length]

theorem encode_length (xs : Bytes → Nat) {ds : List Desc} (h : ∀ d ∈ ds, d.Fits) :
    (encode xs ds).length = indexSize ds.length := by
  have := indexSize_ge ds.length
  simp only [encode, List.length_append, hdrBytes_length, area_length h]
  omega

/-- The fields of a header. -/
theorem hdr_magic (xs : Bytes → Nat) (n c : Nat) (t : Bytes) : leVal ((hdrBytes xs n c ++ t).take 8) = MAGIC := by
  rw [hdrBytes, hdrHead, List.append_assoc, List.append_assoc, take_app _ _ _ (leBytes_length _ _)]
  exact leVal_leBytes8 _ (by decide)

theorem hdr_version (xs : Bytes → Nat) (n c : Nat) (t : Bytes) :
    leVal (((hdrBytes xs n c ++ t).drop 8).take 4) = 1 := by
  simp only [hdrBytes, hdrHead, List.append_assoc]
  rw [drop_app _ _ _ (leBytes_length _ _), take_app _ _ _ (leBytes_length _ _)]
  decide

theorem hdr_n (xs : Bytes → Nat) (n c : Nat) (hn : n < 18446744073709551616) (t : Bytes) :
    leVal (((hdrBytes xs n c ++ t).drop 16).take 8) = n := by
  simp only [hdrBytes, hdrHead, List.append_assoc]
  rw [drop_app_add _ _ 8 8 16 (leBytes_length _ _) rfl, drop_app_add _ _ 4 4 8 (leBytes_length _ _) rfl,
    drop_app _ _ _ (leBytes_length _ _), take_app _ _ _ (leBytes_length _ _)]
  exact leVal_leBytes8 _ hn

theorem hdr_csum (xs : Bytes → Nat) (n c : Nat) (hc : c < 18446744073709551616) (t : Bytes) :
    leVal (((hdrBytes xs n c ++ t).drop 24).take 8) = c := by
  simp only [hdrBytes, hdrHead, List.append_assoc]
  rw [drop_app_add _ _ 8 16 24 (leBytes_length _ _) rfl, drop_app_add _ _ 4 12 16 (leBytes_length _ _) rfl,
    drop_app_add _ _ 4 8 12 (leBytes_length _ _) rfl, drop_app _ _ _ (leBytes_length _ _),
    take_app _ _ _ (leBytes_length _ _)]
  exact leVal_leBytes8 _ hc

theorem hdr_self (xs : Bytes → Nat) (n c : Nat) (hx : ∀ x, xs x < 18446744073709551616) (t : Bytes) :
    leVal (((hdrBytes xs n c ++ t).drop 1016).take 8) = xs ((hdrBytes xs n c ++ t).take 1016) := by
  simp only [hdrBytes, List.append_assoc]
  rw [drop_app _ _ _ (hdrHead_length _ _), take_app _ _ _ (leBytes_length _ _), take_app _ _ _ (hdrHead_length _ _)]
  exact leVal_leBytes8 _ (hx _)

theorem areaOf_app {hd ar t : Bytes} (h1 : hd.length = 1024) (h2 : ar.length % 256 = 0) (h3 : t.length < 256) :
    areaOf (hd ++ ar ++ t) = ar := by
  have : (hd ++ ar ++ t).length = 1024 + ar.length + t.length := by
    rw [List.length_append, List.length_append, h1]
  rw [areaOf, this, List.append_assoc, drop_app _ _ _ h1, take_app _ _ _ (by omega)]

theorem area_at (ds : List Desc) : descArea ds =
    ds.flatMap descHtox ++ List.replicate (indexSize ds.length - 1024 - 256 * ds.length) 0 := rfl

attribute [local irreducible] hdrBytes descArea

/-- An index followed by less than the length of a descriptor is read as what was written. -/
theorem decode_app (h : Bytes → Bytes) (xs : Bytes → Nat) (hx : ∀ x, xs x < 18446744073709551616)
    {ds : List Desc} (hf : ∀ d ∈ ds, d.Fits) {t : Bytes} (ht : t.length < 256)
    (hs : sizeOk (indexSize ds.length + t.length) = true) :
    decode h xs (caddrOf h 2 (encode xs ds)) (encode xs ds ++ t) = .ok ds := by
  have hl := encode_length xs hf
  have hlt : (encode xs ds ++ t).length = indexSize ds.length + t.length := by rw [List.length_append, hl]
  have ha := area_length hf
  have hge := indexSize_ge ds.length
  have hm : (descArea ds).length % 256 = 0 := by rw [ha]; unfold indexSize; omega
  have har : areaOf (encode xs ds ++ t) = descArea ds := areaOf_app (hdrBytes_length _ _ _) hm ht
  have hn : ds.length < 18446744073709551616 := by
    simp only [sizeOk, Bool.and_eq_true, decide_eq_true_eq] at hs
    omega
  have htk : (encode xs ds ++ t).take 1024 = hdrBytes xs ds.length (xs (descArea ds)) := by
    rw [encode, List.append_assoc, take_app _ _ _ (hdrBytes_length _ _ _)]
  have hnd : leVal (((encode xs ds ++ t).drop 16).take 8) = ds.length := by
    rw [encode, List.append_assoc]; exact hdr_n xs _ _ hn _
  have hok : hdrOk xs (encode xs ds ++ t) = true := by
    unfold hdrOk
    rw [har]
    simp only [encode, List.append_assoc]
    rw [hdr_magic, hdr_version, hdr_csum xs _ _ (hx _), hdr_self xs _ _ hx]
    simp only [beq_self_eq_true, Bool.and_self]
  unfold decode
  rw [hlt, hs, if_neg (by decide), har, htk, if_neg (by rw [encode]; exact fun hne => hne rfl), hok, if_neg (by decide),
    hnd, if_neg (by omega)]
  congr 1
  apply List.ext_getElem
  · simp [descsAt]
  · intro i h1 h2
    simp only [descsAt, List.getElem_map, List.getElem_range]
    have e : ((encode xs ds ++ t).drop (1024 + 256 * i)).take 256 = descHtox ds[i] := by
      rw [encode, List.append_assoc, drop_app_add _ _ 1024 (256 * i) _ (hdrBytes_length _ _ _) rfl, area_at,
        List.append_assoc]
      exact flat_at hf _ i h2
    rw [e]
    exact desc_roundtrip (hf _ (List.getElem_mem h2))

/-- **C45** (index): the index of an archive is read back as it was written. -/
theorem C45_index_roundtrip (h : Bytes → Bytes) (xs : Bytes → Nat) (hx : ∀ x, xs x < 18446744073709551616)
    (ds : List Desc) (hf : ∀ d ∈ ds, d.Fits) (hs : sizeOk (indexSize ds.length) = true) :
    decode h xs (caddrOf h 2 (encode xs ds)) (encode xs ds) = .ok ds := by
  have := decode_app h xs hx hf (t := []) (by decide) (by simpa using hs)
  rwa [List.append_nil] at this

/-- Two different byte strings of one length with the same hash. -/
def Collide (h : Bytes → Bytes) (x y : Bytes) : Prop := x ≠ y ∧ x.length = y.length ∧ h x = h y

/-- **C45** (index): whatever is stored in place of an index, reading it under the address of the index either fails
or gives the descriptors that were written, unless what is stored is another string with the hash of the index. -/
theorem C45_index_integrity (h : Bytes → Bytes) (xs : Bytes → Nat) (hx : ∀ x, xs x < 18446744073709551616)
    (ds : List Desc) (hf : ∀ d ∈ ds, d.Fits) (hs : sizeOk (indexSize ds.length) = true) (b : Bytes)
    (hb : decode h xs (caddrOf h 2 (encode xs ds)) b ≠ .bad) :
    Collide h (b.take 1024 ++ areaOf b) (encode xs ds) ∨ decode h xs (caddrOf h 2 (encode xs ds)) b = .ok ds := by
  by_cases e1 : sizeOk b.length = false
  · exact absurd (by unfold decode; rw [if_pos e1]) hb
  · by_cases e2 : caddrOf h 2 (b.take 1024 ++ areaOf b) ≠ caddrOf h 2 (encode xs ds)
    · exact absurd (by unfold decode; rw [if_neg e1, if_pos e2]) hb
    · have e2' := Classical.not_not.1 e2
      have hbs : 65536 ≤ b.length ∧ b.length ≤ 268435456 := by
        simpa [sizeOk] using e1
      have hes : 65536 ≤ indexSize ds.length ∧ indexSize ds.length ≤ 268435456 := by
        simpa [sizeOk] using hs
      have hpl : (b.take 1024 ++ areaOf b).length = 1024 + (b.length - 1024) / 256 * 256 := by
        simp only [areaOf, List.length_append, List.length_take, List.length_drop]
        omega
      simp only [caddrOf, Caddr.mk.injEq, and_true] at e2'
      rw [hpl, encode_length xs hf] at e2'
      have hlen : 1024 + (b.length - 1024) / 256 * 256 = indexSize ds.length := by omega
      by_cases e3 : b.take 1024 ++ areaOf b = encode xs ds
      · refine Or.inr ?_
        have hb : b = encode xs ds ++ b.drop (indexSize ds.length) := by
          rw [← e3, ← hlen, areaOf]
          have : b.take 1024 ++ (b.drop 1024).take ((b.length - 1024) / 256 * 256) =
              b.take (1024 + (b.length - 1024) / 256 * 256) := by rw [List.take_add]
          rw [this, List.take_append_drop]
        have hd : (b.drop (indexSize ds.length)).length < 256 := by
          rw [List.length_drop]; omega
        rw [hb]
        refine decode_app h xs hx hf hd ?_
        rw [List.length_drop, ← hlen]
        rw [show 1024 + (b.length - 1024) / 256 * 256 + (b.length - (1024 + (b.length - 1024) / 256 * 256)) = b.length by
          omega]
        simpa using e1
      · exact Or.inl ⟨e3, by rw [hpl, encode_length xs hf, hlen], e2'.1⟩

/-- **C45 is violated** for forged indexes: the number of descriptors in the header is not compared with the size of the
file, so for any hash functions there is an index of legal size, under its right address and with right checksums, that
is read beyond the end of the buffer. -/
theorem C45_index_oob_violated (h : Bytes → Bytes) (xs : Bytes → Nat) (hx : ∀ x, xs x < 18446744073709551616) :
    ∃ c b, sizeOk b.length = true ∧ c = caddrOf h 2 b ∧ decode h xs c b = .oob := by
  have hl : (hdrBytes xs 1000000 (xs (List.replicate 64512 0)) ++ List.replicate 64512 0).length = 65536 := by
    rw [List.length_append, hdrBytes_length, List.length_replicate]
  have har : areaOf (hdrBytes xs 1000000 (xs (List.replicate 64512 0)) ++ List.replicate 64512 0) =
      List.replicate 64512 0 := by
    have := areaOf_app (hd := hdrBytes xs 1000000 (xs (List.replicate 64512 0))) (ar := List.replicate 64512 0)
      (t := []) (hdrBytes_length _ _ _) (by rw [List.length_replicate]) (by decide)
    rwa [List.append_nil] at this
  refine ⟨_, hdrBytes xs 1000000 (xs (List.replicate 64512 0)) ++ List.replicate 64512 0, by rw [hl]; decide, rfl, ?_⟩
  have hok : hdrOk xs (hdrBytes xs 1000000 (xs (List.replicate 64512 0)) ++ List.replicate 64512 0) = true := by
    unfold hdrOk
    rw [har, hdr_magic, hdr_version, hdr_csum xs _ _ (hx _), hdr_self xs _ _ hx]
    simp only [beq_self_eq_true, Bool.and_self]
  unfold decode
  rw [hl, if_neg (by decide), har, take_app _ _ _ (hdrBytes_length _ _ _), if_neg (fun hne => hne rfl), hok,
    if_neg (by decide), hdr_n xs _ _ (by decide), if_pos (by decide)]

/-- Hypotheses of the round trip met: descriptors of a block and a super block. -/
example : (Desc.mk ⟨List.replicate 32 7, 65536, 3⟩ sampleLaddr).Fits ∧ sizeOk (indexSize 2) = true :=
  ⟨⟨⟨⟨rfl, by decide⟩, by decide, by decide⟩, ⟨⟨⟨rfl, by decide⟩, by decide, by decide, by decide, by decide, by decide⟩,
    by decide, by decide, by decide⟩⟩, by decide⟩

end Silofs.Pack
