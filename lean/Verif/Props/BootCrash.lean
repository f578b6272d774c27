import Verif.Props.Boot
/-!
C48: boot records — other records, crashes, removal, and where the claims fail.
-/
set_option linter.unusedSimpArgs false
set_option linter.unusedVariables false
namespace Silofs.Boot
open Silofs Silofs.Addr Silofs.EncDec

/-- Opening depends on the two files of the address only. -/
theorem reload_congr (E : Env) (pw : IvKey) (d d' : Disk) (c : Caddr)
    (hb : d' (blobPath c) = d (blobPath c)) (hr : d' (refPath c) = d (refPath c)) :
    reload E pw d' c = reload E pw d c := by
  unfold reload stat load lookupRef loadObj
  rw [hb, hr]

/-- When the address of a boot record is told apart by its hash, so are its files. -/
theorem paths_differ (E : Env) (hE : E.Sizes) (x : List Nat) (c : Caddr) (y : List Nat)
    (hc : c = ⟨E.sha2 y, 1024, 1⟩) (hne : c ≠ ⟨E.sha2 x, 1024, 1⟩) :
    blobPath c ≠ blobPath ⟨E.sha2 x, 1024, 1⟩ ∧ refPath c ≠ refPath ⟨E.sha2 x, 1024, 1⟩ := by
  have hh : E.sha2 y ≠ E.sha2 x := fun e => hne (by rw [hc, e])
  constructor
  · intro e
    have := blobPath_inj _ _ (by rw [hc]; exact hE.sha2 y) (hE.sha2 x) e
    rw [hc] at this; exact hh this
  · intro e
    unfold refPath at e
    have e' : Caddr.toName c = Caddr.toName ⟨E.sha2 x, 1024, 1⟩ := by injection e
    have n1 : 1024 < 4294967296 := by decide
    have n2 : 1 < 256 := by decide
    have n3 : Caddr.checkCtypeSize 1 1024 = true := by decide
    have := Caddr.C27_caddr_name_injective c ⟨E.sha2 x, 1024, 1⟩
      (by rw [hc]; exact ⟨hE.sha2 y, n1, n2⟩) ⟨hE.sha2 x, n1, n2⟩ (by rw [hc]; exact n3) n3 e'
    exact hne this

/-- Two repositories that agree on all files but those of one address open the same records
at every other address. -/
theorem others_same (E : Env) (hE : E.Sizes) (x : List Nat) (d d' : Disk)
    (hag : ∀ q, q ≠ blobPath ⟨E.sha2 x, 1024, 1⟩ → q ≠ refPath ⟨E.sha2 x, 1024, 1⟩ → d' q = d q)
    (pw : IvKey) (c : Caddr) (hne : c ≠ ⟨E.sha2 x, 1024, 1⟩) (r : Rec) :
    reload E pw d' c = .ok r ↔ reload E pw d c = .ok r := by
  constructor
  · intro h
    obtain ⟨y, _, _, _, hc, _⟩ := C48_accepted E pw d' c r h
    obtain ⟨p1, p2⟩ := paths_differ E hE x c y hc hne
    rw [← reload_congr E pw d d' c (hag _ p1 (blob_ne_ref _ _))
      (hag _ (fun e => blob_ne_ref _ _ e.symm) p2)]
    exact h
  · intro h
    obtain ⟨y, _, _, _, hc, _⟩ := C48_accepted E pw d c r h
    obtain ⟨p1, p2⟩ := paths_differ E hE x c y hc hne
    rw [reload_congr E pw d d' c (hag _ p1 (blob_ne_ref _ _))
      (hag _ (fun e => blob_ne_ref _ _ e.symm) p2)]
    exact h

/-- **C48 (others)**: saving a record changes nothing about which record any other address
opens to, with any password. -/
theorem C48_others (E : Env) (hE : E.Sizes) (pw pw' : IvKey) (d : Disk) (r r' : Rec) (c : Caddr)
    (hne : c ≠ addrOf E pw r) :
    reload E pw' (save E pw d r).1 c = .ok r' ↔ reload E pw' d c = .ok r' :=
  others_same E hE (encode E pw r) d _ (fun q h1 h2 => save_rest E pw d r q h1 h2) pw' c hne r'

/-! ### Crashes -/

theorem set_set (d : Disk) (p : Path) (a b : Option (List Nat)) : (d.set p a).set p b = d.set p b := by
  funext q; unfold Disk.set; by_cases h : q = p <;> simp [h]

/-- The calls, all made, are the save. -/
theorem saveCalls_all (E : Env) (pw : IvKey) (d : Disk) (r : Rec) :
    (saveCalls E pw r).foldl Call.run d = (save E pw d r).1 := by
  simp only [saveCalls, List.foldl, Call.run, save, saveObj, set_self, set_set, Option.getD_some,
    List.nil_append, List.length_nil, List.drop_zero]

theorem crash_cases (E : Env) (pw : IvKey) (d d' : Disk) (r : Rec) (h : CrashOf d (saveCalls E pw r) d') :
    d' = d ∨ (∃ k, d' = d.set (blobPath (addrOf E pw r))
        (some ((encode E pw r).take k ++
          ((d (blobPath (addrOf E pw r))).getD []).drop ((encode E pw r).take k).length))) ∨
      d' = (save E pw d r).1 := by
  have hk0 : ((encode E pw r).take 0).length = 0 := by simp
  cases h with
  | cut _ _ _ _ ht => cases ht with | create => exact .inl rfl
  | step _ _ _ _ h =>
    cases h with
    | cut _ _ _ _ ht =>
      cases ht with
      | write p dat k =>
        refine .inr (.inl ⟨k, ?_⟩)
        show Disk.set (Call.run d (.create _)) _ _ = _
        simp only [Call.run, set_set, set_self, Option.getD_some]
        rfl
    | step _ _ _ _ h =>
      cases h with
      | cut _ _ _ _ ht =>
        cases ht with
        | create =>
          refine .inr (.inl ⟨(encode E pw r).length, ?_⟩)
          simp only [Call.run, set_set, set_self, Option.getD_some, List.take_length]
          rfl
      | step _ _ _ _ h =>
        cases h with
        | done =>
          refine .inr (.inr ?_)
          exact saveCalls_all E pw d r

/-- **C48 (crash while saving)**: wherever the saving of a record is cut off, every other
record opens as before; one already there under the same address still opens; and a new
one is either not found at all or opens to the record that was being saved. -/
theorem C48_crash (E : Env) (hE : E.Sizes) (pw : IvKey) (d d' : Disk) (r : Rec) (h : r.Valid)
    (hfree : Free d (addrOf E pw r)) (hcr : CrashOf d (saveCalls E pw r) d') :
    (∀ pw' c r', c ≠ addrOf E pw r → (reload E pw' d' c = .ok r' ↔ reload E pw' d c = .ok r')) ∧
    (d (blobPath (addrOf E pw r)) = some (encode E pw r) → d (refPath (addrOf E pw r)) = some [] →
      reload E pw d' (addrOf E pw r) = .ok r) ∧
    (d (refPath (addrOf E pw r)) = none →
      reload E pw d' (addrOf E pw r) = .error .enoent ∨ reload E pw d' (addrOf E pw r) = .ok r) := by
  have hrt := C48_roundtrip E hE pw d r h hfree
  rw [save_addr] at hrt
  have hno : ∀ e : Disk, e (refPath (addrOf E pw r)) = none →
      reload E pw e (addrOf E pw r) = .error .enoent := by
    intro e he
    unfold reload stat lookupRef
    rw [he]
  rcases crash_cases E pw d d' r hcr with e | ⟨k, e⟩ | e
  · subst e
    exact ⟨fun _ _ _ _ => Iff.rfl, fun hb hr => reload_of E hE pw _ r h hb hr, fun hr => .inl (hno _ hr)⟩
  · have hrest : ∀ q, q ≠ blobPath (addrOf E pw r) → d' q = d q := by
      intro q hq; rw [e, set_ne _ _ _ _ hq]
    have href : d' (refPath (addrOf E pw r)) = d (refPath (addrOf E pw r)) :=
      hrest _ (fun e => blob_ne_ref _ _ e.symm)
    refine ⟨fun pw' c r' hne => ?_, fun hb hr => ?_, fun hr => .inl (hno _ (by rw [href, hr]))⟩
    · exact others_same E hE (encode E pw r) d d' (fun q h1 _ => hrest q h1) pw' c hne r'
    · refine reload_of E hE pw _ r h ?_ (by rw [href, hr])
      rw [e, set_self, hb]
      simp only [Option.getD_some, List.length_take, Option.some.injEq]
      by_cases hk : k ≤ (encode E pw r).length
      · rw [Nat.min_eq_left hk, List.take_append_drop]
      · rw [Nat.min_eq_right (by omega), List.take_of_length_le (by omega), List.drop_length,
          List.append_nil]
  · subst e
    exact ⟨fun pw' c r' hne => C48_others E hE pw pw' d r r' c hne, fun _ _ => hrt, fun _ => .inr hrt⟩

/-- **C48 (removed)**: a removed record can no longer be opened, and all others open as
before; a failing removal has removed nothing unless the reference was already gone. -/
theorem C48_unlink (E : Env) (hE : E.Sizes) (pw : IvKey) (d : Disk) (r : Rec) :
    ((unlink d (addrOf E pw r)).2 = .ok () → ∀ pw' r',
      reload E pw' (unlink d (addrOf E pw r)).1 (addrOf E pw r) ≠ .ok r') ∧
    (∀ pw' c r', c ≠ addrOf E pw r →
      (reload E pw' (unlink d (addrOf E pw r)).1 c = .ok r' ↔ reload E pw' d c = .ok r')) ∧
    ((unlink d (addrOf E pw r)).2 ≠ .ok () → d (refPath (addrOf E pw r)) ≠ none →
      (unlink d (addrOf E pw r)).1 = d) := by
  have hag : ∀ q, q ≠ blobPath (addrOf E pw r) → q ≠ refPath (addrOf E pw r) →
      (unlink d (addrOf E pw r)).1 q = d q := by
    intro q h1 h2
    unfold unlink
    cases hb : d (blobPath (addrOf E pw r)) with
    | none => rfl
    | some x =>
      cases hr : d (refPath (addrOf E pw r)) with
      | none => exact set_ne _ _ _ _ h1
      | some y =>
        show Disk.set _ _ _ _ = _
        rw [set_ne _ _ _ _ h2, set_ne _ _ _ _ h1]
  refine ⟨fun hok pw' r' ho => ?_, fun pw' c r' hne => ?_, fun hne href => ?_⟩
  · obtain ⟨x, _, hx, _⟩ := C48_accepted E pw' _ _ r' ho
    unfold unlink at hok hx
    cases hb : d (blobPath (addrOf E pw r)) with
    | none => rw [hb] at hok; cases hok
    | some x =>
      cases hr : d (refPath (addrOf E pw r)) with
      | none => rw [hb, hr] at hok; cases hok
      | some y => rw [hb, hr] at hx; simp only [set_self] at hx; cases hx
  · exact others_same E hE (encode E pw r) d _ hag pw' c hne r'
  · unfold unlink at hne ⊢
    cases hb : d (blobPath (addrOf E pw r)) with
    | none => rfl
    | some x =>
      cases hr : d (refPath (addrOf E pw r)) with
      | none => exact absurd hr href
      | some y => rw [hb, hr] at hne; exact absurd rfl hne

/-! ### Where the claims fail -/

/-- A cipher in a counter mode (AES-GCM, whose tag is not kept, is one): the text XORed
with bytes that depend on key and IV only. -/
structure Stream (E : Env) where
  ks : List Nat → List Nat → List Nat
  len : ∀ key iv, (ks key iv).length = 1024
  enc : ∀ key iv p, p.length = 1024 → E.C.enc key iv p = xorBytes p (ks key iv)

theorem xor_cancel (a b k : List Nat) (h1 : a.length = k.length) (h2 : b.length = k.length) :
    xorBytes (xorBytes a k) (xorBytes (xorBytes b k) a) = b := by
  induction k generalizing a b with
  | nil =>
    cases a with
    | nil => cases b with
      | nil => rfl
      | cons _ _ => cases h2
    | cons _ _ => cases h1
  | cons x k ih =>
    cases a with
    | nil => cases h1
    | cons y a =>
      cases b with
      | nil => cases h2
      | cons z b =>
        have e : (y ^^^ x) ^^^ ((z ^^^ x) ^^^ y) = z := by
          rw [Nat.xor_comm z x, Nat.xor_comm y x, Nat.xor_assoc, ← Nat.xor_assoc y, ← Nat.xor_assoc y,
            Nat.xor_comm y x, Nat.xor_assoc x y z, Nat.xor_assoc x, Nat.xor_assoc y z y, Nat.xor_comm z y,
            ← Nat.xor_assoc y y z, Nat.xor_self, Nat.zero_xor, ← Nat.xor_assoc, Nat.xor_self, Nat.zero_xor]
        simp only [xorBytes, List.zipWith_cons_cons, List.cons.injEq] at ih ⊢
        exact ⟨e, ih a b (by simpa using h1) (by simpa using h2)⟩

theorem xor_take_drop (a b : List Nat) (n m : Nat) :
    ((xorBytes a b).drop n).take m = xorBytes ((a.drop n).take m) ((b.drop n).take m) := by
  unfold xorBytes
  rw [List.drop_zipWith, List.take_zipWith]

theorem slice_key (sha3 : List Nat → List Nat) (r : Rec) (h : r.Fits) :
    ((stamped sha3 r).drop 64).take 32 = r.mainKey := by
  have := (fields r h (sha3 (body r))).2.2
  have e := congrArg Rec.mainKey this
  exact e

/-- **C48 is not met (secrecy of the keys)**: all records saved under one password are encrypted
with one and the same key stream.  Who knows the main key of one file-system can compute that of
every other with the same password from the two stored files, without the password. -/
theorem C48_keystream_violated (E : Env) (hE : E.Sizes) (S : Stream E) (pw : IvKey) (r1 r2 : Rec)
    (h1 : r1.Fits) (h2 : r2.Fits) :
    r2.mainKey = xorBytes (((encode E pw r1).drop 64).take 32)
      (xorBytes (((encode E pw r2).drop 64).take 32) r1.mainKey) := by
  have l1 := stamped_length E.sha3 hE.sha3 r1 h1
  have l2 := stamped_length E.sha3 hE.sha3 r2 h2
  unfold encode
  rw [S.enc _ _ _ l1, S.enc _ _ _ l2, xor_take_drop, xor_take_drop, slice_key _ _ h1, slice_key _ _ h2]
  refine (xor_cancel _ _ _ ?_ ?_).symm
  · rw [h1.key.1, List.length_take, List.length_drop, S.len]; decide
  · rw [h2.key.1, List.length_take, List.length_drop, S.len]; decide

/-- **C48 is not met (authenticity)**: who knows one record that was saved under a password can,
without the password, compute the stored file of any other record: it opens with that
password. -/
theorem C48_forged_violated (E : Env) (hE : E.Sizes) (S : Stream E) (pw : IvKey) (d : Disk) (r1 r2 : Rec)
    (h1 : r1.Fits) (h2 : r2.Valid) :
    let forged := xorBytes (encode E pw r1) (xorBytes (stamped E.sha3 r2) (stamped E.sha3 r1))
    reload E pw ((d.set (blobPath ⟨E.sha2 forged, 1024, 1⟩) (some forged)).set
      (refPath ⟨E.sha2 forged, 1024, 1⟩) (some [])) ⟨E.sha2 forged, 1024, 1⟩ = .ok r2 := by
  intro forged
  have l1 := stamped_length E.sha3 hE.sha3 r1 h1
  have l2 := stamped_length E.sha3 hE.sha3 r2 h2.fits
  have hf : forged = encode E pw r2 := by
    show xorBytes (encode E pw r1) _ = _
    unfold encode
    rw [S.enc _ _ _ l1, S.enc _ _ _ l2]
    have hk := S.len pw.key pw.iv
    generalize S.ks pw.key pw.iv = k at *
    generalize stamped E.sha3 r1 = a at *
    generalize stamped E.sha3 r2 = b at *
    clear forged
    unfold xorBytes
    apply List.ext_getElem
    · simp [l1, l2, hk]
    · intro i hi1 hi2
      simp only [List.length_zipWith] at hi2
      have g1 : i < a.length := by omega
      have g2 : i < b.length := by omega
      have g3 : i < k.length := by omega
      simp only [List.getElem_zipWith]
      generalize a[i] = y
      generalize b[i] = z
      generalize k[i] = x
      rw [Nat.xor_comm y x, Nat.xor_comm z y, Nat.xor_assoc, ← Nat.xor_assoc y, Nat.xor_self, Nat.zero_xor,
        Nat.xor_comm]
  rw [hf]
  refine reload_of E hE pw _ r2 h2 ?_ ?_
  · rw [set_ne _ _ _ _ (blob_ne_ref _ _)]; exact set_self _ _ _
  · exact set_self _ _ _

/-- **C48 is not met (saving again)**: saving does not cut an over-long file: once bytes were
added to a record's file, saving the very same record again reports success and the record
stays unusable. -/
theorem C48_resave_violated (E : Env) (hE : E.Sizes) (pw : IvKey) (d : Disk) (r : Rec) (h : r.Valid)
    (x : List Nat) (hx : d (blobPath (addrOf E pw r)) = some x) (hlong : 1024 < x.length)
    (hr : d (refPath (addrOf E pw r)) = some []) :
    reload E pw (save E pw d r).1 (save E pw d r).2 = .error .badboot := by
  rw [save_addr]
  have hl := encode_length E hE pw r h.fits
  have e : (save E pw d r).1 = saveObj (saveObj d (blobPath (addrOf E pw r)) (encode E pw r))
      (refPath (addrOf E pw r)) [] := rfl
  have hb : (save E pw d r).1 (blobPath (addrOf E pw r)) = some (encode E pw r ++ x.drop 1024) := by
    rw [e, saveObj, set_ne _ _ _ _ (blob_ne_ref _ _), saveObj, set_self, hx, hl]; rfl
  have hrf : (save E pw d r).1 (refPath (addrOf E pw r)) = some [] := by
    rw [e, saveObj, set_self, saveObj, set_ne _ _ _ _ (fun e => blob_ne_ref _ _ e.symm), hr]; rfl
  unfold reload stat lookupRef
  rw [hrf, hb]
  simp only [List.length_nil, ne_eq, not_true_eq_false, if_false, List.length_append, hl, List.length_drop]
  rw [if_pos (by unfold BOOTREC_SIZE; omega)]

/-! ### Not vacuous -/

namespace Sample

/-- A toy counter-mode cipher and toy hashes of the right sizes. -/
def E : Env where
  C := { enc := fun key iv p => p.map (· ^^^ key.headD 0), dec := fun key iv p => p.map (· ^^^ key.headD 0)
         dec_enc := by
           intro key iv p
           rw [List.map_map]
           refine (List.map_congr_left (fun a _ => ?_)).trans (List.map_id p)
           show (a ^^^ key.headD 0) ^^^ key.headD 0 = a
           rw [Nat.xor_assoc, Nat.xor_self, Nat.xor_zero] }
  sha2 := fun x => List.replicate 32 (x.foldl (· + ·) 0 % 256)
  sha3 := fun x => List.replicate 32 (x.foldl (· + ·) 0 % 256)

theorem sizes : E.Sizes where
  enc := fun _ _ p => by simp [E]
  sha2 := fun x => ⟨by simp [E], by intro b hb; simp only [E] at hb; rw [List.eq_of_mem_replicate hb]; omega⟩
  sha3 := fun x => by simp [E]

def stream : Stream E where
  ks := fun key _ => List.replicate 1024 (key.headD 0)
  len := fun _ _ => List.length_replicate ..
  enc := by
    intro key iv p hp
    show p.map _ = xorBytes p _
    unfold xorBytes
    apply List.ext_getElem
    · rw [List.length_map, List.length_zipWith, List.length_replicate, hp]; rfl
    · intro i h1 h2
      rw [List.getElem_map, List.getElem_zipWith, List.getElem_replicate]

def r : Rec :=
  ⟨List.replicate 16 7, List.replicate 32 9, List.replicate 16 3,
   ⟨⟨⟨List.replicate 16 1, 4096, 0, 2, 7, 2⟩, 0, 4096⟩, 0⟩, List.replicate 16 4,
   ⟨List.replicate 16 5, 1, 2, 65536⟩, 0, 9, 13⟩

theorem rvalid : r.Valid where
  fits := ⟨⟨by decide, by decide⟩, ⟨by decide, by decide⟩, ⟨by decide, by decide⟩, ⟨by decide, by decide⟩,
    ⟨⟨⟨by decide, by decide⟩, by decide, by decide, by decide, by decide, by decide⟩, by decide, by decide, by decide⟩,
    ⟨by decide, by decide⟩, ⟨by decide, by decide⟩, by decide, by decide, ⟨by decide, by decide⟩, by decide, by decide, by decide⟩
  ltype := rfl
  height := rfl
  voff := rfl
  algo := rfl
  mode := .inr (.inr rfl)

def pw : IvKey := ⟨List.replicate 32 77, []⟩

theorem free : Free (fun _ => none) (addrOf E pw r) := ⟨nofun, nofun⟩

example : reload E pw (save E pw (fun _ => none) r).1 (save E pw (fun _ => none) r).2 = .ok r :=
  C48_roundtrip E sizes pw _ r rvalid free

/-- With the wrong password it is refused. -/
theorem other_refused :
    reload E ⟨List.replicate 32 78, []⟩ (save E pw (fun _ => none) r).1 (save E pw (fun _ => none) r).2
      = .error .keyexpired :=
  (C48_other_password E sizes pw ⟨List.replicate 32 78, []⟩ (fun _ => none) r rvalid free).2
    (by decide +kernel) (by decide +kernel)

/-- A file with one byte too many meets the hypotheses of `C48_resave_violated`. -/
example : ∃ d : Disk, ∃ x, d (blobPath (addrOf E pw r)) = some x ∧ 1024 < x.length ∧
    d (refPath (addrOf E pw r)) = some [] :=
  ⟨(Disk.set (fun _ => none) (blobPath (addrOf E pw r)) (some (List.replicate 1025 0))).set
      (refPath (addrOf E pw r)) (some []), List.replicate 1025 0,
    by rw [set_ne _ _ _ _ (blob_ne_ref _ _), set_self], by rw [List.length_replicate]; decide, set_self _ _ _⟩

end Sample
end Silofs.Boot
