import Verif.Model.Boot
import Verif.Props.Caddr
import Verif.Props.Addr
/-!
C48: boot records.
-/
set_option linter.unusedSimpArgs false
set_option linter.unusedVariables false
namespace Silofs.Boot
open Silofs Silofs.Addr Silofs.EncDec

/-! ### The stored form -/

theorem uaddr64Htox_length (u : Uaddr) (h : u.laddr.Fits) : (uaddr64Htox u).length = 64 := by
  simp [uaddr64Htox, laddr48Htox_length _ h, leBytes_length]

theorem prange64Htox_length (p : Prange) (h : IsBytes 16 p.pvid) : (prange64Htox p).length = 64 := by
  simp [prange64Htox, h.1, leBytes_length]

theorem prange_roundtrip (p : Prange) (h : IsBytes 16 p.pvid) (h1 : p.base < 4294967296)
    (h2 : p.curr < 4294967296) (h3 : IsI64 p.pos) : prange64Xtoh (prange64Htox p) = p := by
  cases p with | mk pvid base curr pos =>
  have hv : pvid.length = 16 := h.1
  simp only [prange64Xtoh, prange64Htox, Prange.mk.injEq]
  refine ⟨take_app _ _ _ hv, ?_, ?_, ?_⟩
  · rw [drop_app _ _ _ hv, take_app _ _ _ (leBytes_length _ _), leVal_leBytes4 _ h1]
  · rw [drop_app_add _ _ 16 4 20 hv rfl, drop_app _ _ _ (leBytes_length _ _),
      take_app _ _ _ (leBytes_length _ _), leVal_leBytes4 _ h2]
  · rw [drop_app_add _ _ 16 8 24 hv rfl, drop_app_add _ _ 4 4 8 (leBytes_length _ _) rfl,
      drop_app _ _ _ (leBytes_length _ _), take_app _ _ _ (leBytes_length _ _),
      leVal_leBytes8 _ (toU64_lt _), toI64_toU64 _ h3]

/-- Slices of thirteen blocks of the record's sizes. -/
theorem slices (x1 x2 x3 x4 x5 x6 x7 x8 x9 x10 x11 x12 x13 x14 x15 : List Nat)
    (h1 : x1.length = 8) (h2 : x2.length = 8) (h3 : x3.length = 16) (h4 : x4.length = 8)
    (h5 : x5.length = 4) (h6 : x6.length = 4) (h7 : x7.length = 16) (h8 : x8.length = 32)
    (h9 : x9.length = 16) (h10 : x10.length = 16) (h11 : x11.length = 64) (h12 : x12.length = 64)
    (h13 : x13.length = 64) :
    let b := x1 ++ (x2 ++ (x3 ++ (x4 ++ (x5 ++ (x6 ++ (x7 ++ (x8 ++ (x9 ++ (x10 ++ (x11 ++ (x12 ++
      (x13 ++ x14))))))))))))
    b.take 8 = x1 ∧ (b.drop 8).take 8 = x2 ∧ (b.drop 16).take 16 = x3 ∧ (b.drop 32).take 8 = x4 ∧
    (b.drop 40).take 4 = x5 ∧ (b.drop 44).take 4 = x6 ∧ (b.drop 64).take 32 = x8 ∧
    (b.drop 96).take 16 = x9 ∧ (b.drop 112).take 16 = x10 ∧ (b.drop 128).take 64 = x11 ∧
    (b.drop 256).take 64 = x13 := by
  intro b
  refine ⟨?_, ?_, ?_, ?_, ?_, ?_, ?_, ?_, ?_, ?_, ?_⟩ <;>
  simp [b, List.drop_append, List.take_append, List.drop_of_length_le, List.take_of_length_le,
    h1, h2, h3, h4, h5, h6, h7, h8, h9, h10, h11, h12, h13]

theorem body_length (r : Rec) (h : r.Fits) : (body r).length = 992 := by
  unfold body
  simp only [List.length_append, leBytes_length, List.length_replicate, h.uuid.1, h.key.1, h.iv.1, h.riv.1,
    uaddr64Htox_length _ h.laddr, prange64Htox_length _ h.pvid]

theorem stamped_length (sha3 : List Nat → List Nat) (hs : ∀ x, (sha3 x).length = 32) (r : Rec)
    (h : r.Fits) : (stamped sha3 r).length = 1024 := by
  unfold stamped; rw [List.length_append, body_length r h, hs]

theorem fields (r : Rec) (h : r.Fits) (t : List Nat) :
    magicOf (body r ++ t) = MAGIC ∧ versionOf (body r ++ t) = VERSION ∧ xtoh (body r ++ t) = r := by
  have S := slices (leBytes 8 MAGIC) (leBytes 8 VERSION) r.uuid (leBytes 8 r.flags) (leBytes 4 r.algo)
    (leBytes 4 r.mode) (List.replicate 16 0) r.mainKey r.mainIv r.sbRiv (uaddr64Htox r.sbUaddr)
    (List.replicate 64 0) (prange64Htox r.prange) (List.replicate 672 0 ++ t) []
    (leBytes_length _ _) (leBytes_length _ _) h.uuid.1 (leBytes_length _ _) (leBytes_length _ _)
    (leBytes_length _ _) (List.length_replicate ..) h.key.1 h.iv.1 h.riv.1 (uaddr64Htox_length _ h.laddr)
    (List.length_replicate ..) (prange64Htox_length _ h.pvid)
  have e : body r ++ t = leBytes 8 MAGIC ++ (leBytes 8 VERSION ++ (r.uuid ++ (leBytes 8 r.flags ++
      (leBytes 4 r.algo ++ (leBytes 4 r.mode ++ (List.replicate 16 0 ++ (r.mainKey ++ (r.mainIv ++
      (r.sbRiv ++ (uaddr64Htox r.sbUaddr ++ (List.replicate 64 0 ++ (prange64Htox r.prange ++
      (List.replicate 672 0 ++ t))))))))))))) := by
    unfold body; simp only [List.append_assoc]
  simp only at S
  rw [← e] at S
  obtain ⟨s1, s2, s3, s4, s5, s6, s8, s9, s10, s11, s13⟩ := S
  refine ⟨?_, ?_, ?_⟩
  · unfold magicOf; rw [s1]; exact leVal_leBytes8 _ (by decide)
  · unfold versionOf; rw [s2]; exact leVal_leBytes8 _ (by decide)
  · have hf := h.flags
    unfold xtoh
    rw [s3, s4, s5, s6, s8, s9, s10, s11, s13, C27_uaddr_roundtrip _ h.laddr h.voff,
      prange_roundtrip _ h.pvid h.base h.curr h.pos, leVal_leBytes8 _ (by omega),
      leVal_leBytes4 _ h.algo, leVal_leBytes4 _ h.mode, Nat.mod_eq_of_lt hf]

/-! ### Specification -/

/-- A record a running file-system may have: a super-block address and a supported
cipher. -/
structure Rec.Valid (r : Rec) : Prop where
  fits : r.Fits
  ltype : r.sbUaddr.laddr.lsid.ltype = 2
  height : r.sbUaddr.laddr.lsid.height = 7
  voff : r.sbUaddr.voff = 0
  algo : r.algo = 9
  mode : r.mode = 3 ∨ r.mode = 9 ∨ r.mode = 13

/-- Output sizes of the primitives. -/
structure Env.Sizes (E : Env) : Prop where
  enc : ∀ key iv p, (E.C.enc key iv p).length = p.length
  sha2 : ∀ x, IsBytes 32 (E.sha2 x)
  sha3 : ∀ x, (E.sha3 x).length = 32

/-- The address a record is stored at: its type, its size, and the SHA-256 of the
stored bytes. -/
def addrOf (E : Env) (pw : IvKey) (r : Rec) : Caddr := ⟨E.sha2 (encode E pw r), 1024, 1⟩

theorem save_addr (E : Env) (pw : IvKey) (d : Disk) (r : Rec) : (save E pw d r).2 = addrOf E pw r := rfl

theorem encode_length (E : Env) (hE : E.Sizes) (pw : IvKey) (r : Rec) (h : r.Fits) :
    (encode E pw r).length = 1024 := by
  unfold encode; rw [hE.enc, stamped_length _ hE.sha3 r h]

theorem verify_stamped (E : Env) (hE : E.Sizes) (r : Rec) (h : r.Valid) :
    verify E.sha3 (stamped E.sha3 r) = .ok () := by
  have F := fields r h.fits (E.sha3 (body r))
  have hl := body_length r h.fits
  unfold verify checkBase stamped
  rw [F.1, F.2.1, F.2.2]
  have hu : uaddrOk r.sbUaddr = true := by
    unfold uaddrOk; rw [h.ltype, h.height, h.voff]; decide
  have hc : cipherOk r.algo r.mode = true := by
    unfold cipherOk; rw [h.algo]; rcases h.mode with e | e | e <;> rw [e] <;> decide
  rw [hu, hc, drop_app _ _ _ hl, take_app _ _ _ hl]
  simp

theorem decode_encode (E : Env) (hE : E.Sizes) (pw : IvKey) (r : Rec) (h : r.Valid) :
    decode E pw (encode E pw r) = .ok r := by
  unfold decode encode
  rw [E.C.dec_enc, verify_stamped E hE r h]
  show Except.ok (xtoh (stamped E.sha3 r)) = Except.ok r
  unfold stamped
  rw [(fields r h.fits _).2.2]

theorem set_self (d : Disk) (p : Path) (c : Option (List Nat)) : d.set p c p = c := by
  unfold Disk.set; rw [if_pos rfl]
theorem set_ne (d : Disk) (p q : Path) (c : Option (List Nat)) (h : q ≠ p) : d.set p c q = d q := by
  unfold Disk.set; rw [if_neg h]

theorem blob_ne_ref (c e : Caddr) : blobPath c ≠ refPath e := by
  unfold blobPath refPath; intro h; cases h

/-- The hash can be read back from the file name. -/
theorem blobPath_inj (c e : Caddr) (hc : IsBytes 32 c.hash) (he : IsBytes 32 e.hash)
    (h : blobPath c = blobPath e) : c.hash = e.hash := by
  unfold blobPath at h
  have h' : memToAscii c.hash 255 = memToAscii e.hash 255 := by injection h
  have a := asciiToMem_memToAscii c.hash hc.2 255 32 (by rw [hc.1]; omega) (by rw [hc.1]; omega)
  have b := asciiToMem_memToAscii e.hash he.2 255 32 (by rw [he.1]; omega) (by rw [he.1]; omega)
  rw [h', b] at a
  exact ((Prod.mk.injEq ..).mp a).1.symm

/-- Nothing of another kind is in the way: any file of that name is no longer than a
record, and any reference file of that name is empty. -/
structure Free (d : Disk) (c : Caddr) : Prop where
  blob : ∀ x, d (blobPath c) = some x → x.length ≤ 1024
  ref : ∀ x, d (refPath c) = some x → x = []

theorem blob_drop (d : Disk) (c : Caddr) (h : Free d c) (enc : List Nat) (hl : enc.length = 1024) :
    enc ++ ((d (blobPath c)).getD []).drop enc.length = enc := by
  have : ((d (blobPath c)).getD []).drop enc.length = [] := by
    cases hd : d (blobPath c) with
    | none => simp
    | some x =>
      have := h.blob x hd
      exact List.drop_of_length_le (by simp only [Option.getD_some]; omega)
  rw [this, List.append_nil]

theorem save_blob (E : Env) (hE : E.Sizes) (pw : IvKey) (d : Disk) (r : Rec) (h : r.Fits)
    (hfree : Free d (addrOf E pw r)) :
    (save E pw d r).1 (blobPath (addrOf E pw r)) = some (encode E pw r) := by
  have hl := encode_length E hE pw r h
  have e : (save E pw d r).1 = saveObj (saveObj d (blobPath (addrOf E pw r)) (encode E pw r))
      (refPath (addrOf E pw r)) [] := rfl
  rw [e, saveObj, set_ne _ _ _ _ (blob_ne_ref _ _), saveObj, set_self, blob_drop d _ hfree _ hl]

theorem save_ref (E : Env) (pw : IvKey) (d : Disk) (r : Rec) (hfree : Free d (addrOf E pw r)) :
    (save E pw d r).1 (refPath (addrOf E pw r)) = some [] := by
  have e : (save E pw d r).1 = saveObj (saveObj d (blobPath (addrOf E pw r)) (encode E pw r))
      (refPath (addrOf E pw r)) [] := rfl
  rw [e, saveObj, set_self, saveObj, set_ne _ _ _ _ (fun e => blob_ne_ref _ _ e.symm)]
  cases hd : d (refPath (addrOf E pw r)) with
  | none => rfl
  | some x => rw [hfree.ref x hd]; rfl

theorem save_rest (E : Env) (pw : IvKey) (d : Disk) (r : Rec) (q : Path)
    (h1 : q ≠ blobPath (addrOf E pw r)) (h2 : q ≠ refPath (addrOf E pw r)) :
    (save E pw d r).1 q = d q := by
  have e : (save E pw d r).1 = saveObj (saveObj d (blobPath (addrOf E pw r)) (encode E pw r))
      (refPath (addrOf E pw r)) [] := rfl
  rw [e, saveObj, set_ne _ _ _ _ h2, saveObj, set_ne _ _ _ _ h1]

/-- What a disk must hold for a record to be opened. -/
theorem reload_of (E : Env) (hE : E.Sizes) (pw : IvKey) (d : Disk) (r : Rec) (h : r.Valid)
    (hb : d (blobPath (addrOf E pw r)) = some (encode E pw r)) (hr : d (refPath (addrOf E pw r)) = some []) :
    reload E pw d (addrOf E pw r) = .ok r := by
  have hl := encode_length E hE pw r h.fits
  have h1 : lookupRef d (addrOf E pw r) = .ok () := by
    unfold lookupRef; rw [hr]; rfl
  have h2 : stat d (addrOf E pw r) = .ok () := by
    unfold stat; rw [h1, hb]
    show (if (encode E pw r).length ≠ BOOTREC_SIZE then _ else _) = _
    rw [if_neg (by rw [hl]; decide)]
  unfold reload
  rw [h2]
  show load E pw d (addrOf E pw r) = _
  unfold load
  rw [h1]
  have h3 : loadObj d (blobPath (addrOf E pw r)) BOOTREC_SIZE = .ok (encode E pw r) := by
    unfold loadObj; rw [hb]
    show (if (encode E pw r).length < BOOTREC_SIZE then _ else _) = _
    rw [if_neg (by rw [hl]; decide), List.take_of_length_le (by rw [hl]; decide)]
  rw [h3]
  show (if addrOf E pw r ≠ caddrOf E (encode E pw r) then _ else _) = _
  rw [if_neg (by simp [addrOf, caddrOf, BOOTREC_SIZE])]
  exact decode_encode E hE pw r h

/-- **C48 (saved, then opened)**: a record saved under a password opens, with that
password and the address returned, to the same record: identity, keys, location of
the super-block, position in storage, cipher. -/
theorem C48_roundtrip (E : Env) (hE : E.Sizes) (pw : IvKey) (d : Disk) (r : Rec) (h : r.Valid)
    (hfree : Free d (addrOf E pw r)) :
    reload E pw (save E pw d r).1 (save E pw d r).2 = .ok r := by
  rw [save_addr]
  exact reload_of E hE pw _ r h (save_blob E hE pw d r h.fits hfree) (save_ref E pw d r hfree)

/-! ### What an opened record guarantees -/

/-- **C48 (accepted)**: whatever is in the repository, and whatever password is used, a record is
opened only when its reference is there, its file has exactly the record's size and the
address' SHA-256, and the decrypted bytes carry the marks, a super-block address, a
supported cipher, and the SHA3-256 of all that precedes it; the result is what those bytes
say. -/
theorem C48_accepted (E : Env) (pw : IvKey) (d : Disk) (c : Caddr) (r : Rec)
    (h : reload E pw d c = .ok r) :
    ∃ x, d (blobPath c) = some x ∧ d (refPath c) = some [] ∧ x.length = 1024 ∧
      c = ⟨E.sha2 x, 1024, 1⟩ ∧
      leVal ((E.C.dec pw.key pw.iv x).take 8) = 0x4053464F4C495340 ∧
      leVal (((E.C.dec pw.key pw.iv x).drop 8).take 8) = 1 ∧
      (E.C.dec pw.key pw.iv x).drop 992 = E.sha3 ((E.C.dec pw.key pw.iv x).take 992) ∧
      r = xtoh (E.C.dec pw.key pw.iv x) ∧ r.sbUaddr.laddr.lsid.ltype = 2 ∧
      r.sbUaddr.laddr.lsid.height = 7 ∧ r.sbUaddr.voff = 0 ∧ r.algo = 9 ∧
      (r.mode = 3 ∨ r.mode = 9 ∨ r.mode = 13) := by
  unfold reload at h
  cases hs : stat d c with
  | error e => rw [hs] at h; cases h
  | ok _ =>
    rw [hs] at h
    unfold stat at hs
    cases hl : lookupRef d c with
    | error e => rw [hl] at hs; cases hs
    | ok _ =>
      rw [hl] at hs
      cases hb : d (blobPath c) with
      | none => rw [hb] at hs; cases hs
      | some x =>
        rw [hb] at hs
        simp only at hs
        by_cases hx : x.length ≠ BOOTREC_SIZE
        · rw [if_pos hx] at hs; cases hs
        · have hx' : x.length = 1024 := by unfold BOOTREC_SIZE at hx; omega
          have hr : d (refPath c) = some [] := by
            unfold lookupRef at hl
            cases hd : d (refPath c) with
            | none => rw [hd] at hl; cases hl
            | some y =>
              rw [hd] at hl; simp only at hl
              by_cases hy : y.length ≠ 0
              · rw [if_pos hy] at hl; cases hl
              · have hy' : y = [] := List.eq_nil_of_length_eq_zero (by omega)
                rw [hy']
          simp only at h
          unfold load at h
          have ho : loadObj d (blobPath c) BOOTREC_SIZE = .ok x := by
            unfold loadObj; rw [hb]
            show (if x.length < BOOTREC_SIZE then _ else _) = _
            rw [if_neg (by rw [hx']; decide), List.take_of_length_le (by rw [hx']; decide)]
          rw [hl, ho] at h
          simp only at h
          by_cases hc : c ≠ caddrOf E x
          · rw [if_pos hc] at h; cases h
          · rw [if_neg hc] at h
            have hc' : c = ⟨E.sha2 x, 1024, 1⟩ := by
              have := Classical.not_not.mp hc
              rw [this]; rfl
            unfold decode at h
            cases hv : verify E.sha3 (E.C.dec pw.key pw.iv x) with
            | error e => rw [hv] at h; cases h
            | ok _ =>
              rw [hv] at h
              have hr' : xtoh (E.C.dec pw.key pw.iv x) = r := by injection h
              generalize hp : E.C.dec pw.key pw.iv x = p at *
              unfold verify at hv
              cases hcb : checkBase p with
              | error e => rw [hcb] at hv; cases hv
              | ok _ =>
                rw [hcb] at hv
                simp only at hv
                unfold checkBase at hcb
                by_cases k1 : magicOf p ≠ MAGIC ∧ versionOf p ≠ VERSION
                · rw [if_pos k1] at hcb; cases hcb
                · rw [if_neg k1] at hcb
                  by_cases k2 : magicOf p ≠ MAGIC
                  · rw [if_pos k2] at hcb; cases hcb
                  · rw [if_neg k2] at hcb
                    by_cases k3 : versionOf p ≠ VERSION
                    · rw [if_pos k3] at hcb; cases hcb
                    · cases ku : uaddrOk (xtoh p).sbUaddr with
                      | false => rw [ku] at hv; simp at hv
                      | true =>
                        cases kc : cipherOk (xtoh p).algo (xtoh p).mode with
                        | false => rw [ku, kc] at hv; simp at hv
                        | true =>
                          rw [ku, kc] at hv
                          by_cases k4 : p.drop 992 ≠ E.sha3 (p.take 992)
                          · rw [if_pos k4] at hv; simp at hv
                          · rw [hr'] at ku kc
                            unfold uaddrOk at ku
                            unfold cipherOk at kc
                            simp only [Bool.and_eq_true, Bool.or_eq_true, beq_iff_eq] at ku kc
                            refine ⟨x, rfl, hr, hx', hc', ?_, ?_, ?_, ?_, ku.1.1, ku.1.2, ku.2, kc.1, ?_⟩
                            · rw [hp]; exact Classical.not_not.mp k2
                            · rw [hp]; exact Classical.not_not.mp k3
                            · rw [hp]; exact Classical.not_not.mp k4
                            · rw [hp]; exact hr'.symm
                            · rcases kc.2 with (e | e) | e
                              · exact .inr (.inl e)
                              · exact .inl e
                              · exact .inr (.inr e)

/-- **C48 (no other record)**: let a record be saved, and let the repository be changed in
any way at all.  Opening its address with its password gives that very record, or is
refused, unless the changed file is a second pre-image: other bytes of the same SHA-256. -/
theorem C48_tamper (E : Env) (hE : E.Sizes) (pw : IvKey) (r : Rec) (h : r.Valid) (d' : Disk) (r' : Rec)
    (ho : reload E pw d' (addrOf E pw r) = .ok r') :
    r' = r ∨ ∃ x, d' (blobPath (addrOf E pw r)) = some x ∧ x ≠ encode E pw r ∧
      E.sha2 x = E.sha2 (encode E pw r) := by
  obtain ⟨x, hb, _, _, hc, _, _, _, hx, _⟩ := C48_accepted E pw d' _ r' ho
  by_cases hxe : x = encode E pw r
  · left
    rw [hx, hxe]
    unfold encode; rw [E.C.dec_enc]; unfold stamped; exact (fields r h.fits _).2.2
  · right
    refine ⟨x, hb, hxe, ?_⟩
    have : E.sha2 (encode E pw r) = E.sha2 x := congrArg Caddr.hash hc
    exact this.symm

/-- **C48 (another password)**: with any other key and IV the saved record is refused, unless
the wrongly decrypted bytes happen to be a correctly marked and hashed record; when neither
mark comes out, the answer is "key expired". -/
theorem C48_other_password (E : Env) (hE : E.Sizes) (pw pw' : IvKey) (d : Disk) (r : Rec) (h : r.Valid)
    (hfree : Free d (addrOf E pw r)) :
    let p := E.C.dec pw'.key pw'.iv (encode E pw r)
    (∀ r', reload E pw' (save E pw d r).1 (save E pw d r).2 = .ok r' →
      leVal (p.take 8) = 0x4053464F4C495340 ∧ leVal ((p.drop 8).take 8) = 1 ∧
      p.drop 992 = E.sha3 (p.take 992)) ∧
    (leVal (p.take 8) ≠ 0x4053464F4C495340 → leVal ((p.drop 8).take 8) ≠ 1 →
      reload E pw' (save E pw d r).1 (save E pw d r).2 = .error .keyexpired) := by
  intro p
  have hb : (save E pw d r).1 (blobPath (addrOf E pw r)) = some (encode E pw r) := save_blob E hE pw d r h.fits hfree
  refine ⟨fun r' hr' => ?_, fun h1 h2 => ?_⟩
  · rw [save_addr] at hr'
    obtain ⟨x, hb', _, _, _, m, v, hh, _⟩ := C48_accepted E pw' _ _ r' hr'
    rw [hb] at hb'; cases hb'
    exact ⟨m, v, hh⟩
  · have hrt := C48_roundtrip E hE pw d r h hfree
    rw [save_addr] at hrt ⊢
    unfold reload at hrt ⊢
    cases hs : stat (save E pw d r).1 (addrOf E pw r) with
    | error e => rw [hs] at hrt; cases hrt
    | ok _ =>
      rw [hs] at hrt
      simp only at hrt ⊢
      unfold load at hrt ⊢
      cases hl : lookupRef (save E pw d r).1 (addrOf E pw r) with
      | error e => rw [hl] at hrt; cases hrt
      | ok _ =>
        have hlen := encode_length E hE pw r h.fits
        have ho : loadObj (save E pw d r).1 (blobPath (addrOf E pw r)) BOOTREC_SIZE = .ok (encode E pw r) := by
          unfold loadObj; rw [hb]
          show (if (encode E pw r).length < BOOTREC_SIZE then _ else _) = _
          rw [if_neg (by rw [hlen]; decide), List.take_of_length_le (by rw [hlen]; decide)]
        rw [ho]
        simp only
        rw [if_neg (by simp [addrOf, caddrOf, BOOTREC_SIZE])]
        unfold decode verify checkBase
        rw [if_pos ⟨h1, h2⟩]

end Silofs.Boot
