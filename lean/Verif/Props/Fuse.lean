import Verif.Spec.Fuse
/-
C51: what the kernel asks is what the file-system is asked, and what the file-system answers is what
the kernel is answered.
-/
set_option linter.unusedSimpArgs false
set_option linter.unusedVariables false

namespace Silofs.Fuse

/-! ### Fields -/

theorem rd_skip (w k off x : Nat) (r : Buf) (h : k ≤ off) : rd w off (leBytes k x ++ r) = rd w (off - k) r := by
  unfold rd
  rw [List.drop_append, leBytes_length, List.drop_eq_nil_of_le (by rw [leBytes_length]; exact h), List.nil_append]

theorem rd_hit (w x : Nat) (r : Buf) : rd w 0 (leBytes w x ++ r) = x % 256 ^ w := by
  unfold rd
  rw [List.drop_zero, List.take_append_of_le_length (by simp [leBytes_length]),
    List.take_of_length_le (by simp [leBytes_length]), leVal_leBytes]

theorem u32_mod (x : UInt32) : x.toNat % 256 ^ 4 = x.toNat := Nat.mod_eq_of_lt x.toNat_lt
theorem u64_mod (x : UInt64) : x.toNat % 256 ^ 8 = x.toNat := Nat.mod_eq_of_lt x.toNat_lt

theorem drop_skip (k off x : Nat) (r : Buf) (h : k ≤ off) : (leBytes k x ++ r).drop off = r.drop (off - k) := by
  rw [List.drop_append, leBytes_length, List.drop_eq_nil_of_le (by rw [leBytes_length]; exact h), List.nil_append]

theorem takeWhile_str (s : List Nat) (r : Buf) (h : NoNul s) :
    (s ++ 0 :: r).takeWhile (· != 0) = s := by
  induction s with
  | nil => simp
  | cons a s ih =>
    have ha : a ≠ 0 := h a (by simp)
    have hs : NoNul s := fun b hb => h b (by simp [hb])
    rw [List.cons_append, List.takeWhile_cons_of_pos (by simpa using ha), ih hs]

theorem drop_str (s : List Nat) (r : Buf) : (s ++ 0 :: r).drop (s.length + 1) = r := by
  rw [show s ++ 0 :: r = (s ++ [0]) ++ r by simp, List.drop_left' (by simp)]

theorem cstr_of (off : Nat) (b s r : Buf) (hb : b.drop off = s ++ 0 :: r) (h : NoNul s) : cstr off b = s := by
  unfold cstr; rw [hb, takeWhile_str s r h]

theorem after_of (off : Nat) (b s r : Buf) (hb : b.drop off = s ++ 0 :: r) (h : NoNul s) :
    b.drop (afterName off b) = r := by
  unfold afterName
  rw [cstr_of off b s r hb h, Nat.add_assoc, ← List.drop_drop, hb, drop_str]

/-! ### A whole message in the buffer -/

/-- The header of a message, before a body. -/
def hdrBytes (len : Nat) (code : UInt32) (h : KHdr) (B : Buf) : Buf :=
  leBytes 4 len ++ (leBytes 4 code.toNat ++ (leBytes 8 h.unique.toNat ++ (leBytes 8 h.node.toNat ++
    (leBytes 4 h.uid.toNat ++ (leBytes 4 h.gid.toNat ++ (leBytes 4 h.pid.toNat ++ (leBytes 2 0 ++
      (leBytes 2 0 ++ B))))))))

theorem wire_eq (ext : Bool) (h : KHdr) (r : KReq) :
    wire ext h r = hdrBytes (40 + (r.body ext).length) r.code h (r.body ext) := by
  simp only [wire, hdrBytes, le32, le64, List.append_assoc]

theorem hdrBytes_append (len : Nat) (code : UInt32) (h : KHdr) (B R : Buf) :
    hdrBytes len code h B ++ R = hdrBytes len code h (B ++ R) := by
  simp only [hdrBytes, List.append_assoc]

theorem hdrBytes_length (len : Nat) (code : UInt32) (h : KHdr) (B : Buf) :
    (hdrBytes len code h B).length = 40 + B.length := by
  simp only [hdrBytes, List.length_append, leBytes_length]; omega

theorem hdr_len (len : Nat) (code : UInt32) (h : KHdr) (B : Buf) : hLen (hdrBytes len code h B) = len % 256 ^ 4 := by
  unfold hLen hdrBytes; exact rd_hit _ _ _

theorem hdr_code (len : Nat) (code : UInt32) (h : KHdr) (B : Buf) : hOpcode (hdrBytes len code h B) = code.toNat := by
  unfold hOpcode hdrBytes
  simp only [rd_skip, rd_hit, u32_mod, Nat.le_refl, Nat.sub_self]

theorem hdr_unique (len : Nat) (code : UInt32) (h : KHdr) (B : Buf) :
    hUnique (hdrBytes len code h B) = h.unique.toNat := by
  unfold hUnique hdrBytes
  simp only [rd_skip, rd_hit, u64_mod, Nat.reduceLeDiff, Nat.reduceSub, Nat.le_refl, Nat.sub_self]

theorem hdr_node (len : Nat) (code : UInt32) (h : KHdr) (B : Buf) :
    hNode (hdrBytes len code h B) = h.node.toNat := by
  unfold hNode hdrBytes
  simp only [rd_skip, rd_hit, u64_mod, Nat.reduceLeDiff, Nat.reduceSub, Nat.le_refl, Nat.sub_self]

theorem hdr_uid (len : Nat) (code : UInt32) (h : KHdr) (B : Buf) :
    hUid (hdrBytes len code h B) = h.uid.toNat := by
  unfold hUid hdrBytes
  simp only [rd_skip, rd_hit, u32_mod, Nat.reduceLeDiff, Nat.reduceSub, Nat.le_refl, Nat.sub_self]

theorem hdr_gid (len : Nat) (code : UInt32) (h : KHdr) (B : Buf) :
    hGid (hdrBytes len code h B) = h.gid.toNat := by
  unfold hGid hdrBytes
  simp only [rd_skip, rd_hit, u32_mod, Nat.reduceLeDiff, Nat.reduceSub, Nat.le_refl, Nat.sub_self]

theorem hdr_pid (len : Nat) (code : UInt32) (h : KHdr) (B : Buf) :
    hPid (hdrBytes len code h B) = h.pid.toNat := by
  unfold hPid hdrBytes
  simp only [rd_skip, rd_hit, u32_mod, Nat.reduceLeDiff, Nat.reduceSub, Nat.le_refl, Nat.sub_self]

theorem hdr_drop (len : Nat) (code : UInt32) (h : KHdr) (B : Buf) (off : Nat) (ho : 40 ≤ off) :
    (hdrBytes len code h B).drop off = B.drop (off - 40) := by
  unfold hdrBytes
  repeat rw [drop_skip _ _ _ _ (by omega)]
  rw [show off - 4 - 4 - 8 - 8 - 4 - 4 - 4 - 2 - 2 = off - 40 by omega]


theorem hdr_rd (w len : Nat) (code : UInt32) (h : KHdr) (B : Buf) (off : Nat) (ho : 40 ≤ off) :
    rd w off (hdrBytes len code h B) = rd w (off - 40) B := by
  unfold rd; rw [hdr_drop _ _ _ _ _ ho]

/-- The buffer after a message has come in whole. -/
theorem over_wire (ext : Bool) (h : KHdr) (r : KReq) (old : Buf) :
    ∃ rest, over (wire ext h r) old = hdrBytes (40 + (r.body ext).length) r.code h (r.body ext ++ rest) := by
  refine ⟨old.drop (wire ext h r).length, ?_⟩
  unfold over
  rw [wire_eq, hdrBytes_append]

/-! ### Decoding of the body -/

theorem setattr_flags (s : KSetattr) (k : Nat) (hk : k < 11) :
    bit (s.valid % 256 ^ 4 &&& 0x7FF) k = bit s.valid k := by
  unfold bit
  have h1 : (0x7FF : Nat) = 2 ^ 11 - 1 := by decide
  rw [h1, Nat.testBit_and, Nat.testBit_two_pow_sub_one, show (256 : Nat) ^ 4 = 2 ^ 32 by decide,
    Nat.testBit_mod_two_pow]
  have : k < 32 := by omega
  simp [hk, this]

theorem flag_bit (k j : Nat) (b : Bool) : (flag k b).testBit j = (b && decide (k = j)) := by
  unfold flag
  cases b
  · simp
  · simp only [if_true, Nat.testBit_two_pow, Bool.true_and]

theorem valid_bit (s : KSetattr) (j : Nat) :
    bit s.valid j = ((s.mode.isSome && decide (0 = j)) || (s.uid.isSome && decide (1 = j)) ||
      (s.gid.isSome && decide (2 = j)) || (s.size.isSome && decide (3 = j)) || (s.atime.isSome && decide (4 = j)) ||
      (s.mtime.isSome && decide (5 = j)) || (s.fh.isSome && decide (6 = j)) ||
      (s.atime.any (·.now) && decide (7 = j)) || (s.mtime.any (·.now) && decide (8 = j)) ||
      (s.lockOwner.isSome && decide (9 = j)) || (s.ctime.isSome && decide (10 = j))) := by
  unfold bit KSetattr.valid
  simp only [Nat.testBit_or, flag_bit]

theorem decode_setattr (s : KSetattr) (len : Nat) (h : KHdr) (rest : Buf) :
    setArgsOf (hdrBytes len 4 h (s.body ++ rest)) = s.means := by
  have hb : s.body ++ rest = leBytes 4 s.valid ++ (leBytes 4 0 ++ (leBytes 8 (s.fh.getD 0).toNat ++
      (leBytes 8 (s.size.getD 0).toNat ++ (leBytes 8 (s.lockOwner.getD 0).toNat ++
      (leBytes 8 (s.atime.getD .zero).sec.toNat ++ (leBytes 8 (s.mtime.getD .zero).sec.toNat ++
      (leBytes 8 (s.ctime.getD (0, 0)).1.toNat ++ (leBytes 4 (s.atime.getD .zero).nsec.toNat ++
      (leBytes 4 (s.mtime.getD .zero).nsec.toNat ++ (leBytes 4 (s.ctime.getD (0, 0)).2.toNat ++
      (leBytes 4 (s.mode.getD 0).toNat ++ (leBytes 4 0 ++ (leBytes 4 (s.uid.getD 0).toNat ++
      (leBytes 4 (s.gid.getD 0).toNat ++ (leBytes 4 0 ++ rest))))))))))))))) := by
    simp only [KSetattr.body, le32, le64, List.append_assoc]; rfl
  rw [hb]
  unfold setArgsOf KSetattr.means idsOf tmOf ctmOf
  simp only [hdr_rd, rd_skip, rd_hit, u32_mod, u64_mod, Nat.reduceLeDiff, Nat.reduceSub, Nat.le_refl, Nat.sub_self,
    Nat.reduceLT, setattr_flags, valid_bit, Nat.zero_le]
  simp only [Nat.reduceEqDiff, decide_true, decide_false, Bool.and_true, Bool.and_false, Bool.or_false, Bool.false_or,
    Nat.zero_ne_one, Nat.one_ne_zero, reduceCtorEq, Nat.reduceEqDiff]
  obtain ⟨fh, mode, uid, gid, size, lo, at', mt, ct⟩ := s
  simp only [SetArgs.mk.injEq]
  refine ⟨?_, ?_, ?_, trivial, trivial, trivial, ?_, ?_, ?_⟩
  · cases mode <;> rfl
  · cases uid <;> cases gid <;> rfl
  · cases size <;> rfl
  · cases at' <;> rfl
  · cases mt <;> rfl
  · cases ct with
    | some c => rfl
    | none =>
      simp only [KSetattr.any]
      cases mode <;> cases uid <;> cases gid <;> cases size <;> cases at' <;> cases mt <;> simp

theorem str0_append (s r : Buf) : str0 s ++ r = s ++ 0 :: r := by simp [str0]

theorem forgets_of (l : List (UInt64 × UInt64)) (rest : Buf) :
    forgetsOf l.length ((l.map fun e => le64 e.1 ++ le64 e.2).flatten ++ rest) =
      l.map fun e => (e.1.toNat, e.2.toNat) := by
  induction l with
  | nil => rfl
  | cons e l ih =>
    simp only [List.map_cons, List.flatten_cons, List.length_cons, forgetsOf, le64, List.append_assoc]
    rw [rd_hit, u64_mod, rd_skip _ _ _ _ _ (by decide), Nat.sub_self, rd_hit, u64_mod,
      drop_skip _ _ _ _ (by decide), drop_skip _ _ _ _ (by decide), List.drop_zero]
    have := ih
    simp only [le64] at this
    rw [this]

theorem decode_other (fq : Fq) (i : In) (h : ∃ c : UInt32, hOpcode i.buf = c.toNat ∧ otherCodes c) :
    decode fq i = none := by
  obtain ⟨c, hc, ho⟩ := h
  unfold decode
  rw [hc]
  have hne : ∀ k : UInt32, k ∈ ([1, 2, 3, 4, 5, 6, 8, 9, 10, 11, 12, 13, 14, 15, 16, 17, 18, 20, 21, 22, 23,
      24, 25, 26, 27, 28, 29, 30, 34, 35, 38, 39, 42, 43, 44, 45, 46, 47, 50, 52] : List Nat).map UInt32.ofNat →
      c.toNat ≠ k.toNat := by
    intro k hk e
    exact ho (UInt32.toNat_inj.1 e ▸ hk)
  simp only [List.map_cons, List.map_nil, List.forall_mem_cons] at hne
  simp only [UInt32.reduceOfNat, UInt32.reduceToNat] at hne
  split <;> first | rfl | (exfalso; simp_all)

set_option maxHeartbeats 1000000 in
/-- Everything but a large write that is still in the pipe. -/
theorem decode_whole (fq : Fq) (h : KHdr) (r : KReq) (len : Nat) (rest pipe : Buf)
    (hm : 33 < fq.minor) (hf : r.Fine fq.maxRead fq.maxWrite) (ha : r.Agrees)
    (hl : (r.body true).length < 2 ^ 32)
    (hw : (fq.splice && hasLargeWrite (hdrBytes len r.code h (r.body true ++ rest))) = false) :
    decode fq ⟨hdrBytes len r.code h (r.body true ++ rest), pipe⟩ = r.means h.node.toNat := by
  cases r
  case setattr s =>
    unfold decode
    simp only [hdr_code, KReq.code, hdr_node, KReq.means, KReq.body]
    show some (Call.setattr _ (setArgsOf (hdrBytes len 4 h (s.body ++ rest)))) = _
    rw [decode_setattr]
  case symlink n t =>
    obtain ⟨h1, h2⟩ := hf
    have e1 : (hdrBytes len 6 h (str0 n ++ str0 t ++ rest)).drop 40 = n ++ 0 :: (t ++ 0 :: rest) := by
      rw [hdr_drop _ _ _ _ _ (by decide), List.append_assoc, str0_append, str0_append]; rfl
    unfold decode
    simp only [hdr_code, KReq.code, hdr_node, KReq.means, KReq.body]
    rw [cstr_of _ _ _ _ e1 h1, cstr_of _ _ t rest (after_of _ _ _ _ e1 h1) h2]; rfl
  case rename n d n' =>
    obtain ⟨h1, h2⟩ := hf
    have e1 : (hdrBytes len 12 h (le64 d ++ str0 n ++ str0 n' ++ rest)).drop 48 = n ++ 0 :: (n' ++ 0 :: rest) := by
      rw [hdr_drop _ _ _ _ _ (by decide), List.append_assoc, List.append_assoc, str0_append, str0_append, le64,
        drop_skip _ _ _ _ (by decide)]; rfl
    unfold decode
    simp only [hdr_code, KReq.code, hdr_node, KReq.means, KReq.body]
    rw [cstr_of _ _ _ _ e1 h1, cstr_of _ _ n' rest (after_of _ _ _ _ e1 h1) h2]
    simp only [hdr_rd, Nat.le_refl, Nat.sub_self, le64, List.append_assoc, rd_hit, u64_mod]; rfl
  case rename2 n d n' f =>
    obtain ⟨h1, h2⟩ := hf
    have e1 : (hdrBytes len 45 h (le64 d ++ le32 f ++ le32 0 ++ str0 n ++ str0 n' ++ rest)).drop 56 =
        n ++ 0 :: (n' ++ 0 :: rest) := by
      rw [hdr_drop _ _ _ _ _ (by decide)]
      simp only [List.append_assoc, str0_append, le64, le32]
      rw [drop_skip _ _ _ _ (by decide), drop_skip _ _ _ _ (by decide), drop_skip _ _ _ _ (by decide),
        ← List.append_assoc, str0, List.append_assoc]; simp
    unfold decode
    simp only [hdr_code, KReq.code, hdr_node, KReq.means, KReq.body]
    rw [cstr_of _ _ _ _ e1 h1, cstr_of _ _ n' rest (after_of _ _ _ _ e1 h1) h2]
    simp only [hdr_rd, Nat.le_refl, Nat.sub_self, Nat.reduceLeDiff, Nat.reduceSub, le64, le32, List.append_assoc, rd_hit,
      rd_skip, u64_mod, u32_mod]; rfl
  case write fh off data wf lock f =>
    simp only [KReq.body, KReq.code] at hw hl ⊢
    have hd : data.length % 256 ^ 4 = data.length := by
      apply Nat.mod_eq_of_lt
      simp only [List.length_append] at hl
      exact Nat.lt_of_le_of_lt (Nat.le_add_left _ _) hl
    unfold decode
    simp only [hdr_code]
    show some (writeOf fq _) = _
    unfold writeOf
    rw [if_neg (by rw [hw]; simp)]
    simp only [hdr_node, KReq.means, KReq.body, hdr_rd, hdr_drop, Nat.le_refl, Nat.sub_self, Nat.reduceLeDiff,
      Nat.reduceSub, le64, le32, List.append_assoc, rd_hit, rd_skip, drop_skip, List.drop_zero, u64_mod, u32_mod, hd,
      List.take_left', offOf, bit]
  case setxattr n v f xf =>
    simp only [KReq.Fine, KReq.Agrees] at hf ha
    simp only [KReq.body, KReq.code, if_true] at hw hl ⊢
    have hd : v.length % 256 ^ 4 = v.length := by
      apply Nat.mod_eq_of_lt
      simp only [List.length_append] at hl
      exact Nat.lt_of_le_of_lt (Nat.le_add_left _ _) hl
    have e1 : (hdrBytes len 21 h (leBytes 4 v.length ++ le32 f ++ (le32 xf ++ le32 0) ++ str0 n ++ v ++ rest)).drop 56 =
        n ++ 0 :: (v ++ rest) := by
      rw [hdr_drop _ _ _ _ _ (by decide)]
      simp only [List.append_assoc, str0_append, le64, le32]
      rw [drop_skip _ _ _ _ (by decide), drop_skip _ _ _ _ (by decide), drop_skip _ _ _ _ (by decide),
        drop_skip _ _ _ _ (by decide)]; simp
    unfold decode
    simp only [hdr_code]
    show some (setxattrOf fq _) = _
    unfold setxattrOf
    rw [if_neg (by omega), cstr_of _ _ _ _ e1 hf, after_of _ _ _ _ e1 hf]
    simp only [hdr_node, KReq.means, hdr_rd, Nat.le_refl, Nat.sub_self, Nat.reduceLeDiff,
      Nat.reduceSub, le64, le32, List.append_assoc, rd_hit, rd_skip, u64_mod, u32_mod, hd, List.take_left', bit, ha]
  case batchForget l =>
    simp only [KReq.body, KReq.code] at hw hl ⊢
    have hd : l.length % 256 ^ 4 = l.length := by
      apply Nat.mod_eq_of_lt
      have : l.length ≤ ((l.map fun e => le64 e.1 ++ le64 e.2).flatten).length := by
        clear hl hw hf ha
        induction l with
        | nil => simp
        | cons e l ih =>
          simp only [List.map_cons, List.flatten_cons, List.length_append, List.length_cons, le64, leBytes_length] at ih ⊢
          omega
      simp only [List.length_append] at hl
      omega
    unfold decode
    simp only [hdr_code]
    show some (Call.batchForget _) = _
    simp only [KReq.means, hdr_rd, hdr_drop, Nat.le_refl, Nat.sub_self, Nat.reduceLeDiff,
      Nat.reduceSub, le32, List.append_assoc, rd_hit, rd_skip, drop_skip, List.drop_zero, hd]
    rw [forgets_of]
  case readdir plus fh off size rf lock f =>
    cases plus <;> (
      unfold decode
      simp only [hdr_code, KReq.code, hdr_node, KReq.means, KReq.body]
      simp only [hdr_rd, hdr_drop, Nat.le_refl, Nat.sub_self, Nat.reduceLeDiff, Nat.reduceSub, le64, le32,
        List.append_assoc, rd_hit, rd_skip, u64_mod, u32_mod, offOf]
      rfl)
  case ioctl fh f cmd arg data out =>
    simp only [KReq.body, KReq.code] at hw hl ⊢
    have hd : data.length % 256 ^ 4 = data.length := by
      apply Nat.mod_eq_of_lt
      simp only [List.length_append] at hl
      exact Nat.lt_of_le_of_lt (Nat.le_add_left _ _) hl
    unfold decode
    simp only [hdr_code]
    show some (Call.ioctl _ _ _ _ _ _) = _
    simp only [hdr_node, KReq.means, KReq.body, hdr_rd, hdr_drop, Nat.le_refl, Nat.sub_self, Nat.reduceLeDiff,
      Nat.reduceSub, le64, le32, List.append_assoc, rd_hit, rd_skip, drop_skip, List.drop_zero, u64_mod, u32_mod, hd,
      List.take_left']
  case read fh off size rf lock f =>
    simp only [KReq.Fine] at hf
    unfold decode
    simp only [hdr_code, KReq.code, hdr_node, KReq.means, KReq.body]
    simp only [hdr_rd, Nat.le_refl, Nat.sub_self, Nat.reduceLeDiff, Nat.reduceSub, le64, le32,
      List.append_assoc, rd_hit, rd_skip, u64_mod, u32_mod, offOf, Nat.min_eq_left hf]
    rfl
  case release fh f rf lock =>
    simp only [KReq.Agrees] at ha
    unfold decode
    simp only [hdr_code, KReq.code, hdr_node, KReq.means, KReq.body]
    simp only [hdr_rd, Nat.le_refl, Nat.sub_self, Nat.reduceLeDiff, Nat.reduceSub, le64, le32,
      List.append_assoc, rd_hit, rd_skip, u64_mod, u32_mod, ← ha]
    rfl
  case copyRange fi oi no fo oo ln f =>
    unfold decode
    simp only [hdr_code, KReq.code, hdr_node, KReq.means, KReq.body]
    have h1 : f.toNat % 256 ^ 8 % 4294967296 = f.toNat := by
      have := f.toNat_lt
      rw [Nat.mod_eq_of_lt (show f.toNat < 256 ^ 8 by omega), Nat.mod_eq_of_lt this]
    simp only [hdr_rd, Nat.le_refl, Nat.sub_self, Nat.reduceLeDiff, Nat.reduceSub, le64, le32,
      List.append_assoc, rd_hit, rd_skip, u64_mod, u32_mod, offOf, h1]
    rfl
  case other c body =>
    exact decode_other fq _ ⟨c, hdr_code _ _ _ _, hf⟩
  case lookup n =>
    simp only [KReq.Fine] at hf
    unfold decode
    simp only [hdr_code, KReq.code, hdr_node, KReq.means, KReq.body]
    simp only [cstr, hdr_rd, hdr_drop, Nat.le_refl, Nat.sub_self, Nat.reduceLeDiff, Nat.reduceSub, le64, le32,
      List.append_assoc, str0_append, rd_hit, rd_skip, drop_skip, List.drop_zero, u64_mod, u32_mod,
      takeWhile_str _ _ hf]
    rfl
  case mknod n mode rdev umask =>
    simp only [KReq.Fine] at hf
    unfold decode
    simp only [hdr_code, KReq.code, hdr_node, KReq.means, KReq.body]
    simp only [cstr, hdr_rd, hdr_drop, Nat.le_refl, Nat.sub_self, Nat.reduceLeDiff, Nat.reduceSub, le64, le32,
      List.append_assoc, str0_append, rd_hit, rd_skip, drop_skip, List.drop_zero, u64_mod, u32_mod,
      takeWhile_str _ _ hf]
    rfl
  case mkdir n mode umask =>
    simp only [KReq.Fine] at hf
    unfold decode
    simp only [hdr_code, KReq.code, hdr_node, KReq.means, KReq.body]
    simp only [cstr, hdr_rd, hdr_drop, Nat.le_refl, Nat.sub_self, Nat.reduceLeDiff, Nat.reduceSub, le64, le32,
      List.append_assoc, str0_append, rd_hit, rd_skip, drop_skip, List.drop_zero, u64_mod, u32_mod,
      takeWhile_str _ _ hf]
    rfl
  case unlink n =>
    simp only [KReq.Fine] at hf
    unfold decode
    simp only [hdr_code, KReq.code, hdr_node, KReq.means, KReq.body]
    simp only [cstr, hdr_rd, hdr_drop, Nat.le_refl, Nat.sub_self, Nat.reduceLeDiff, Nat.reduceSub, le64, le32,
      List.append_assoc, str0_append, rd_hit, rd_skip, drop_skip, List.drop_zero, u64_mod, u32_mod,
      takeWhile_str _ _ hf]
    rfl
  case rmdir n =>
    simp only [KReq.Fine] at hf
    unfold decode
    simp only [hdr_code, KReq.code, hdr_node, KReq.means, KReq.body]
    simp only [cstr, hdr_rd, hdr_drop, Nat.le_refl, Nat.sub_self, Nat.reduceLeDiff, Nat.reduceSub, le64, le32,
      List.append_assoc, str0_append, rd_hit, rd_skip, drop_skip, List.drop_zero, u64_mod, u32_mod,
      takeWhile_str _ _ hf]
    rfl
  case link o n =>
    simp only [KReq.Fine] at hf
    unfold decode
    simp only [hdr_code, KReq.code, hdr_node, KReq.means, KReq.body]
    simp only [cstr, hdr_rd, hdr_drop, Nat.le_refl, Nat.sub_self, Nat.reduceLeDiff, Nat.reduceSub, le64, le32,
      List.append_assoc, str0_append, rd_hit, rd_skip, drop_skip, List.drop_zero, u64_mod, u32_mod,
      takeWhile_str _ _ hf]
    rfl
  case getxattr n size =>
    simp only [KReq.Fine] at hf
    unfold decode
    simp only [hdr_code, KReq.code, hdr_node, KReq.means, KReq.body]
    simp only [cstr, hdr_rd, hdr_drop, Nat.le_refl, Nat.sub_self, Nat.reduceLeDiff, Nat.reduceSub, le64, le32,
      List.append_assoc, str0_append, rd_hit, rd_skip, drop_skip, List.drop_zero, u64_mod, u32_mod,
      takeWhile_str _ _ hf]
    rfl
  case removexattr n =>
    simp only [KReq.Fine] at hf
    unfold decode
    simp only [hdr_code, KReq.code, hdr_node, KReq.means, KReq.body]
    simp only [cstr, hdr_rd, hdr_drop, Nat.le_refl, Nat.sub_self, Nat.reduceLeDiff, Nat.reduceSub, le64, le32,
      List.append_assoc, str0_append, rd_hit, rd_skip, drop_skip, List.drop_zero, u64_mod, u32_mod,
      takeWhile_str _ _ hf]
    rfl
  case create n f mode umask o =>
    simp only [KReq.Fine] at hf
    unfold decode
    simp only [hdr_code, KReq.code, hdr_node, KReq.means, KReq.body]
    simp only [cstr, hdr_rd, hdr_drop, Nat.le_refl, Nat.sub_self, Nat.reduceLeDiff, Nat.reduceSub, le64, le32,
      List.append_assoc, str0_append, rd_hit, rd_skip, drop_skip, List.drop_zero, u64_mod, u32_mod,
      takeWhile_str _ _ hf]
    rfl
  all_goals
    unfold decode
    simp only [hdr_code, KReq.code, hdr_node, KReq.means, KReq.body]
    simp only [hdr_rd, Nat.le_refl, Nat.sub_self, Nat.reduceLeDiff, Nat.reduceSub, le64, le32,
      List.append_assoc, rd_hit, rd_skip, u64_mod, u32_mod, offOf]
    rfl

end Silofs.Fuse
