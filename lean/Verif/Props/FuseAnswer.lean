import Verif.Props.FuseServe
import Verif.Model.Inode
/-
C51, continued: the bytes of answers as the kernel reads them, the start of a connection, and where
the code departs from the protocol.
-/
set_option linter.unusedSimpArgs false
set_option linter.unusedVariables false

namespace Silofs.Fuse

/-! ### Answers -/

theorem out_unique (len err u : Nat) (p : Buf) (hu : u < 2 ^ 64) : rd 8 8 (outHdr len err u ++ p) = u := by
  unfold outHdr
  simp only [List.append_assoc]
  rw [rd_skip _ _ _ _ _ (by decide), rd_skip _ _ _ _ _ (by decide)]
  show rd 8 0 _ = _
  rw [rd_hit, Nat.mod_eq_of_lt (by omega)]

theorem out_err (len err u : Nat) (p : Buf) : rd 4 4 (outHdr len err u ++ p) = (4294967296 - err) % 4294967296 := by
  unfold outHdr
  simp only [List.append_assoc]
  rw [rd_skip _ _ _ _ _ (by decide)]
  show rd 4 0 _ = _
  rw [rd_hit]

theorem out_len (len err u : Nat) (p : Buf) (hl : len < 2 ^ 32) : rd 4 0 (outHdr len err u ++ p) = len := by
  unfold outHdr
  simp only [List.append_assoc]
  rw [rd_hit, Nat.mod_eq_of_lt (by omega)]

theorem out_length (len err u : Nat) : (outHdr len err u).length = 16 := by
  simp only [outHdr, List.length_append, leBytes_length]

theorem kparse_ok (u : Nat) (p : Buf) (hu : u < 2 ^ 64) (hp : 16 + p.length < 2 ^ 32) :
    kparse (replyOk u p) = some ⟨u, .ok p⟩ := by
  unfold kparse replyOk
  rw [List.length_append, out_length, out_len _ _ _ _ hp, out_err, out_unique _ _ _ _ hu]
  rw [if_neg (by omega), if_pos (by decide), List.drop_left' (out_length _ _ _)]

theorem kparse_err (u e n : Nat) (hu : u < 2 ^ 64) (he : Errno e n) :
    kparse (replyErr u e) = some ⟨u, .error n⟩ := by
  have hn : sanitize e = n ∧ 0 < n ∧ n < 512 := by
    unfold sanitize remap
    cases he with
    | plain e h h' => exact ⟨by rw [if_neg (by omega)], h, h'⟩
    | own k h h' => exact ⟨by rw [if_pos (by omega), if_neg (by omega), if_pos (by omega)]; omega, h, h'⟩
    | internal k => exact ⟨by rw [if_pos (by omega), if_pos (by omega)], by decide, by decide⟩
  obtain ⟨h1, h2, h3⟩ := hn
  unfold kparse replyErr
  rw [h1]
  have e := out_len 16 n u [] (by decide)
  have e2 := out_err 16 n u []
  have e3 := out_unique 16 n u [] hu
  rw [List.append_nil] at e e2 e3
  rw [out_length, e, e2, e3, Nat.mod_eq_of_lt (by omega)]
  rw [if_neg (by omega), if_neg (by omega), if_neg (by omega)]
  rw [show 4294967296 - (4294967296 - n) = n by omega]

theorem i64_back (x : Int) (h : IsI64 x) : toI64 (toU64 x % 256 ^ 8) = x := by
  obtain ⟨h1, h2⟩ := h
  unfold toI64 toU64
  split <;> omega

theorem kattr_of (s : St) (gen : Nat) (rest : Buf) (h : s.Fits) :
    kattr (attrBytes s ++ rest) gen = { s with gen := gen } := by
  obtain ⟨h1, h2, h3, h4, h5, h6, h7, h8, h9, h10, h11, h12, h13, h14, h15, h16⟩ := h
  unfold kattr attrBytes
  simp only [List.append_assoc, rd_skip, rd_hit, Nat.reduceLeDiff, Nat.reduceSub, Nat.le_refl, Nat.sub_self,
    Nat.zero_le, i64_back _ h4, i64_back _ h5, i64_back _ h6]
  rw [Nat.mod_eq_of_lt (by omega), Nat.mod_eq_of_lt (by omega), Nat.mod_eq_of_lt (by omega),
    Nat.mod_eq_of_lt (by omega), Nat.mod_eq_of_lt (by omega), Nat.mod_eq_of_lt (by omega),
    Nat.mod_eq_of_lt (by omega), Nat.mod_eq_of_lt (by omega), Nat.mod_eq_of_lt (by omega),
    Nat.mod_eq_of_lt (by omega), Nat.mod_eq_of_lt (by omega), Nat.mod_eq_of_lt (by omega)]

theorem entry_of (s : St) (rest : Buf) (h : s.Fits) :
    rd 8 0 (entryBytes s ++ rest) = s.ino ∧ kattr ((entryBytes s ++ rest).drop 40) (rd 8 8 (entryBytes s ++ rest)) = s := by
  have h1 := h.ino
  have h16 := h.gen
  unfold entryBytes
  simp only [List.append_assoc, rd_hit, rd_skip, drop_skip, Nat.reduceLeDiff, Nat.reduceSub, Nat.le_refl, Nat.sub_self,
    List.drop_zero]
  rw [kattr_of _ _ _ h, Nat.mod_eq_of_lt (by omega), Nat.mod_eq_of_lt (by omega)]
  exact ⟨rfl, rfl⟩

theorem attr_out_of (s : St) (h : s.Fits) : kattr ((attrOutBytes s).drop 16) 0 = { s with gen := 0 } := by
  unfold attrOutBytes
  simp only [List.append_assoc, drop_skip, Nat.reduceLeDiff, Nat.reduceSub, Nat.le_refl, Nat.sub_self, List.drop_zero]
  have := kattr_of s 0 [] h
  rwa [List.append_nil] at this

theorem sfs_of (s : Sfs) (h1 : s.blocks < 2 ^ 64) (h2 : s.bfree < 2 ^ 64) (h3 : s.bavail < 2 ^ 64)
    (h4 : s.files < 2 ^ 64) (h5 : s.ffree < 2 ^ 64) (h6 : s.bsize < 2 ^ 32) (h7 : s.namemax < 2 ^ 32)
    (h8 : s.frsize < 2 ^ 32) (c : Call) (hc : c matches .statfs ..) : kread c (statfsBytes s) = some (.sfs s) := by
  cases c <;> simp at hc
  unfold kread statfsBytes
  simp only [List.append_assoc, rd_skip, rd_hit, Nat.reduceLeDiff, Nat.reduceSub, Nat.le_refl, Nat.sub_self, Nat.zero_le]
  rw [Nat.mod_eq_of_lt (by omega), Nat.mod_eq_of_lt (by omega), Nat.mod_eq_of_lt (by omega),
    Nat.mod_eq_of_lt (by omega), Nat.mod_eq_of_lt (by omega), Nat.mod_eq_of_lt (by omega),
    Nat.mod_eq_of_lt (by omega), Nat.mod_eq_of_lt (by omega)]

theorem kread_payload (c : Call) (v w : Val) (h : Answers c v w) : kread c (payload c v) = some w ∧ silent c = false := by
  cases h with
  | entry c s hc hs h0 =>
    have e := entry_of s [] hs
    have e' := entry_of s (openBytes false false) hs
    rw [List.append_nil] at e
    cases c <;> simp at hc <;> simp only [payload, kread, silent, e.1, e.2, e'.1, e'.2, h0, if_false, and_self]
  | attr c s hc hs =>
    cases c <;> simp at hc <;> simp only [payload, kread, silent, attr_out_of s hs, and_self]
  | data c l hc => cases c <;> simp at hc <;> simp only [payload, kread, silent, and_self]
  | count c n hc hn =>
    cases c <;> simp at hc <;> simp only [payload, kread, silent, rd_hit, and_true] <;> rw [Nat.mod_eq_of_lt (by omega)]
  | offset c o hc ho =>
    cases c <;> simp at hc
    have := rd_hit 8 (toU64 o) []
    rw [List.append_nil] at this
    simp only [payload, kread, silent, this, i64_back o ho, and_self]
  | sfs c s hc h1 h2 h3 h4 h5 h6 h7 h8 =>
    refine ⟨?_, ?_⟩
    · have := sfs_of s h1 h2 h3 h4 h5 h6 h7 h8 c hc
      cases c <;> simp at hc
      exact this
    · cases c <;> simp at hc; rfl
  | xattr i n l size hl =>
    refine ⟨?_, rfl⟩
    unfold payload kread xattrBytes
    by_cases h0 : size = 0
    · simp only [if_pos h0, rd_hit]; rw [Nat.mod_eq_of_lt (by omega)]
    · simp only [if_neg h0]
  | xattrs i size l hl =>
    refine ⟨?_, rfl⟩
    unfold payload kread xattrBytes
    by_cases h0 : size = 0
    · simp only [if_pos h0, rd_hit]; rw [Nat.mod_eq_of_lt (by omega)]
    · simp only [if_neg h0]
  | done c hc => cases c <;> simp at hc <;> simp only [payload, kread, silent, and_self]

/-- **What the file-system answers is what the kernel is answered**: success.  The kernel accepts the answer, takes it
as the answer to the request that was made, as a success, and reads from it the value of the call (attributes,
names, data, counts, offsets). -/
theorem C51_answer (u : Nat) (c : Call) (v w : Val) (hu : u < 2 ^ 64) (h : Answers c v w)
    (hl : 16 + (payload c v).length < 2 ^ 32) :
    ∃ b, answer u c (.ok v) = some b ∧ kparse b = some ⟨u, .ok (payload c v)⟩ ∧ kread c (payload c v) = some w := by
  have hk := kread_payload c v w h
  refine ⟨replyOk u (payload c v), ?_, kparse_ok u _ hu hl, hk.1⟩
  unfold answer
  rw [if_neg (by rw [hk.2]; decide)]

/-- **The same of failures**: the kernel is told the failure's number, for every call that is answered at all and every
number, except that the failure of a lookup for want of the name is told in the protocol's way, below. -/
theorem C51_failure (u e n : Nat) (c : Call) (hu : u < 2 ^ 64) (he : Errno e n) (hs : silent c = false)
    (hc : n = 2 → ¬ (c matches .lookup ..)) :
    ∃ b, answer u c (.error e) = some b ∧ kparse b = some ⟨u, .error n⟩ := by
  refine ⟨replyErr u e, ?_, kparse_err u e n hu he⟩
  unfold answer
  rw [if_neg (by rw [hs]; decide)]
  cases c <;> try rfl
  rename_i parent name
  have hn : n ≠ 2 := fun h => hc h rfl
  have : sanitize e = n := by
    unfold sanitize remap
    cases he with
    | plain e h h' => rw [if_neg (by omega)]
    | own k h h' => rw [if_pos (by omega), if_neg (by omega), if_pos (by omega)]; omega
    | internal k => rw [if_pos (by omega), if_pos (by omega)]
  simp only [this, if_neg hn]

/-- A lookup of a name that does not exist: the kernel is told that there is no such entry, which it may
remember, without an error. -/
theorem C51_missing (u e parent : Nat) (name : List Nat) (hu : u < 2 ^ 64) (he : Errno e 2) :
    ∃ b p, answer u (.lookup parent name) (.error e) = some b ∧ kparse b = some ⟨u, .ok p⟩ ∧
      kread (.lookup parent name) p = none := by
  have hs : sanitize e = 2 := by
    unfold sanitize remap
    cases he with
    | plain e h h' => decide
    | own k h h' => decide
  refine ⟨replyOk u noentryBytes, noentryBytes, ?_, kparse_ok u _ hu (by
    simp only [noentryBytes, List.length_append, leBytes_length, List.length_replicate]; decide), ?_⟩
  · unfold answer
    simp only [silent, hs, if_true, Bool.false_eq_true, if_false]
  · unfold kread noentryBytes
    simp only [List.append_assoc, rd_hit]
    rfl

/-- FORGET is never answered, whatever comes of it. -/
theorem C51_forget (u ino n : Nat) (r : Except Nat Val) : answer u (.forget ino n) r = none := rfl

/-! ### The start of a connection -/

/-- Many messages, one after the other (each with what the thread's buffer holds). -/
def serves (fs : Nat → Nat → Call → Except Nat Val) : Fq → List (Buf × Buf) → List Out × Fq
  | fq, [] => ([], fq)
  | fq, m :: ms => ((serve fq fs m.1 m.2).2 :: (serves fs (serve fq fs m.1 m.2).1 ms).1,
      (serves fs (serve fq fs m.1 m.2).1 ms).2)

theorem exec_before (fq : Fq) (fs : Nat → Nat → Call → Except Nat Val) (i : In) (hg : fq.gotInit = false) :
    (exec fq fs i).2.call = none ∧
      ((exec fq fs i).1 = fq ∨ (hOpcode i.buf = 26 ∧ (exec fq fs i).1.gotInit = true ∧ 34 ≤ (exec fq fs i).1.minor)) := by
  by_cases h26 : hOpcode i.buf = 26
  · have hd : decode fq i = some (.init (rd 4 40 i.buf) (rd 4 44 i.buf) (rd 4 52 i.buf)) := by
      unfold decode; rw [h26]; rfl
    unfold exec
    cases hc : checkTask fq i with
    | some e => exact ⟨rfl, Or.inl rfl⟩
    | none =>
      simp only [hd]
      by_cases hi : initOk (rd 4 40 i.buf) (rd 4 44 i.buf) = true
      · rw [if_pos hi]
        refine ⟨rfl, Or.inr ⟨h26, rfl, ?_⟩⟩
        unfold initOk at hi
        simp only [Bool.and_eq_true, decide_eq_true_eq] at hi
        exact hi.2
      · rw [if_neg hi]; exact ⟨rfl, Or.inl rfl⟩
  · have : ∃ e, checkTask fq i = some e := by
      unfold checkTask checkOpcode
      by_cases h1 : (decode fq i).isNone = true
      · rw [if_pos h1]; exact ⟨_, rfl⟩
      · rw [if_neg h1, if_pos (by rw [hg]; simpa using h26)]; exact ⟨_, rfl⟩
    obtain ⟨e, he⟩ := this
    unfold exec
    rw [he]
    exact ⟨rfl, Or.inl rfl⟩

/-- **No call before INIT**: whatever bytes arrive, in whatever order, the file-system is not called before an INIT
message has been accepted (of the protocol's major version and a minor version the rest of the code is made for). -/
theorem C51_before_init (fs : Nat → Nat → Call → Except Nat Val) (ms : List (Buf × Buf)) (fq : Fq)
    (hg : fq.gotInit = false) (k : Nat) (o : Out) (ho : (serves fs fq ms).1[k]? = some o) (hc : o.call ≠ none) :
    ∃ j < k, ∃ m, ms[j]? = some m ∧ (serves fs fq (ms.take (j + 1))).2.gotInit = true ∧
      34 ≤ (serves fs fq (ms.take (j + 1))).2.minor ∧ ∀ i, recv fq m.1 m.2 = .ok i → hOpcode i.buf = 26 := by
  induction ms generalizing k with
  | nil => simp [serves] at ho
  | cons m ms ih =>
    have hm : (serve fq fs m.1 m.2).2.call = none ∧ ((serve fq fs m.1 m.2).1 = fq ∨
        ((∀ i, recv fq m.1 m.2 = .ok i → hOpcode i.buf = 26) ∧ (serve fq fs m.1 m.2).1.gotInit = true ∧
          34 ≤ (serve fq fs m.1 m.2).1.minor)) := by
      unfold serve
      cases hr : recv fq m.1 m.2 with
      | error e => exact ⟨rfl, Or.inl rfl⟩
      | ok i =>
        have := exec_before fq fs i hg
        refine ⟨this.1, this.2.elim Or.inl fun h => Or.inr ⟨?_, h.2⟩⟩
        intro j hj
        rw [← Except.ok.inj hj]; exact h.1
    cases k with
    | zero =>
      simp only [serves, List.getElem?_cons_zero, Option.some.injEq] at ho
      rw [← ho] at hc
      exact absurd hm.1 hc
    | succ k =>
      simp only [serves, List.getElem?_cons_succ] at ho
      rcases hm.2 with e | ⟨h1, h2, h3⟩
      · rw [e] at ho
        obtain ⟨j, hj, m', h1, h2, h3⟩ := ih k ho
        refine ⟨j + 1, by omega, m', by simpa using h1, ?_⟩
        simp only [List.take_succ_cons, serves, e]
        exact ⟨h2, h3⟩
      · refine ⟨0, by omega, m, rfl, ?_⟩
        simp only [List.take_succ_cons, List.take_zero, serves]
        exact ⟨h2, h3, h1⟩

/-- A second INIT is refused with EIO and changes nothing. -/
theorem C51_second_init (fq : Fq) (fs : Nat → Nat → Call → Except Nat Val) (i : In) (hg : fq.gotInit = true)
    (h26 : hOpcode i.buf = 26) : exec fq fs i = (fq, ⟨none, some (replyErr (hUnique i.buf) 1005)⟩) := by
  have hd : decode fq i = some (.init (rd 4 40 i.buf) (rd 4 44 i.buf) (rd 4 52 i.buf)) := by
    unfold decode; rw [h26]; rfl
  unfold exec checkTask checkOpcode
  rw [hd, if_neg (by simp), if_neg (by rw [hg]; simp), if_pos (by rw [hg, h26]; rfl)]

/-- A message that is cut off or has a wrong length is dropped: no call, no answer, no change. -/
theorem C51_wrong_length (fq : Fq) (fs : Nat → Nat → Call → Except Nat Val) (old msg : Buf) (hsp : fq.splice = false)
    (h : msg.length < 40 ∨ fq.buffsize < hLen msg ∨ hLen msg ≠ msg.length) :
    serve fq fs old msg = (fq, ⟨none, none⟩) := by
  unfold serve recv
  rw [hsp, if_neg (by decide)]
  unfold recvCopy
  by_cases h40 : msg.length < 40
  · rw [if_pos h40]
  · rw [if_neg h40]
    have hl : hLen (over msg old) = hLen msg := by
      have := rd_over 4 0 msg.length msg (old.drop msg.length) (by omega) (by omega)
      rw [List.take_length] at this
      exact this
    have : ∃ e, checkInhdr fq (over msg old) msg.length true = .error e := by
      unfold checkInhdr
      rw [if_neg h40, hl]
      by_cases h1 : hLen msg > fq.buffsize
      · rw [if_pos h1]; exact ⟨_, rfl⟩
      · rw [if_neg h1, if_pos]
        · exact ⟨_, rfl⟩
        · have : hLen msg ≠ msg.length := by omega
          simpa using this
    obtain ⟨e, he⟩ := this
    rw [he]

/-! ### Where the code departs -/

def fq0 : Fq := ⟨true, false, 1000, 40, 1052672, 1048576, 1048576, false⟩
def h0 : KHdr := ⟨77, 5, 1000, 1000, 4242⟩

theorem decode_release (fq : Fq) (len : Nat) (h : KHdr) (fh : UInt64) (f rf : UInt32) (lock : UInt64) (rest p : Buf) :
    decode fq ⟨hdrBytes len (KReq.release fh f rf lock).code h ((KReq.release fh f rf lock).body true ++ rest), p⟩ =
      some (.release h.node.toNat f.toNat (f.toNat.testBit 0)) := by
  unfold decode
  simp only [hdr_code, hdr_node, KReq.body, KReq.code]
  simp only [hdr_rd, Nat.le_refl, Nat.sub_self, Nat.reduceLeDiff, Nat.reduceSub, le64, le32,
    List.append_assoc, rd_hit, rd_skip, u64_mod, u32_mod]
  rfl

theorem serve_release (fs : Nat → Nat → Call → Except Nat Val) (old : Buf) (f rf : UInt32) :
    (serve fq0 fs old (wire true h0 (.release 0 f rf 0))).2.call =
      some (1000, 1000, .release 5 f.toNat (f.toNat.testBit 0)) := by
  have hlen : (wire true h0 (.release 0 f rf 0)).length = 64 := by
    rw [wire_length]; simp only [KReq.body, le64, le32, List.length_append, leBytes_length]
  rcases recv_wire fq0 h0 (.release 0 f rf 0) old trivial (by rw [hlen]; decide) (by decide) with ⟨rest, hr, _⟩ | ⟨e, _⟩
  · unfold serve
    rw [hr]
    simp only
    have hd := decode_release fq0 (40 + ((KReq.release 0 f rf 0).body true).length) h0 0 f rf 0 rest []
    rw [exec_call fq0 fs _ _ ?_ hd (by simp) (by simp)]
    · show some (hUid (hdrBytes _ _ _ _), hGid (hdrBytes _ _ _ _), _) = _
      rw [hdr_uid, hdr_gid]; rfl
    · unfold checkTask checkOpcode checkPerm
      rw [hd]
      simp only [hdr_code]
      rfl
  · exact absurd e (by decide)

/-- The flag that asks for a flush at release (`FUSE_RELEASE_FLUSH`, in `release_flags`) is taken from the flags the file
was opened with: a file open for reading and writing is not flushed although it is asked for, one open for
writing only is flushed although it is not. -/
theorem C51_release_violated :
    (∃ f rf, (KReq.release 0 f rf 0).means 5 = some (.release 5 2 true) ∧
      ∀ fs old, (serve fq0 fs old (wire true h0 (.release 0 f rf 0))).2.call = some (1000, 1000, .release 5 2 false)) ∧
    (∃ f rf, (KReq.release 0 f rf 0).means 5 = some (.release 5 1 false) ∧
      ∀ fs old, (serve fq0 fs old (wire true h0 (.release 0 f rf 0))).2.call = some (1000, 1000, .release 5 1 true)) :=
  ⟨⟨2, 1, rfl, fun fs old => serve_release fs old 2 1⟩, ⟨1, 0, rfl, fun fs old => serve_release fs old 1 0⟩⟩

theorem decode_setxattr (fq : Fq) (hm : 33 < fq.minor) (len : Nat) (h : KHdr) (f xf : UInt32) (rest p : Buf) :
    decode fq ⟨hdrBytes len (KReq.setxattr [97] [1] f xf).code h ((KReq.setxattr [97] [1] f xf).body true ++ rest), p⟩ =
      some (.setxattr h.node.toNat [97] [1] f.toNat (f.toNat.testBit 0)) := by
  have e1 : (hdrBytes len (KReq.setxattr [97] [1] f xf).code h ((KReq.setxattr [97] [1] f xf).body true ++ rest)).drop 56 = [97] ++ 0 :: ([1] ++ rest) := by
    rw [hdr_drop _ _ _ _ _ (by decide)]
    simp only [KReq.body, if_true, List.append_assoc, str0_append, le64, le32]
    rw [drop_skip _ _ _ _ (by decide), drop_skip _ _ _ _ (by decide), drop_skip _ _ _ _ (by decide),
      drop_skip _ _ _ _ (by decide)]; simp
  have hn : NoNul [97] := by intro b hb; simp at hb; omega
  unfold decode
  simp only [hdr_code]
  show some (setxattrOf fq _) = _
  unfold setxattrOf
  rw [if_neg (by omega), cstr_of _ _ _ _ e1 hn, after_of _ _ _ _ e1 hn]
  simp only [hdr_node, KReq.body, if_true, hdr_rd, Nat.le_refl, Nat.sub_self, Nat.reduceLeDiff,
    Nat.reduceSub, le64, le32, List.append_assoc, rd_hit, rd_skip, u64_mod, u32_mod, bit, List.length_cons,
    List.length_nil, Nat.zero_add]
  rfl

theorem serve_setxattr (fs : Nat → Nat → Call → Except Nat Val) (old : Buf) (f xf : UInt32) :
    (serve fq0 fs old (wire true h0 (.setxattr [97] [1] f xf))).2.call =
      some (1000, 1000, .setxattr 5 [97] [1] f.toNat (f.toNat.testBit 0)) := by
  have hlen : (wire true h0 (.setxattr [97] [1] f xf)).length = 59 := by
    rw [wire_length]; simp only [KReq.body, if_true, str0, le64, le32, List.length_append, leBytes_length, List.length_cons,
      List.length_nil]
  rcases recv_wire fq0 h0 (.setxattr [97] [1] f xf) old (by intro b hb; simp at hb; omega) (by rw [hlen]; decide)
    (by decide) with ⟨rest, hr, _⟩ | ⟨e, _⟩
  · unfold serve
    rw [hr]
    simp only
    have hd := decode_setxattr fq0 (by decide) (40 + ((KReq.setxattr [97] [1] f xf).body true).length) h0 f xf rest []
    rw [exec_call fq0 fs _ _ ?_ hd (by simp) (by simp)]
    · show some (hUid (hdrBytes _ _ _ _), hGid (hdrBytes _ _ _ _), _) = _
      rw [hdr_uid, hdr_gid]; rfl
    · unfold checkTask checkOpcode checkPerm
      rw [hd]
      simp only [hdr_code]
      rfl
  · exact absurd e (by decide)

/-- The flag by which the kernel asks to drop the set-group-id bit together with an ACL (`FUSE_SETXATTR_ACL_KILL_SGID`, in
`setxattr_flags`) is taken from the flags of setxattr(2), where the same bit is `XATTR_CREATE`: creating any extended
attribute with XATTR_CREATE drops the bit (mode 02775 becomes 0775), and the kernel's wish is not followed. -/
theorem C51_setxattr_violated :
    (∃ f xf, (KReq.setxattr [97] [1] f xf).means 5 = some (.setxattr 5 [97] [1] 1 false) ∧
      ∀ fs old, (serve fq0 fs old (wire true h0 (.setxattr [97] [1] f xf))).2.call =
        some (1000, 1000, .setxattr 5 [97] [1] 1 true)) ∧
    (∃ f xf, (KReq.setxattr [97] [1] f xf).means 5 = some (.setxattr 5 [97] [1] 0 true) ∧
      ∀ fs old, (serve fq0 fs old (wire true h0 (.setxattr [97] [1] f xf))).2.call =
        some (1000, 1000, .setxattr 5 [97] [1] 0 false)) ∧
    Attr.kill false true 34301 = 33277 ∧ Attr.kill false false 34301 = 34301 :=
  ⟨⟨1, 0, rfl, fun fs old => serve_setxattr fs old 1 0⟩, ⟨0, 1, rfl, fun fs old => serve_setxattr fs old 0 1⟩,
    by decide, by decide⟩

/-! ### The hypotheses can be met -/

example : (KReq.rename2 [97, 98] 7 [99] 1).Fine 1048576 1048576 ∧ (KReq.rename2 [97, 98] 7 [99] 1).Agrees ∧
    (wire true h0 (.rename2 [97, 98] 7 [99] 1)).length ≤ fq0.buffsize ∧
    (KReq.rename2 [97, 98] 7 [99] 1).means 5 = some (.rename 5 [97, 98] 7 [99] 1) := by
  refine ⟨⟨?_, ?_⟩, trivial, by decide, rfl⟩ <;> intro b hb <;> simp at hb <;> omega

example : ¬ Allowed true 1000 ⟨1, 5, 1001, 1001, 1⟩ (.lookup [97]) ∧
    Allowed true 1000 ⟨1, 5, 1001, 1001, 1⟩ (.read 0 0 4096 0 0 0) := by
  constructor
  · rintro (e | e | e | e) <;> exact absurd e (by decide)
  · exact Or.inr (Or.inr (Or.inr rfl))

example : otherCodes 37 ∧ otherCodes 999 := by unfold otherCodes; decide

example : Errno 1028 28 ∧ Errno 5 5 ∧ Errno 10011 117 :=
  ⟨.own 28 (by decide) (by decide), .plain 5 (by decide) (by decide), .internal 11⟩

def st0 : St := ⟨5, 10, 1, 100, -1, 100, 1, 2, 3, 33188, 1, 1000, 1000, 0, 65536, 3⟩
example : Answers (.lookup 1 [97]) (.stat st0) (.stat st0) :=
  .entry _ _ rfl ⟨by decide, by decide, by decide, ⟨by decide, by decide⟩, ⟨by decide, by decide⟩,
    ⟨by decide, by decide⟩, by decide, by decide, by decide, by decide, by decide, by decide, by decide, by decide,
    by decide, by decide⟩ (by decide)

end Silofs.Fuse
