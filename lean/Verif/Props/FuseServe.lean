import Verif.Props.Fuse
/-
C51, continued: from a message of the kernel to the call that is made, and from the call's result to the
answer the kernel gets.
-/
set_option linter.unusedSimpArgs false
set_option linter.unusedVariables false

namespace Silofs.Fuse

/-! ### Receiving -/

theorem wire_length (h : KHdr) (r : KReq) : (wire true h r).length = 40 + (r.body true).length := by
  rw [wire_eq, hdrBytes_length]

theorem rd_over (w off n : Nat) (msg X : Buf) (h : off + w ≤ n) (h' : off + w ≤ msg.length) :
    rd w off (msg.take n ++ X) = rd w off msg := by
  unfold rd
  rw [List.drop_append_of_le_length (by rw [List.length_take]; omega), List.drop_take,
    List.take_append_of_le_length (by rw [List.length_take, List.length_drop]; omega), List.take_take,
    Nat.min_eq_left (by omega)]

theorem hLen_wire (h : KHdr) (r : KReq) (hs : (wire true h r).length < 2 ^ 32) :
    hLen (wire true h r) = (wire true h r).length := by
  rw [wire_length] at hs
  rw [wire_length, wire_eq, hdr_len, Nat.mod_eq_of_lt (by omega)]

theorem checkInhdr_ok (fq : Fq) (b : Buf) (n : Nat) (full : Bool) (h1 : 40 ≤ n) (h2 : hLen b ≤ fq.buffsize)
    (h3 : full = true → hLen b = n) : checkInhdr fq b n full = .ok () := by
  unfold checkInhdr
  rw [if_neg (by omega), if_neg (by omega), if_neg]
  cases full
  · simp
  · simp [h3 rfl]

theorem code_write (r : KReq) (a b : Nat) (hf : r.Fine a b) (hc : r.code = 16) :
    ∃ fh off data wf lock f, r = .write fh off data wf lock f := by
  cases r
  case write => exact ⟨_, _, _, _, _, _, rfl⟩
  case other c body =>
    exfalso
    simp only [KReq.code] at hc
    subst hc
    exact hf (by decide)
  case readdir plus _ _ _ _ _ _ => cases plus <;> exact absurd hc (by simp only [KReq.code]; decide)
  all_goals exact absurd hc (by simp only [KReq.code]; decide)

theorem large_code (b : Buf) (h : hasLargeWrite b = true) : hOpcode b = 16 := by
  unfold hasLargeWrite at h
  by_cases e : hOpcode b = 16
  · exact e
  · rw [if_neg e] at h; exact absurd h (by decide)

/-- Whether a write is large can be told from the fixed part. -/
theorem large_over (h : KHdr) (r : KReq) (a c : Nat) (hf : r.Fine a c) (X : Buf) (n : Nat) (hn : 80 ≤ n) :
    hasLargeWrite ((wire true h r).take n ++ X) = hasLargeWrite (wire true h r) := by
  have hlen : 40 ≤ (wire true h r).length := by rw [wire_length]; omega
  have hop : hOpcode ((wire true h r).take n ++ X) = hOpcode (wire true h r) :=
    rd_over _ _ _ _ _ (by omega) (by omega)
  unfold hasLargeWrite
  rw [hop]
  by_cases e : hOpcode (wire true h r) = 16
  · rw [if_pos e, if_pos e]
    have hr : r.code = 16 := by
      rw [wire_eq, hdr_code] at e
      exact UInt32.toNat_inj.1 (by rw [e]; rfl)
    obtain ⟨fh, off, data, wf, lock, f, rfl⟩ := code_write r a c hf hr
    have : 80 ≤ (wire true h (.write fh off data wf lock f)).length := by
      rw [wire_length]
      simp only [KReq.body, le64, le32, List.length_append, leBytes_length]; omega
    rw [rd_over _ _ _ _ _ (by omega) (by omega), rd_over _ _ _ _ _ (by omega) (by omega)]
  · rw [if_neg e, if_neg e]

/-- The two states of the thread in which a message of the kernel is carried out. -/
theorem recv_wire (fq : Fq) (h : KHdr) (r : KReq) (old : Buf) (hf : r.Fine fq.maxRead fq.maxWrite)
    (hb : (wire true h r).length ≤ fq.buffsize) (hs : fq.buffsize < 2 ^ 32) :
    (∃ rest, recv fq old (wire true h r) =
        .ok ⟨hdrBytes (40 + (r.body true).length) r.code h (r.body true ++ rest), []⟩ ∧
      (fq.splice && hasLargeWrite (hdrBytes (40 + (r.body true).length) r.code h (r.body true ++ rest))) = false) ∨
    (fq.splice = true ∧ hasLargeWrite (wire true h r) = true ∧ 80 < (wire true h r).length ∧
      recv fq old (wire true h r) = .ok ⟨over ((wire true h r).take 80) old, (wire true h r).drop 80⟩) := by
  have h40 : 40 ≤ (wire true h r).length := by rw [wire_length]; omega
  have hlen := hLen_wire h r (by omega)
  -- a whole message in the buffer
  have whole : over (wire true h r) old =
      hdrBytes (40 + (r.body true).length) r.code h (r.body true ++ old.drop (wire true h r).length) := by
    unfold over; rw [wire_eq, hdrBytes_append]
  have hwl : hLen (over (wire true h r) old) = (wire true h r).length := by
    have := rd_over 4 0 (wire true h r).length (wire true h r) (old.drop (wire true h r).length) (by omega) (by omega)
    rw [List.take_length] at this
    unfold over hLen
    rw [this]; exact hlen
  have hlw : hasLargeWrite (over (wire true h r) old) = hasLargeWrite (wire true h r) := by
    have := large_over h r _ _ hf (old.drop (wire true h r).length) ((wire true h r).length + 80) (by omega)
    rw [List.take_of_length_le (by omega)] at this
    exact this
  unfold recv
  by_cases hsp : fq.splice = true
  · rw [if_pos hsp]
    unfold recvSplice
    by_cases h80 : (wire true h r).length ≤ 80
    · left
      refine ⟨old.drop (wire true h r).length, ?_, ?_⟩
      · rw [List.take_of_length_le h80, hwl, Nat.min_eq_right h80, Int.sub_self]
        rw [checkInhdr_ok _ _ _ _ h40 (by rw [hwl]; exact hb) (fun _ => hwl)]
        simp only
        rw [if_pos (by rfl), List.drop_eq_nil_of_le h80, whole]
      · rw [← whole, hlw]
        cases hlg : hasLargeWrite (wire true h r)
        · simp
        · exfalso
          have hc := large_code _ hlg
          have hr : r.code = 16 := by
            rw [wire_eq, hdr_code] at hc
            exact UInt32.toNat_inj.1 (by rw [hc]; rfl)
          obtain ⟨fh, off, data, wf, lock, f, rfl⟩ := code_write r _ _ hf hr
          have hd : data.length = 0 := by
            rw [wire_length] at h80
            simp only [KReq.body, le64, le32, List.length_append, leBytes_length] at h80; omega
          rw [wire_eq] at hlg
          unfold hasLargeWrite at hlg
          rw [if_pos (by rw [hdr_code]; rfl)] at hlg
          simp only [KReq.body, hdr_rd, Nat.le_refl, Nat.sub_self, Nat.reduceLeDiff, Nat.reduceSub, le64, le32,
            List.append_assoc, rd_hit, rd_skip, hd] at hlg
          unfold isLargeIo at hlg
          rw [if_pos (by decide)] at hlg
          exact absurd hlg (by decide)
    · have hl4 : hLen (over ((wire true h r).take 80) old) = (wire true h r).length := by
        unfold over hLen
        rw [rd_over _ _ _ _ _ (by omega) (by omega)]; exact hlen
      have hrem : toU64 (((wire true h r).length : Int) - ((80 : Nat) : Int)) = (wire true h r).length - 80 := by
        unfold toU64; omega
      have hmin : min 80 (wire true h r).length = 80 := by omega
      have hlo : hasLargeWrite (over ((wire true h r).take 80) old) = hasLargeWrite (wire true h r) := by
        unfold over; exact large_over h r _ _ hf _ _ (by omega)
      rw [hl4, hmin, hrem]
      rw [checkInhdr_ok _ _ _ _ (by omega) (by rw [hl4]; exact hb) (by
        intro hc
        have : (wire true h r).length - 80 = 0 := by simpa using hc
        omega)]
      simp only
      by_cases hlg : hasLargeWrite (wire true h r) = true
      · right
        refine ⟨hsp, hlg, by omega, ?_⟩
        rw [if_pos (by rw [hlo, hlg]; simp)]
      · left
        have hlg' : hasLargeWrite (wire true h r) = false := by simpa using hlg
        refine ⟨old.drop (wire true h r).length, ?_, ?_⟩
        · rw [if_neg (by rw [hlo, hlg']; simp; omega)]
          rw [show 80 + ((wire true h r).length - 80) = (wire true h r).length by omega, List.take_length, Nat.min_self,
            List.drop_length]
          rw [checkInhdr_ok _ _ _ _ h40 (by rw [hwl]; exact hb) (fun _ => hwl)]
          simp only [whole]
        · rw [← whole, hlw, hlg']; simp
  · rw [if_neg hsp]
    left
    refine ⟨old.drop (wire true h r).length, ?_, ?_⟩
    · unfold recvCopy
      rw [if_neg (by omega), checkInhdr_ok _ _ _ _ h40 (by rw [hwl]; exact hb) (fun _ => hwl)]
      simp only [whole]
    · have : fq.splice = false := by simpa using hsp
      rw [this]; rfl

/-! ### Received and decoded -/

/-- Whatever way a request comes in, and whatever an earlier one has left in the buffer: header and call are those of
the request. -/
theorem received (fq : Fq) (h : KHdr) (r : KReq) (old : Buf) (hm : 33 < fq.minor)
    (hf : r.Fine fq.maxRead fq.maxWrite) (ha : r.Agrees)
    (hb : (wire true h r).length ≤ fq.buffsize) (hs : fq.buffsize < 2 ^ 32) :
    ∃ i, recv fq old (wire true h r) = .ok i ∧ decode fq i = r.means h.node.toNat ∧
      hOpcode i.buf = r.code.toNat ∧ hUnique i.buf = h.unique.toNat ∧ hUid i.buf = h.uid.toNat ∧
      hGid i.buf = h.gid.toNat := by
  have hl : (r.body true).length < 2 ^ 32 := by rw [wire_length] at hb; omega
  rcases recv_wire fq h r old hf hb hs with ⟨rest, hr, hw⟩ | ⟨hsp, hlg, h80, hr⟩
  · exact ⟨_, hr, decode_whole fq h r _ rest [] hm hf ha hl hw, hdr_code _ _ _ _, hdr_unique _ _ _ _, hdr_uid _ _ _ _,
      hdr_gid _ _ _ _⟩
  · have hcode : r.code = 16 := by
      have := large_code _ hlg
      rw [wire_eq, hdr_code] at this
      exact UInt32.toNat_inj.1 (by rw [this]; rfl)
    obtain ⟨fh, off, data, wf, lock, f, rfl⟩ := code_write r _ _ hf hcode
    simp only [KReq.Fine] at hf
    have hd : data.length % 256 ^ 4 = data.length := by
      apply Nat.mod_eq_of_lt
      simp only [KReq.body, List.length_append] at hl
      exact Nat.lt_of_le_of_lt (Nat.le_add_left _ _) hl
    have e : wire true h (.write fh off data wf lock f) =
        hdrBytes (40 + ((KReq.write fh off data wf lock f).body true).length) 16 h
          (leBytes 8 fh.toNat ++ (leBytes 8 off.toNat ++ (leBytes 4 data.length ++ (leBytes 4 wf.toNat ++
            (leBytes 8 lock.toNat ++ (leBytes 4 f.toNat ++ leBytes 4 0)))))) ++ data := by
      rw [wire_eq, hdrBytes_append]
      simp only [KReq.body, KReq.code, le64, le32, List.append_assoc]; rfl
    have e80 : (hdrBytes (40 + ((KReq.write fh off data wf lock f).body true).length) 16 h
          (leBytes 8 fh.toNat ++ (leBytes 8 off.toNat ++ (leBytes 4 data.length ++ (leBytes 4 wf.toNat ++
            (leBytes 8 lock.toNat ++ (leBytes 4 f.toNat ++ leBytes 4 0))))))).length = 80 := by
      rw [hdrBytes_length]; simp only [List.length_append, leBytes_length]
    have et : (wire true h (.write fh off data wf lock f)).take 80 =
        hdrBytes (40 + ((KReq.write fh off data wf lock f).body true).length) 16 h
          (leBytes 8 fh.toNat ++ (leBytes 8 off.toNat ++ (leBytes 4 data.length ++ (leBytes 4 wf.toNat ++
            (leBytes 8 lock.toNat ++ (leBytes 4 f.toNat ++ leBytes 4 0)))))) := by
      rw [e, List.take_left' e80]
    have ed : (wire true h (.write fh off data wf lock f)).drop 80 = data := by rw [e, List.drop_left' e80]
    have hlo : hasLargeWrite (over ((wire true h (.write fh off data wf lock f)).take 80) old) = true := by
      unfold over
      rw [large_over h (.write fh off data wf lock f) fq.maxRead fq.maxWrite hf _ 80 (by omega)]; exact hlg
    refine ⟨_, hr, ?_, ?_⟩
    · rw [ed]
      rw [et] at hlo ⊢
      unfold over at hlo ⊢
      rw [hdrBytes_append] at hlo ⊢
      unfold decode
      simp only [hdr_code]
      show some (writeOf fq _) = _
      unfold writeOf
      rw [if_pos (by rw [hsp]; simp only [hlo]; rfl)]
      simp only [hdr_node, KReq.means, KReq.body, hdr_rd, hdr_drop, Nat.le_refl, Nat.sub_self, Nat.reduceLeDiff,
        Nat.reduceSub, le64, le32, List.append_assoc, rd_hit, rd_skip, drop_skip, List.drop_zero, u64_mod, u32_mod, hd,
        Nat.min_eq_left hf, List.take_length, offOf, bit]
    · rw [et]
      unfold over
      rw [hdrBytes_append]
      exact ⟨hdr_code _ _ _ _, hdr_unique _ _ _ _, hdr_uid _ _ _ _, hdr_gid _ _ _ _⟩

/-! ### From a message to a call -/

/-- The codes that pass the check on users, seen from the requests. -/
theorem perm_of (fq : Fq) (h : KHdr) (r : KReq) (a b : Nat) (hf : r.Fine a b) (ho : r.own = false)
    (hn : ∀ body, r ≠ .other 41 body) :
    checkPerm fq h.uid.toNat r.code.toNat = none ↔ Allowed fq.denyOthers fq.owner h r := by
  have hu : h.uid.toNat = 0 ↔ h.uid = 0 := by
    constructor
    · intro e; exact UInt32.toNat_inj.1 (by rw [e]; rfl)
    · intro e; rw [e]; rfl
  have hc : [26, 15, 16, 20, 18, 28, 30, 29, 41, 44].contains r.code.toNat = true ↔ r.onOpen = true := by
    cases r
    case readdir plus _ _ _ _ _ _ => cases plus <;> simp only [KReq.code, KReq.onOpen] <;> decide
    case other c body =>
      simp only [KReq.code, KReq.onOpen]
      constructor
      · intro e
        exfalso
        rw [List.contains_iff_mem] at e
        have hf' : otherCodes c := hf
        have h41 : c ≠ 41 := fun e => hn body (by rw [e])
        have key : ∀ k : UInt32, c.toNat = k.toNat → c = k := fun k e => UInt32.toNat_inj.1 e
        simp only [List.mem_cons, List.not_mem_nil, or_false] at e
        rcases e with e | e | e | e | e | e | e | e | e | e
        · exact hf' (key 26 e ▸ by decide)
        · exact hf' (key 15 e ▸ by decide)
        · exact hf' (key 16 e ▸ by decide)
        · exact hf' (key 20 e ▸ by decide)
        · exact hf' (key 18 e ▸ by decide)
        · exact hf' (key 28 e ▸ by decide)
        · exact hf' (key 30 e ▸ by decide)
        · exact hf' (key 29 e ▸ by decide)
        · exact h41 (key 41 e)
        · exact hf' (key 44 e ▸ by decide)
      · intro e; exact absurd e (by decide)
    case init => exact absurd ho (by simp [KReq.own])
    all_goals simp only [KReq.code, KReq.onOpen]; decide
  unfold checkPerm Allowed
  cases hd : fq.denyOthers
  · simp
  · rw [if_neg (by simp)]
    by_cases h1 : h.uid.toNat = 0 ∨ h.uid.toNat = fq.owner
    · rw [if_pos h1]
      rcases h1 with h1 | h1
      · simp [hu.1 h1]
      · simp [h1]
    · rw [if_neg h1]
      by_cases h2 : [26, 15, 16, 20, 18, 28, 30, 29, 41, 44].contains r.code.toNat = true
      · rw [if_pos h2]; simp [hc.1 h2]
      · rw [if_neg h2]
        constructor
        · intro e; exact absurd e (by simp)
        · rintro (e | e | e | e)
          · exact absurd e (by simp)
          · exact absurd (Or.inl (hu.2 e)) h1
          · exact absurd (Or.inr e) h1
          · exact absurd (hc.2 e) h2

theorem means_none (r : KReq) (n : Nat) : r.means n = none ↔ ∃ c body, r = .other c body := by
  cases r <;> simp [KReq.means]

theorem code_init (r : KReq) (a b : Nat) (hf : r.Fine a b) (ho : r.own = false) : r.code.toNat ≠ 26 := by
  cases r
  case readdir plus _ _ _ _ _ _ => cases plus <;> simp only [KReq.code] <;> decide
  case other c body =>
    intro e
    have : c = 26 := UInt32.toNat_inj.1 e
    have hf' : otherCodes c := hf
    exact hf' (this ▸ by decide)
  case init => exact absurd ho (by simp [KReq.own])
  all_goals simp only [KReq.code]; decide

theorem means_own (r : KReq) (n : Nat) (c : Call) (hc : r.means n = some c) (ho : r.own = false) :
    (∀ a b f, c ≠ .init a b f) ∧ c ≠ .destroy := by
  cases r
  case init => exact absurd ho (by simp [KReq.own])
  all_goals
    simp only [KReq.means, Option.some.injEq, reduceCtorEq] at hc
  all_goals
    first
    | exact absurd ho (by decide)
    | (subst hc; exact ⟨fun _ _ _ => by simp, by simp⟩)

theorem exec_call (fq : Fq) (fs : Nat → Nat → Call → Except Nat Val) (i : In) (c : Call)
    (h1 : checkTask fq i = none) (h2 : decode fq i = some c) (h3 : ∀ a b f, c ≠ .init a b f) (h4 : c ≠ .destroy) :
    exec fq fs i = (fq, ⟨some (hUid i.buf, hGid i.buf, c),
      answer (hUnique i.buf) c (fs (hUid i.buf) (hGid i.buf) c)⟩) := by
  unfold exec
  rw [h1]
  simp only
  split
  · rename_i e; rw [h2] at e; exact absurd e (by simp)
  · rename_i e; rw [h2] at e; exact absurd (Option.some.inj e) (h3 _ _ _)
  · rename_i e; rw [h2] at e; exact absurd (Option.some.inj e) h4
  · rename_i c' _ _ e
    rw [h2] at e; rw [Option.some.inj e]

/-- **What the kernel asks is what the file-system is asked.**  For every request of the kernel (any names, numbers,
data, users), whether it is read or spliced from the device and whatever earlier requests have left in the thread's
buffer: the file-system is called exactly once, with the operation, inode and arguments that the request carries and
as the user and group that made it, and the kernel's answer is made of that call's result and carries the
request's number.

Not so in full: `Agrees` asks that two flags, which the code takes from a wrong field, happen to have the same value
there (see `C51_release_violated` and `C51_setxattr_violated`). -/
theorem C51_request_partial (fq : Fq) (fs : Nat → Nat → Call → Except Nat Val) (h : KHdr) (r : KReq) (old : Buf)
    (c : Call) (hg : fq.gotInit = true) (hm : 33 < fq.minor) (hf : r.Fine fq.maxRead fq.maxWrite) (ha : r.Agrees)
    (hb : (wire true h r).length ≤ fq.buffsize) (hs : fq.buffsize < 2 ^ 32) (ho : r.own = false)
    (hp : Allowed fq.denyOthers fq.owner h r) (hc : r.means h.node.toNat = some c) :
    serve fq fs old (wire true h r) =
      (fq, ⟨some (h.uid.toNat, h.gid.toNat, c), answer h.unique.toNat c (fs h.uid.toNat h.gid.toNat c)⟩) := by
  obtain ⟨i, hr, hd, hop, hun, hui, hgi⟩ := received fq h r old hm hf ha hb hs
  have h26 := code_init r _ _ hf ho
  have ht : checkTask fq i = none := by
    unfold checkTask checkOpcode
    rw [hd, hc, hop, hg, hui]
    rw [if_neg (by simp), if_neg (by simp), if_neg (by simpa using h26)]
    simp only
    refine (perm_of fq h r _ _ hf ho ?_).2 hp
    intro body e
    subst e
    exact absurd hc (by simp [KReq.means])
  have hw := means_own r _ _ hc ho
  unfold serve
  rw [hr]
  simp only
  rw [exec_call fq fs i c ht (hd.trans hc) hw.1 hw.2, hui, hgi, hun]

/-- A request that the daemon does not know is answered with ENOSYS and leads to no call. -/
theorem C51_unknown (fq : Fq) (fs : Nat → Nat → Call → Except Nat Val) (h : KHdr) (code : UInt32) (body old : Buf)
    (hm : 33 < fq.minor) (hf : otherCodes code) (hb : 40 + body.length ≤ fq.buffsize) (hs : fq.buffsize < 2 ^ 32) :
    serve fq fs old (wire true h (.other code body)) = (fq, ⟨none, some (replyErr h.unique.toNat 1038)⟩) := by
  obtain ⟨i, hr, hd, hop, hun, hui, hgi⟩ :=
    received fq h (.other code body) old hm hf trivial (by rw [wire_length]; exact hb) hs
  unfold serve
  rw [hr]
  simp only
  unfold exec checkTask checkOpcode
  rw [hd]
  simp only [KReq.means, Option.isNone_none, if_true, hun]

/-- **Where only the owner may use the file-system, another user's request that does not go to a file already open
leads to no call at all and is answered with EACCES.** -/
theorem C51_others (fq : Fq) (fs : Nat → Nat → Call → Except Nat Val) (h : KHdr) (r : KReq) (old : Buf)
    (c : Call) (hg : fq.gotInit = true) (hm : 33 < fq.minor) (hf : r.Fine fq.maxRead fq.maxWrite) (ha : r.Agrees)
    (hb : (wire true h r).length ≤ fq.buffsize) (hs : fq.buffsize < 2 ^ 32) (ho : r.own = false)
    (hp : ¬ Allowed fq.denyOthers fq.owner h r) (hc : r.means h.node.toNat = some c) :
    serve fq fs old (wire true h r) = (fq, ⟨none, some (replyErr h.unique.toNat 13)⟩) := by
  obtain ⟨i, hr, hd, hop, hun, hui, hgi⟩ := received fq h r old hm hf ha hb hs
  have h26 := code_init r _ _ hf ho
  have hne : checkPerm fq h.uid.toNat r.code.toNat ≠ none := by
    intro e
    refine hp ((perm_of fq h r _ _ hf ho ?_).1 e)
    intro body e
    subst e
    exact absurd hc (by simp [KReq.means])
  have h13 : checkPerm fq h.uid.toNat r.code.toNat = some 13 := by
    unfold checkPerm at hne ⊢
    split
    · rename_i e; exact absurd (if_pos e) hne
    · rename_i e
      rw [if_neg e] at hne
      split
      · rename_i e; exact absurd (if_pos e) hne
      · rename_i e
        rw [if_neg e] at hne
        split
        · rename_i e; exact absurd (if_pos e) hne
        · rfl
  have ht : checkTask fq i = some 13 := by
    unfold checkTask checkOpcode
    rw [hd, hc, hop, hg, hui]
    rw [if_neg (by simp), if_neg (by simp), if_neg (by simpa using h26)]
    exact h13
  unfold serve
  rw [hr]
  simp only
  unfold exec
  rw [ht, hun]

end Silofs.Fuse
