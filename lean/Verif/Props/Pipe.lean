import Verif.Props.PipeRecv
import Verif.Props.FileMap
/-
C61: large reads and writes through a thread's pipe.
-/
set_option linter.unusedSimpArgs false
namespace Silofs.Pp
open Silofs.Fuse (Buf KHdr KReq wire)

/-! ### A message of the kernel, received -/

/-- What a thread knows of a message it has received: its number, whether it is a large read or write, and what is still
in the pipe. -/
theorem received_pipe (fq : Fuse.Fq) (h : KHdr) (r : KReq) (old : Buf) (hsp : fq.splice = true)
    (hf : r.Fine fq.maxRead fq.maxWrite) (hb : (wire true h r).length ≤ fq.buffsize) (hs : fq.buffsize < 2 ^ 32) :
    ∃ i, Fuse.recvSplice fq old (wire true h r) = .ok i ∧ Fuse.hUnique i.buf = h.unique.toNat ∧
      Fuse.hOpcode i.buf = r.code.toNat ∧ Fuse.hLen i.buf ≠ 0 ∧
      match r with
      | .write _ off data _ _ _ =>
        Fuse.hasLargeWrite i.buf = Fuse.isLargeIo (Fuse.offOf off) data.length ∧ Fuse.hasLargeRead i.buf = false ∧
        Fuse.rd 4 56 i.buf = data.length ∧ (Fuse.hasLargeWrite i.buf = true → i.pipe = data)
      | .read _ off size _ _ _ =>
        Fuse.hasLargeRead i.buf = Fuse.isLargeIo (Fuse.offOf off) size.toNat ∧ Fuse.hasLargeWrite i.buf = false ∧
        Fuse.rd 4 56 i.buf = size.toNat ∧ i.pipe = []
      | _ => Fuse.hasLargeWrite i.buf = false ∧ Fuse.hasLargeRead i.buf = false := by
  have hlen : (wire true h r).length = 40 + (r.body true).length := Fuse.wire_length h r
  have key : ∀ (R : Buf), (40 + (r.body true).length < 2 ^ 32) →
      Fuse.hLen (Fuse.hdrBytes (40 + (r.body true).length) r.code h (r.body true ++ R)) ≠ 0 := by
    intro R hR
    rw [Fuse.hdr_len, Nat.mod_eq_of_lt (by omega)]
    omega
  have hr : ∀ i, Fuse.recv fq old (wire true h r) = .ok i → Fuse.recvSplice fq old (wire true h r) = .ok i := by
    intro i hi
    unfold Fuse.recv at hi
    rw [if_pos hsp] at hi
    exact hi
  rcases Fuse.recv_wire fq h r old hf hb hs with ⟨rest, h1, h2⟩ | ⟨_, hlg, h80, h1⟩
  · refine ⟨_, hr _ h1, Fuse.hdr_unique _ _ _ _, Fuse.hdr_code _ _ _ _, key _ (by omega), ?_⟩
    rw [hsp, Bool.true_and] at h2
    have hcode := Fuse.hdr_code (40 + (r.body true).length) r.code h (r.body true ++ rest)
    have hnr : r.code.toNat ≠ 15 →
        Fuse.hasLargeRead (Fuse.hdrBytes (40 + (r.body true).length) r.code h (r.body true ++ rest)) = false := by
      intro hne
      unfold Fuse.hasLargeRead
      rw [if_neg (by rw [hcode]; exact hne)]
    cases r
    case write fh off data wf lock f =>
      have hd : data.length % 256 ^ 4 = data.length := by
        apply Nat.mod_eq_of_lt
        simp only [KReq.body, List.length_append] at hlen
        omega
      refine ⟨?_, hnr (by simp only [KReq.code]; decide), ?_, ?_⟩
      · unfold Fuse.hasLargeWrite
        rw [if_pos (by rw [hcode]; rfl)]
        simp only [KReq.body, Fuse.hdr_rd, Nat.le_refl, Nat.sub_self, Nat.reduceLeDiff, Nat.reduceSub, Fuse.le64, Fuse.le32,
          List.append_assoc, Fuse.rd_hit, Fuse.rd_skip, hd, Fuse.u64_mod, Fuse.offOf]
      · simp only [KReq.body, Fuse.hdr_rd, Nat.le_refl, Nat.sub_self, Nat.reduceLeDiff, Nat.reduceSub, Fuse.le64, Fuse.le32,
          List.append_assoc, Fuse.rd_hit, Fuse.rd_skip, hd]
      · intro hc
        rw [h2] at hc
        cases hc
    case read fh off size rf lock f =>
      refine ⟨?_, h2, ?_, rfl⟩
      · unfold Fuse.hasLargeRead
        rw [if_pos (by rw [hcode]; rfl)]
        simp only [KReq.body, Fuse.hdr_rd, Nat.le_refl, Nat.sub_self, Nat.reduceLeDiff, Nat.reduceSub, Fuse.le64, Fuse.le32,
          List.append_assoc, Fuse.rd_hit, Fuse.rd_skip, Fuse.u64_mod, Fuse.u32_mod, Fuse.offOf]
      · simp only [KReq.body, Fuse.hdr_rd, Nat.le_refl, Nat.sub_self, Nat.reduceLeDiff, Nat.reduceSub, Fuse.le64, Fuse.le32,
          List.append_assoc, Fuse.rd_hit, Fuse.rd_skip, Fuse.u32_mod]
    case other c body =>
      refine ⟨h2, hnr ?_⟩
      intro hc
      have hf' : Fuse.otherCodes c := hf
      have : c = 15 := UInt32.toNat_inj.1 hc
      exact hf' (this ▸ by decide)
    case readdir plus _ _ _ _ _ _ => cases plus <;> exact ⟨h2, hnr (by simp only [KReq.code]; decide)⟩
    all_goals exact ⟨h2, hnr (by simp only [KReq.code]; decide)⟩
  · have hcode : r.code = 16 := by
      have := Fuse.large_code _ hlg
      rw [Fuse.wire_eq, Fuse.hdr_code] at this
      exact UInt32.toNat_inj.1 (by rw [this]; rfl)
    obtain ⟨fh, off, data, wf, lock, f, rfl⟩ := Fuse.code_write r _ _ hf hcode
    have hrd : ∀ w o, o + w ≤ 80 →
        Fuse.rd w o (Fuse.over ((wire true h (.write fh off data wf lock f)).take 80) old) =
          Fuse.rd w o (wire true h (.write fh off data wf lock f)) := by
      intro w o ho
      unfold Fuse.over
      exact Fuse.rd_over _ _ _ _ _ ho (by omega)
    have hd : data.length % 256 ^ 4 = data.length := by
      apply Nat.mod_eq_of_lt
      simp only [KReq.body, List.length_append] at hlen
      omega
    have hop : Fuse.hOpcode (Fuse.over ((wire true h (.write fh off data wf lock f)).take 80) old) = 16 := by
      unfold Fuse.hOpcode
      rw [hrd _ _ (by omega)]
      show Fuse.hOpcode _ = _
      rw [Fuse.wire_eq, Fuse.hdr_code]
      rfl
    have hsz : Fuse.rd 4 56 (Fuse.over ((wire true h (.write fh off data wf lock f)).take 80) old) = data.length := by
      rw [hrd _ _ (by omega), Fuse.wire_eq]
      simp only [KReq.body, Fuse.hdr_rd, Nat.le_refl, Nat.sub_self, Nat.reduceLeDiff, Nat.reduceSub, Fuse.le64, Fuse.le32,
          List.append_assoc, Fuse.rd_hit, Fuse.rd_skip, hd]
    refine ⟨_, hr _ h1, ?_, hop, ?_, ?_, ?_, hsz, ?_⟩
    · unfold Fuse.hUnique
      rw [hrd _ _ (by omega)]
      show Fuse.hUnique _ = _
      rw [Fuse.wire_eq, Fuse.hdr_unique]
    · unfold Fuse.hLen
      rw [hrd _ _ (by omega)]
      show Fuse.hLen _ ≠ _
      rw [Fuse.wire_eq, Fuse.hdr_len, Nat.mod_eq_of_lt (by omega)]
      omega
    · unfold Fuse.hasLargeWrite
      rw [if_pos hop, hsz, hrd _ _ (by omega), Fuse.wire_eq]
      simp only [KReq.body, Fuse.hdr_rd, Nat.le_refl, Nat.sub_self, Nat.reduceLeDiff, Nat.reduceSub, Fuse.le64, Fuse.le32,
          List.append_assoc, Fuse.rd_hit, Fuse.rd_skip, Fuse.u64_mod, Fuse.offOf]
    · unfold Fuse.hasLargeRead
      rw [if_neg (by rw [hop]; decide)]
    · intro _
      have e : wire true h (.write fh off data wf lock f) =
          Fuse.hdrBytes (40 + ((KReq.write fh off data wf lock f).body true).length) 16 h
            (leBytes 8 fh.toNat ++ (leBytes 8 off.toNat ++ (leBytes 4 data.length ++ (leBytes 4 wf.toNat ++
              (leBytes 8 lock.toNat ++ (leBytes 4 f.toNat ++ leBytes 4 0)))))) ++ data := by
        rw [Fuse.wire_eq, Fuse.hdrBytes_append]
        simp only [KReq.body, KReq.code, Fuse.le64, Fuse.le32, List.append_assoc]; rfl
      show (wire true h (.write fh off data wf lock f)).drop 80 = data
      rw [e, List.drop_left']
      rw [Fuse.hdrBytes_length]; simp only [List.length_append, leBytes_length]

/-! ### What a round does -/

theorem doRead_mem (u len : Nat) (sc : Script) (s : St) : (doRead u len sc s).2.mem = s.mem := by
  have hsend : ∀ (s1 : St) (m : Buf), (sendMsg s1 m).2.mem = s1.mem := fun s1 m => (sendMsg_spec s1 m).2.1
  have herr : ∀ (s1 : St) (e : Nat), s1.mem = s.mem →
      (match sendMsg s1 (Fuse.replyErr u e) with | (.ok, s3) => (R.err e, s3) | r => r).2.mem = s.mem := by
    intro s1 e h
    have := hsend s1 (Fuse.replyErr u e)
    revert this
    generalize sendMsg s1 (Fuse.replyErr u e) = q
    intro this
    obtain ⟨r, s3⟩ := q
    cases r <;> exact this.trans h
  unfold doRead
  generalize rdGather len sc.res sc.pieces [] 0 = q
  obtain ⟨r, l, n⟩ := q
  cases r with
  | err e => exact hsend _ _
  | hang => rfl
  | ok =>
    simp only
    split
    · exact hsend _ _
    · unfold replyIov
      have ha : (appendFromBuf s (Fuse.outHdr (16 + n) 0 u)).2.mem = s.mem := by
        unfold appendFromBuf
        repeat' split
        all_goals rfl
      revert ha
      generalize appendFromBuf s (Fuse.outHdr (16 + n) 0 u) = q
      intro ha
      obtain ⟨r, s1⟩ := q
      cases r with
      | err e => exact herr s1 e ha
      | hang => exact ha
      | ok =>
        have h2 := (append_spec l.length l s1).2.2.1
        simp only
        revert h2
        generalize appendData l.length l s1 = q
        intro h2
        obtain ⟨r, s2⟩ := q
        cases r with
        | err e => exact herr s2 e (h2.trans ha)
        | hang => exact h2.trans ha
        | ok =>
          have : (flushToDev s2).2.mem = s2.mem := by
            unfold flushToDev
            repeat' split
            all_goals rfl
          exact this.trans (h2.trans ha)

/-- A large write, from the pipe that holds its data. -/
theorem C61_write (async : Bool) (u max : Nat) (sc : Script) (data : Buf) (s : St) (hb : s.bytes = data)
    (hp : s.pend = data.length) (ha : Apart sc.pieces) (hl : total sc.pieces ≤ data.length) :
    WriteAns u data sc s (doWrite async u max sc s).2 := by
  obtain ⟨f1, f2, f3, f4⟩ := finish_spec (s := s) async max sc (by rw [hb, hp]) ha (by rw [hb]; exact hl)
  unfold doWrite
  revert f1 f2 f3 f4
  generalize wrFinish _ = q
  intro f1 f2 f3 f4
  obtain ⟨r, w, s'⟩ := q
  cases r with
  | hang => exact absurd rfl f2
  | err e =>
    have := sendMsg_spec s' (Fuse.replyErr u e)
    refine ⟨fun a h => by rw [this.2.1]; exact f3 a h, ?_⟩
    rcases this.2.2.2.2.2 with ⟨_, h⟩ | ⟨_, h⟩
    · exact Or.inr (Or.inl ⟨e, by rw [← f1]; exact h⟩)
    · exact Or.inl (by rw [← f1]; exact h)
  | ok =>
    obtain ⟨g1, g2, g3⟩ := f4 rfl
    have := sendMsg_spec s' (writeReply u w.nwr)
    refine ⟨fun a h => by rw [this.2.1]; exact f3 a h, ?_⟩
    rcases this.2.2.2.2.2 with ⟨_, h⟩ | ⟨_, h⟩
    · refine Or.inr (Or.inr ⟨g1, ?_, ?_⟩)
      · rw [← f1, show total sc.pieces = w.nwr from g3.symm]
        exact h
      · show Holds (sendMsg s' (writeReply u w.nwr)).2.mem _ _
        rw [this.2.1, ← hb]
        exact g2.holds
    · exact Or.inl (by rw [← f1]; exact h)

/-- A large read, from an empty pipe. -/
theorem C61_read (u max : Nat) (sc : Script) (s : St) (hb : s.bytes = []) (hp : s.pend = 0) (hm : 16 + max < 4294967296) :
    ReadAns u max sc s (doRead u max sc s).2 := by
  refine ⟨doRead_mem u max sc s, ?_⟩
  rcases doRead_spec u max sc s hb hp hm with h | h | ⟨h1, h2, h3⟩
  · exact Or.inr (Or.inl h)
  · exact Or.inl h
  · have hd : (dataOf s.mem sc.pieces).length = total sc.pieces := loads_length _ _
    exact Or.inr (Or.inr ⟨h1, dataOf s.mem sc.pieces, hd, by rw [hd]; exact h2, holds_load _ _, h3⟩)

/-- **One request at a time.**  Whatever the kernel's calls fail with, and in whatever state earlier requests left the pipe: in one
round of a thread either nothing is answered and no memory changes, or the first message waiting is carried out, with
nothing but its own bytes. -/
theorem C61_round (fq : Fuse.Fq) (async : Bool) (fs : Fs) (old : Buf) (s : St) (hi : Inv s) (hsp : fq.splice = true)
    (hs : fq.buffsize < 2 ^ 32) (hrd : 16 + fq.maxRead < 2 ^ 32) (hq : ∀ m ∈ s.inq, Obeys fq m) :
    Step fs s (round fq async fs old s).2 := by
  rcases (round_spec fq async fs old s hi).2 with h | ⟨m, q, i, s1, h1, h2, h3, h4, h5, h6, h7, h8, h9⟩
  · exact Or.inl h
  obtain ⟨h, r, hw, hf, hb⟩ := hq m (by rw [h1]; exact List.mem_cons_self)
  refine Or.inr ⟨m, q, h, r, h1, h9, hw, ?_⟩
  obtain ⟨i', r1, r2, r3, r4, r5⟩ := received_pipe fq h r old hsp hf hb hs
  rw [hw, r1] at h2
  cases h2
  rw [h8]
  have hex : (execGo fq async fs i.buf s1).2 = s1 ∨ (execGo fq async fs i.buf s1).2 = (execReq fq async fs i.buf s1).2 := by
    unfold execGo
    split
    · exact Or.inl rfl
    · right
      generalize execReq fq async fs i.buf s1 = q
      obtain ⟨r, s2⟩ := q
      cases r <;> rfl
  have hplain : Fuse.hasLargeWrite i.buf = false → Fuse.hasLargeRead i.buf = false →
      PlainAns fs.reply s (execGo fq async fs i.buf s1).2 := by
    intro a b
    rcases hex with e | e
    · rw [e]; exact ⟨h5, Or.inl h6⟩
    · rw [e]
      unfold execReq
      rw [if_neg (by rw [a]; decide), if_neg (by rw [b]; decide)]
      have := sendMsg_spec s1 fs.reply
      refine ⟨this.2.1.trans h5, ?_⟩
      rcases this.2.2.2.2.2 with ⟨_, h⟩ | ⟨_, h⟩
      · exact Or.inr (by rw [← h6]; exact h)
      · exact Or.inl (by rw [← h6]; exact h)
  unfold Answer
  cases r
  case write fh off data wf lock f =>
    simp only at r5 ⊢
    obtain ⟨w1, w2, w3, w4⟩ := r5
    by_cases hl : Fuse.isLargeIo (Fuse.offOf off) data.length = true
    · rw [if_pos hl]
      intro ha ht
      rcases hex with e | e
      · rw [e]
        exact ⟨fun a _ => by rw [h5], Or.inl h6⟩
      · rw [e]
        rw [hl] at w1
        unfold execReq
        rw [if_pos w1, r2]
        have hd := w4 w1
        have hp := C61_write async h.unique.toNat (min (Fuse.rd 4 56 i.buf) fq.maxWrite) fs.script data s1 (by rw [h3, hd])
          (by rw [h4, hd]) ha ht
        unfold WriteAns at hp ⊢
        rw [h5, h6] at hp
        exact hp
    · rw [if_neg hl]
      exact hplain (by rw [w1]; simpa using hl) w2
  case read fh off size rf lock f =>
    simp only at r5 ⊢
    obtain ⟨w1, w2, w3, w4⟩ := r5
    by_cases hl : Fuse.isLargeIo (Fuse.offOf off) size.toNat = true
    · rw [if_pos hl]
      rcases hex with e | e
      · rw [e]
        exact ⟨h5, Or.inl h6⟩
      · rw [e]
        rw [hl] at w1
        unfold execReq
        rw [if_neg (by rw [w2]; decide), if_pos w1, r2, w3]
        have hp := C61_read h.unique.toNat (min size.toNat fq.maxRead) fs.script s1 (by rw [h3, w4]) (by rw [h4, w4]; rfl)
          (by omega)
        unfold ReadAns at hp ⊢
        rw [h5, h6] at hp
        refine ⟨hp.1, ?_⟩
        rcases hp.2 with a | a | ⟨a, d, b, c, e⟩
        · exact Or.inl a
        · exact Or.inr (Or.inl a)
        · exact Or.inr (Or.inr ⟨a, d, b, by omega, e⟩)
    · rw [if_neg hl]
      exact hplain w2 (by rw [w1]; simpa using hl)
  all_goals exact hplain r5.1 r5.2

/-- **No request gets another's bytes**, through any number of rounds, with any failures of the kernel. -/
theorem C61_rounds (fq : Fuse.Fq) (async : Bool) (hsp : fq.splice = true) (hs : fq.buffsize < 2 ^ 32)
    (hrd : 16 + fq.maxRead < 2 ^ 32) : ∀ (l : List (Fs × Buf)) (s : St), Inv s → (∀ m ∈ s.inq, Obeys fq m) →
    Trace l s (rounds fq async l s) := by
  intro l
  induction l with
  | nil => intro s _ _; rfl
  | cons x l ih =>
    intro s hi hq
    obtain ⟨fs, old⟩ := x
    have h1 := C61_round fq async fs old s hi hsp hs hrd hq
    have h2 := (round_spec fq async fs old s hi).1
    rw [rounds]
    refine ⟨(round fq async fs old s).2, h1, ?_⟩
    have hq' : ∀ m ∈ (round fq async fs old s).2.inq, Obeys fq m := by
      intro m hm
      rcases h1 with ⟨_, _, k, hk⟩ | ⟨m', q, _, _, e1, e2, _⟩
      · rw [hk] at hm
        exact hq m (List.mem_of_mem_drop hm)
      · rw [e2] at hm
        exact hq m (by rw [e1]; exact List.mem_cons_of_mem _ hm)
    revert h1 h2 hq'
    generalize round fq async fs old s = q
    intro h1 h2 hq'
    obtain ⟨g, s'⟩ := q
    cases g
    · exact Or.inl rfl
    · exact Or.inr (ih s' h2 hq')

/-- A thread that has just begun. -/
theorem C61_start (s : St) (h : s.segs = []) : Inv s := by
  unfold Inv St.bytes
  rw [h]
  exact Nat.zero_le _

/-- The kernel can tell the three kinds of answers apart. -/
theorem C61_kinds (u u' n e : Nat) : Fuse.replyErr u e ≠ writeReply u' n ∧ (Fuse.replyErr u e).length = 16 ∧
    (writeReply u' n).length = 24 := by
  have h1 : (Fuse.replyErr u e).length = 16 := outHdr_length _ _ _
  have h2 : (writeReply u' n).length = 24 := by
    unfold writeReply Fuse.replyOk
    rw [List.length_append, outHdr_length, List.length_append, leBytes_length, leBytes_length]
  exact ⟨fun h => by rw [h, h2] at h1; omega, h1, h2⟩

/-! ### Requests are answered -/

theorem fill_ok {s : St} (v : Iov) (hf : s.flt = []) (hp : s.pend = s.bytes.length) (hv : v.len ≤ s.bytes.length) :
    (vmspliceToIov s v).1 = .ok ∧ (vmspliceToIov s v).2.flt = [] := by
  unfold vmspliceToIov
  rw [if_neg (by simp [St.fault, hf])]
  have ht : s.tick.flt = [] := by show s.flt.tail = []; rw [hf]; rfl
  by_cases h1 : countCeil s.pend 0 [v] = 0 ∨ v.len = 0
  · rw [if_pos h1]; exact ⟨rfl, ht⟩
  rw [if_neg h1]
  have : v.len ≠ 0 := fun h => h1 (Or.inr h)
  rw [if_neg (by intro h; rw [h] at hv; simp only [List.length_nil] at hv; omega),
    if_neg (by rw [List.length_take]; omega)]
  exact ⟨rfl, ht⟩

theorem gather_sync_ok {data : Buf} {s0 : St} (max : Nat) : ∀ (rest fs : List Iov) (w : Wr) (s : St),
    Prog data s0 fs s → Apart (fs ++ rest) → total (fs ++ rest) ≤ data.length → s.flt = [] → s.active = true →
    w.iovs = fs → w.nwr = total fs → (fs ++ rest).length ≤ 50 → total (fs ++ rest) ≤ max →
    (wrGather false max 0 rest w s).1 = .ok ∧ (wrGather false max 0 rest w s).2.2.flt = [] := by
  intro rest
  induction rest with
  | nil => intro fs w s _ _ _ hf _ _ _ _ _; exact ⟨rfl, hf⟩
  | cons v rest ih =>
    intro fs w s hp ha hl hf hact hw hn h50 hmax
    rw [wrGather]
    unfold wrActor
    have ht : total (fs ++ v :: rest) = total fs + v.len + total rest := by
      rw [total_append, show total (v :: rest) = v.len + total rest by simp [total]]; omega
    have hc : wrCheck s max w v = .ok := by
      unfold wrCheck
      rw [List.length_append, List.length_cons] at h50
      rw [if_neg (by rw [hact]; decide), if_neg (by rw [hw]; omega), if_neg (by omega)]
    rw [hc]
    simp only [Bool.false_eq_true, if_false]
    have hbl : s.bytes.length = data.length - total fs := by rw [hp.bytes, List.length_drop]
    have hok := fill_ok (s := s) v hf hp.pend (by omega)
    have hpr := hp.fill ha hl hok.1
    have hac := (fill s v).active
    revert hok hpr hac
    generalize vmspliceToIov s v = q
    intro hok hpr hac
    obtain ⟨r, s'⟩ := q
    obtain ⟨h1, h2⟩ := hok
    replace h1 : r = .ok := h1
    subst h1
    have e : fs ++ v :: rest = (fs ++ [v]) ++ rest := by simp
    exact ih (fs ++ [v]) _ s' hpr (e ▸ ha) (e ▸ hl) h2 (by rw [show s'.active = s.active from hac]; exact hact)
      (by rw [hw]) (by rw [total_append, total_one, hn]) (e ▸ h50) (e ▸ hmax)

theorem wrCopy_ok {data : Buf} {s0 : St} : ∀ (rest fs : List Iov) (w : Wr) (s : St),
    Prog data s0 fs s → Apart (fs ++ rest) → total (fs ++ rest) ≤ data.length → s.flt = [] →
    (wrCopy rest w s).1 = .ok ∧ (wrCopy rest w s).2.2.flt = [] := by
  intro rest
  induction rest with
  | nil => intro fs w s _ _ _ hf; exact ⟨rfl, hf⟩
  | cons v rest ih =>
    intro fs w s hp ha hl hf
    rw [wrCopy]
    have ht : total (fs ++ v :: rest) = total fs + v.len + total rest := by
      rw [total_append, show total (v :: rest) = v.len + total rest by simp [total]]; omega
    have hbl : s.bytes.length = data.length - total fs := by rw [hp.bytes, List.length_drop]
    have hok := fill_ok (s := s) v hf hp.pend (by omega)
    have hpr := hp.fill ha hl hok.1
    revert hok hpr
    generalize vmspliceToIov s v = q
    intro hok hpr
    obtain ⟨r, s'⟩ := q
    obtain ⟨h1, h2⟩ := hok
    replace h1 : r = .ok := h1
    subst h1
    have e : fs ++ v :: rest = (fs ++ [v]) ++ rest := by simp
    exact ih (fs ++ [v]) _ s' hpr (e ▸ ha) (e ▸ hl) h2

/-- **A large write is answered**, if the file-system carries it out and the kernel's calls do not fail; the pipe is then empty. -/
theorem C61_write_answered (async : Bool) (u max : Nat) (sc : Script) (data : Buf) (s : St) (hb : s.bytes = data)
    (hp : s.pend = data.length) (hf : s.flt = []) (hact : s.active = true) (ha : Apart sc.pieces)
    (hl : total sc.pieces = data.length) (hmax : data.length ≤ max) (h50 : sc.pieces.length ≤ 50) (hr : sc.res = 0) :
    (doWrite async u max sc s).1 = .ok ∧ (doWrite async u max sc s).2.outq = s.outq ++ [writeReply u data.length] ∧
    Holds (doWrite async u max sc s).2.mem sc.pieces data ∧
    (doWrite async u max sc s).2.bytes = [] ∧ (doWrite async u max sc s).2.pend = 0 := by
  have hp0 : Prog s.bytes s [] s := ⟨rfl, rfl, rfl, by simp [total], by rw [hb, hp], by simp [total], by simp [Holds, total]⟩
  have hlb : total sc.pieces ≤ s.bytes.length := by rw [hb]; omega
  have hok : (wrFinish (wrGather async max sc.res sc.pieces ⟨[], 0, 0⟩ s)).1 = .ok ∧
      (wrFinish (wrGather async max sc.res sc.pieces ⟨[], 0, 0⟩ s)).2.2.flt = [] := by
    cases async with
    | false =>
      obtain ⟨g1, g2⟩ := gather_sync_ok max sc.pieces [] ⟨[], 0, 0⟩ s hp0 ha hlb hf hact rfl rfl h50
        (by rw [List.nil_append]; omega)
      obtain ⟨_, _, _, _, g5⟩ := gather_sync (data := s.bytes) (s0 := s) max sc.res sc.pieces [] ⟨[], 0, 0⟩ s hp0 ha hlb
        (fun _ _ => rfl) rfl rfl rfl
      rw [hr] at g5 ⊢
      unfold wrFinish
      rw [if_pos (Or.inl g1), g5, List.drop_length, wrCopy]
      simp only [if_pos g1]
      exact ⟨trivial, g2⟩
    | true =>
      obtain ⟨g1, g2, g3, g4, ⟨k, g5⟩, g6⟩ := gather_async max sc.res sc.pieces ⟨[], 0, 0⟩ s
      have hg : (wrGather true max sc.res sc.pieces ⟨[], 0, 0⟩ s).1 = .ok := by
        have : ∀ (l acc : List Iov), acc.length + l.length ≤ 50 → total l ≤ max →
            (wrGather true max sc.res l ⟨acc, 0, 0⟩ s).1 = .ok := by
          intro l
          induction l with
          | nil => intro acc _ _; simp [wrGather, hr]
          | cons v l ih =>
            intro acc h1 h2
            have ht : total (v :: l) = v.len + total l := by simp [total]
            simp only [List.length_cons] at h1
            rw [wrGather]
            unfold wrActor
            have hc : wrCheck s max ⟨acc, 0, 0⟩ v = .ok := by
              unfold wrCheck
              rw [if_neg (by rw [hact]; decide), if_neg (by show ¬ ¬ acc.length < 50; omega), if_neg (by show ¬ 0 + v.len > max; omega)]
            rw [hc]
            simp only [if_true]
            exact ih (acc ++ [v]) (by simp only [List.length_append, List.length_cons, List.length_nil]; omega) (by omega)
        exact this sc.pieces [] (by simpa using h50) (by omega)
      obtain ⟨_, g7⟩ := g6 hg
      have hc := wrCopy_ok (data := s.bytes) (s0 := s) sc.pieces [] (wrGather true max sc.res sc.pieces ⟨[], 0, 0⟩ s).2.1 s hp0 ha hlb hf
      unfold wrFinish
      rw [if_pos (Or.inl hg), g1, g3, g7]
      simp only [if_pos hg, List.drop_zero, List.nil_append]
      exact hc
  obtain ⟨f1, f2, f3, f4⟩ := finish_spec (s := s) async max sc (by rw [hb, hp]) ha hlb
  unfold doWrite
  revert f1 f2 f3 f4 hok
  generalize wrFinish _ = q
  intro hok f1 f2 f3 f4
  obtain ⟨r, w, s'⟩ := q
  obtain ⟨o1, o2⟩ := hok
  replace o1 : r = .ok := o1
  subst o1
  obtain ⟨_, g2, g3⟩ := f4 rfl
  have e1 : w.nwr = data.length := by rw [← hl]; exact g3
  have hsend : sendMsg s' (writeReply u w.nwr) = (.ok, { s'.tick with outq := s'.outq ++ [writeReply u w.nwr] }) := by
    unfold sendMsg
    rw [if_neg (by simp [St.fault, show s'.flt = [] from o2])]
  simp only [hsend]
  have hbb : s'.bytes = [] := by
    rw [g2.bytes, hb]
    exact List.drop_eq_nil_of_le (by omega)
  refine ⟨trivial, ?_, ?_, hbb, ?_⟩
  · show s'.outq ++ [writeReply u w.nwr] = _
    rw [show s'.outq = s.outq from f1, e1]
  · show Holds s'.mem _ _
    have := g2.holds
    rw [hl, hb, List.take_length] at this
    exact this
  · show s'.pend = 0
    rw [g2.pend, hbb]; rfl

/-- **A large read is answered**, if its reply has room in the pipe.

Not so in full: the room is counted in pages that the file's pieces touch, and what the daemon tells the kernel about the longest read
is counted in bytes (`C61_read_unanswered_violated`). -/
theorem C61_read_answered_partial (u len : Nat) (sc : Script) (s : St) (h : Idle s) (hr : sc.res = 0)
    (h50 : sc.pieces.length ≤ 50) (hlen : total sc.pieces ≤ len) (hsz : 16 + total sc.pieces ≤ s.size)
    (hcap : slotsNeeded sc.pieces ≤ s.cap) (hlt : s.size < 4294967296) :
    (doRead u len sc s).1 = .ok ∧
    (∃ d, d.length = total sc.pieces ∧ Holds s.mem sc.pieces d ∧
      (doRead u len sc s).2.outq = s.outq ++ [Fuse.replyOk u d]) ∧
    (doRead u len sc s).2.bytes = [] ∧ (doRead u len sc s).2.pend = 0 := by
  obtain ⟨a, b, c⟩ := doRead_full u len sc s h hr h50 hlen hsz hcap hlt
  exact ⟨a, ⟨_, loads_length _ _, holds_load _ _, b⟩, c⟩

/-! ### How many pieces there are -/

/-- Number of the leaf at a position. -/
def leafNo (head : Bool) (off : Nat) : Nat :=
  if head = true ∧ off < 4096 then off / 1024 else if head = true ∧ off < 65536 then 3 + off / 4096 else 18 + off / 65536

theorem pieceLen_next (head : Bool) (off e : Nat) (h : off < e) :
    0 < pieceLen head off e ∧ off + pieceLen head off e ≤ e ∧
    (off + pieceLen head off e = e ∨ leafNo head (off + pieceLen head off e) = leafNo head off + 1) ∧
    leafNo head off ≤ leafNo head (e - 1) := by
  unfold pieceLen leafLen leafNo
  cases head
  · simp only [Bool.false_and, Bool.false_eq_true, if_false, false_and]
    split <;> omega
  · simp only [Bool.true_and, decide_eq_true_eq, true_and]
    repeat' split
    all_goals omega

theorem pieceLens_spec (head : Bool) : ∀ (n off e : Nat), e - off ≤ n →
    (pieceLens head n off e).sum = e - off ∧ (∀ x ∈ pieceLens head n off e, 0 < x) ∧
    (off < e → (pieceLens head n off e).length ≤ leafNo head (e - 1) - leafNo head off + 1) := by
  intro n
  induction n with
  | zero => intro off e h; simp [pieceLens]; omega
  | succ n ih =>
    intro off e h
    rw [pieceLens]
    by_cases hlt : off < e
    · rw [if_pos hlt]
      obtain ⟨p1, p2, p3, p4⟩ := pieceLen_next head off e hlt
      obtain ⟨i1, i2, i3⟩ := ih (off + pieceLen head off e) e (by omega)
      refine ⟨?_, ?_, fun _ => ?_⟩
      · rw [List.sum_cons, i1]; omega
      · intro x hx
        rcases List.mem_cons.mp hx with rfl | hx
        · exact p1
        · exact i2 x hx
      · rw [List.length_cons]
        rcases p3 with p3 | p3
        · have : pieceLens head n (off + pieceLen head off e) e = [] := by
            rw [p3]
            cases n
            · rfl
            · rw [pieceLens, if_neg (by omega)]
          rw [this]; simp
        · by_cases he : off + pieceLen head off e < e
          · have := i3 he
            have := (pieceLen_next head _ e he).2.2.2
            omega
          · have hz : off + pieceLen head off e = e := by omega
            have : pieceLens head n (off + pieceLen head off e) e = [] := by
              rw [hz]
              cases n
              · rfl
              · rw [pieceLens, if_neg (by omega)]
            rw [this]; simp
    · rw [if_neg hlt]
      exact ⟨by simp; omega, by simp, fun h => absurd h hlt⟩

/-- **A request that the file-system takes never has too many pieces**: the limit of 50 is just enough. -/
theorem C61_pieces (head : Bool) (off len : Nat) (h : len ≤ File.ioSizeMax) :
    (pieceLens head len off (off + len)).sum = len ∧ (pieceLens head len off (off + len)).length ≤ 50 := by
  obtain ⟨a, _, c⟩ := pieceLens_spec head len off (off + len) (by omega)
  refine ⟨by rw [a]; omega, ?_⟩
  unfold File.ioSizeMax at h
  by_cases hl : len = 0
  · subst hl
    simp [pieceLens]
  · have := c (by omega)
    refine Nat.le_trans this ?_
    unfold leafNo
    cases head
    · simp only [Bool.false_eq_true, false_and, if_false]
      omega
    · simp only [true_and]
      repeat' split
      all_goals omega

/-- It is reached. -/
theorem C61_pieces_tight : (pieceLens true 60 1 (1 + File.ioSizeMax)).length = 50 := by decide +kernel

/-- **The longest write that the kernel is told of fits into the thread's buffer**, with its header. -/
theorem C61_max_write (bufsize mw : Nat) (h : maxWrite bufsize = some mw) : mw + 80 ≤ bufsize ∧ 8192 ≤ mw ∧ mw % 4096 = 0 := by
  unfold maxWrite at h
  split at h
  · cases h
  split at h
  · cases h
  · have := Option.some.inj h
    omega

/-! ### Where it goes wrong -/

theorem pages_ge (v : Iov) : v.len ≤ 4096 * pages v := by
  unfold pages
  split <;> omega

/-- With the limit that Linux has by default for pipes of users, the daemon tells the kernel that reads may have 255 pages. -/
theorem C61_default_limits : bufSize true (some 1048576) = some 1048576 ∧ maxWrite 1048576 = some 1044480 := by decide +kernel

/-- Slots for the pieces of a range, wherever they are in memory. -/
theorem slots_ge : ∀ (l : List Iov), ((l.map Iov.len).map fun n => (n + 4095) / 4096).sum ≤ (l.map pages).sum := by
  intro l
  induction l with
  | nil => exact Nat.le_refl _
  | cons v l ih =>
    simp only [List.map_cons, List.sum_cons]
    have := pages_ge v
    omega

/-- **A read of the longest length allowed gets no answer, and ends the thread.**  For every file that keeps its beginning in
small leaves: a read of 255 pages from its beginning, all of them present, wherever the leaves are in memory, needs at least 259 slots
of the 256 that the pipe has.  The rest is dropped unnoticed, the device refuses the reply, and nothing is sent instead. -/
theorem C61_read_unanswered_violated (u : Nat) (sc : Script) (s : St) (h : Idle s) (hcap : s.cap = 256) (hsz : s.size = 1048576)
    (hr : sc.res = 0) (hp : sc.pieces.map Iov.len = pieceLens true 60 0 1044480) :
    (doRead u 1044480 sc s).1 = .err 22 ∧ (doRead u 1044480 sc s).2.outq = s.outq := by
  have hl : sc.pieces.length = 34 := by
    rw [← List.length_map (f := Iov.len), hp]; decide +kernel
  have ht : total sc.pieces = 1044480 := by unfold total; rw [hp]; decide +kernel
  have hs := slots_ge sc.pieces
  rw [hp] at hs
  have e : ((pieceLens true 60 0 1044480).map fun n => (n + 4095) / 4096).sum = 258 := by decide +kernel
  exact doRead_short u 1044480 sc s h hr (by omega) (by omega) (by omega) (by omega)
    (by unfold slotsNeeded; omega) (by omega) (by omega)

/-- The same from the message on: one whole round of a thread. -/
theorem C61_read_ends_thread_violated (fq : Fuse.Fq) (async : Bool) (fs : Fs) (old : Buf) (s : St) (hd : KHdr) (fh : UInt64)
    (m : List Buf) (q : List (List Buf)) (h : Idle s) (hsp : fq.splice = true) (hbs : fq.buffsize = 1048576)
    (hmr : fq.maxRead = 1044480) (hcap : s.cap = 256) (hsz : s.size = 1048576) (hq : s.inq = m :: q)
    (hm : m.flatten = wire true hd (.read fh 0 1044480 0 0 0)) (hml : m.length ≤ 256) (hne : NoEmpty m) (hr : fs.script.res = 0)
    (hp : fs.script.pieces.map Iov.len = pieceLens true 60 0 1044480) :
    (round fq async fs old s).1 = false ∧ (round fq async fs old s).2.outq = s.outq := by
  have hi : Inv s := C61_start s h.segs
  have hlen : (wire true hd (.read fh 0 1044480 0 0 0)).length = 80 := by
    rw [Fuse.wire_length]
    simp only [KReq.body, List.length_append, Fuse.le64, Fuse.le32, leBytes_length]
  have hfine : (KReq.read fh 0 1044480 0 0 0).Fine fq.maxRead fq.maxWrite := by
    show UInt32.toNat 1044480 ≤ fq.maxRead
    rw [hmr]; decide
  obtain ⟨i, r1, r2, r3, r4, r5, r6, r7, r8⟩ := received_pipe fq hd (.read fh 0 1044480 0 0 0) old hsp hfine (by rw [hlen, hbs]; omega)
    (by rw [hbs]; omega)
  have hd0 : dispose s = (.ok, s) := by unfold dispose; rw [if_pos h.pend]
  obtain ⟨f1, f2, f3, f4⟩ := recvIn_full fq old s m q h (by omega) hq ⟨by rw [hm, hlen, hsz, hbs]; omega, by rw [hcap]; exact hml⟩
  obtain ⟨k1, k2, k3, k4, k5, k6, k7, k8, k9⟩ := recvIn_refines fq old s hi
  rw [hm, r1] at f3
  replace f4 := f4 hne
  obtain ⟨m', q', e1, _, e3, e4⟩ := k8 f3
  rw [hq] at e1
  cases e1
  rw [hm, r1] at e4
  unfold round
  rw [hd0]
  simp only
  revert f1 f3 f4 k1 k2 k5 k6 e3 e4
  clear k3 k4 k7 k8 k9 f2
  generalize recvIn fq old s = q2
  intro f1 f3 k1 k2 k5 k6 f4 e3 e4
  obtain ⟨rr, s1, b⟩ := q2
  replace f3 : rr = .ok := f3
  subst f3
  have e5 : i = ⟨b, s1.bytes⟩ := Except.ok.inj e4
  subst e5
  have hl : Fuse.hasLargeRead b = true := by
    rw [show Fuse.hasLargeRead b = _ from r5]
    decide +kernel
  have hb1 : s1.bytes = [] := r8
  have hid : Idle s1 := ⟨nonempty_flatten f4 hb1, by rw [show s1.pend = _ from e3, hb1]; rfl, f1⟩
  obtain ⟨x1, x2⟩ := C61_read_unanswered_violated hd.unique.toNat fs.script s1 hid (by rw [show s1.cap = _ from k5]; exact hcap)
    (by rw [show s1.size = _ from k6]; exact hsz) hr hp
  have hex : execReq fq async fs b s1 = doRead hd.unique.toNat 1044480 fs.script s1 := by
    unfold execReq
    rw [if_neg (by rw [show Fuse.hasLargeWrite b = _ from r6]; decide), if_pos hl, show Fuse.hUnique b = _ from r2,
      show Fuse.rd 4 56 b = _ from r7, hmr]
    rfl
  have hop : Fuse.hOpcode b = 15 := r3
  unfold execGo
  simp only
  rw [if_neg (by
    rintro (hc | hc)
    · exact r4 hc
    · rw [hop] at hc; cases hc), hex]
  revert x1 x2
  generalize doRead hd.unique.toNat 1044480 fs.script s1 = q3
  intro x1 x2
  obtain ⟨r', s2⟩ := q3
  replace x1 : r' = .err 22 := x1
  subst x1
  exact ⟨by show decide (22 = 2 ∨ 22 = 110) = false; decide, x2.trans k1⟩

/-- **A reader that gives up ends a thread.**  If the reply to a large read is not wanted any more (ENOENT), the bytes are gone from the
pipe but still counted: the next round of the thread finds nothing to throw away, takes that for an error, and is the last,
whatever is waiting. -/
theorem C61_stuck_violated (fq : Fuse.Fq) (async : Bool) (fs : Fs) (old : Buf) (s : St) (hp : s.pend ≠ 0) (hb : s.bytes = [])
    (hf : s.flt = []) : round fq async fs old s = (false, s) := by
  unfold round dispose
  rw [if_neg hp, if_neg (by simp [St.fault, hf]), if_pos hb, tick_eq hf]
  rfl

/-- The state that such a reader leaves. -/
theorem C61_stuck_reached_violated (u len : Nat) (sc : Script) (s : St) (h : Idle s) (hr : sc.res = 0)
    (h1 : 1 < sc.pieces.length) (h50 : sc.pieces.length ≤ 48) (hpos : 0 < total sc.pieces) (hlen : total sc.pieces ≤ len)
    (hsz : 16 + total sc.pieces ≤ s.size) (hcap : slotsNeeded sc.pieces ≤ s.cap) :
    (doRead u len sc { s with flt := [(0, false), (0, false), (2, true)] }).1 = .err 2 ∧
    (doRead u len sc { s with flt := [(0, false), (0, false), (2, true)] }).2.outq = s.outq ∧
    (doRead u len sc { s with flt := [(0, false), (0, false), (2, true)] }).2.pend ≠ 0 ∧
    (doRead u len sc { s with flt := [(0, false), (0, false), (2, true)] }).2.bytes = [] ∧
    (doRead u len sc { s with flt := [(0, false), (0, false), (2, true)] }).2.flt = [] := by
  have hg : ∀ (l acc : List Iov) (nrd : Nat), acc.length + l.length ≤ 50 → nrd + total l ≤ len →
      rdGather len sc.res l acc nrd = (.ok, acc ++ l, nrd + total l) := by
    intro l
    induction l with
    | nil => intro acc nrd _ _; simp [rdGather, hr, total]
    | cons v l ih =>
      intro acc nrd h1 h2
      have ht : total (v :: l) = v.len + total l := by simp [total]
      simp only [List.length_cons] at h1
      rw [rdGather, if_neg (by omega), if_neg (by omega), ih _ _ (by simp only [List.length_append, List.length_cons, List.length_nil]; omega) (by omega), ht,
        List.append_assoc, Nat.add_assoc]
      rfl
  unfold doRead
  rw [hg sc.pieces [] 0 (by simp only [List.length_nil]; omega) (by omega), List.nil_append, Nat.zero_add]
  simp only
  rw [if_neg (by omega)]
  unfold replyIov appendFromBuf
  unfold slotsNeeded at hcap
  have hdl : (Fuse.outHdr (16 + total sc.pieces) 0 u).length = 16 := outHdr_length _ _ _
  rw [if_neg (by simp [St.fault]), if_neg (by show ¬ s.cap ≤ s.segs.length; rw [h.segs, List.length_nil]; omega)]
  simp only [St.tick, List.tail_cons, h.segs, h.pend, List.nil_append, Nat.zero_add, hdl]
  obtain ⟨n, hn⟩ : ∃ n, sc.pieces.length = n + 1 := ⟨sc.pieces.length - 1, by omega⟩
  have hsl : ((sc.pieces.map (slotsOf s.mem)).flatten).length = (sc.pieces.map pages).sum := slots_length _ _
  have hne : (sc.pieces.map (slotsOf s.mem)).flatten ≠ [] := by
    intro hc
    have := congrArg List.flatten hc
    rw [slots_flatten] at this
    have := congrArg List.length this
    rw [loads_length] at this
    have hz : total sc.pieces = 0 := this
    omega
  have hend : ∀ (s' : St), appendData n [] s' = (.ok, s') := by
    intro s'
    cases n with
    | zero => rfl
    | succ n => rw [appendData, if_pos rfl]
  rw [hn, appendData, if_neg (by intro hc; rw [hc] at h1; simp at h1), List.take_of_length_le h50,
    List.drop_eq_nil_of_le h50]
  unfold vmspliceFromIov vmGot
  rw [if_neg (by simp [St.fault])]
  simp only
  rw [countCeil_all s.mem _ sc.pieces 0 (by show 0 + total sc.pieces ≤ s.size - 16; omega), if_neg hne,
    if_neg (by
      simp only [List.length_cons, List.length_nil]
      have : ((sc.pieces.map (slotsOf s.mem)).flatten).length ≠ 0 := fun h => hne (List.length_eq_zero_iff.mp h)
      omega)]
  simp only [hend, St.tick, List.tail_cons]
  unfold flushToDev
  simp only [St.fault, List.headD_cons]
  rw [if_neg (by omega), if_pos (by decide)]
  refine ⟨rfl, rfl, ?_, ?_, rfl⟩
  · show 16 + _ ≠ 0
    omega
  · show (dropB _ _).flatten = []
    rw [dropB_flatten]
    apply List.drop_eq_nil_of_le
    simp only [List.flatten_append, List.length_append, List.flatten_cons, List.flatten_nil, List.append_nil, hdl]
    omega

/-- **With a pipe of 2M the kernel is told of writes that the file-system refuses**, wherever they go. -/
theorem C61_max_write_violated : bufSize true (some 2097152) = some 2097152 ∧ maxWrite 2097152 = some 2093056 ∧
    ∀ off size : Int, File.Off64 off → File.checkFileIo (File.rwReq .write off 2093056 size) ≠ none := by
  refine ⟨by decide +kernel, by decide +kernel, ?_⟩
  intro off size ho hc
  have := (File.C07_write ho (by decide)).mp hc
  unfold File.ioSizeMax at this
  omega

/-! ### Such requests exist -/

/-- A write of 8192 bytes at 64K into two pieces, and a read of them. -/
def exHdr : KHdr := ⟨7, 1, 0, 0, 1⟩
def exData : Buf := (List.range 8192).map (· % 251)
def exWrite : KReq := .write 1 65536 exData 0 0 0
def exFq : Fuse.Fq := ⟨true, false, 0, 39, 1048576, 1044480, 1044480, true⟩
def exFs : Fs := ⟨⟨[⟨4096, 4096⟩, ⟨16384, 4096⟩], 0⟩, []⟩
def exSt : St :=
  { segs := [], cap := 256, size := 1048576, pend := 0, mem := fun _ => 0,
    inq := [[wire true exHdr exWrite], [wire true exHdr (.read 1 65536 8192 0 0 0)]], outq := [], flt := [], active := true }

example : Idle exSt ∧ Inv exSt ∧ Apart exFs.script.pieces ∧ total exFs.script.pieces = exData.length := by
  refine ⟨⟨rfl, rfl, rfl⟩, Nat.zero_le _, ?_, by decide +kernel⟩
  unfold Apart
  simp only [exFs, List.pairwise_cons, List.mem_cons, List.not_mem_nil, or_false, forall_eq, false_implies, implies_true,
    and_true, List.Pairwise.nil]
  intro a _ _
  omega

example : ∀ m ∈ exSt.inq, Obeys exFq m := by
  intro m hm
  simp only [exSt, List.mem_cons, List.not_mem_nil, or_false] at hm
  rcases hm with rfl | rfl
  · refine ⟨exHdr, exWrite, by simp, ?_, ?_⟩
    · show exData.length ≤ 1044480
      simp [exData]
    · rw [Fuse.wire_length]
      show 40 + _ ≤ 1048576
      simp [exWrite, KReq.body, Fuse.le64, Fuse.le32, leBytes_length, exData]
  · refine ⟨exHdr, .read 1 65536 8192 0 0 0, by simp, ?_, ?_⟩
    · show UInt32.toNat 8192 ≤ 1044480
      decide
    · rw [Fuse.wire_length]
      show 40 + _ ≤ 1048576
      simp [KReq.body, Fuse.le64, Fuse.le32, leBytes_length]

end Silofs.Pp
