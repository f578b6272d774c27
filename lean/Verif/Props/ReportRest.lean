import Verif.Props.ReportShow
/-
C65, continued: attributes (statx), what else an answer carries, statfs, mount flags, tuning.
-/
set_option linter.unusedSimpArgs false
namespace Silofs.Rep
open Silofs Silofs.Addr Silofs.Space

/-! ### statx -/

theorem want_bit (w k : Nat) : want w k (2 ^ k) = w / 2 ^ k % 2 * 2 ^ k := by
  unfold want
  rw [Nat.testBit_eq_decide_div_mod_eq]
  by_cases h : w / 2 ^ k % 2 = 1
  · rw [if_pos (by simpa using h), h, Nat.one_mul]
  · rw [if_neg (by simpa using h), show w / 2 ^ k % 2 = 0 by omega, Nat.zero_mul]

/-- The answer to statx says which attributes it carries: those asked for, of the twelve there are. -/
theorem C65_statx_mask (i : Ino) (w : Nat) : (statxOf i w).mask = w % 4096 := by
  unfold statxOf
  by_cases h : w = 0
  · subst h; rfl
  · rw [if_neg h]
    simp only [List.range, List.range.loop, List.map_cons, List.map_nil, List.sum_cons, List.sum_nil, want_bit]
    simp only [Nat.reducePow]
    omega

/-- Every attribute answered is the one stat reports (birth time apart, which stat has not). -/
theorem C65_statx_values (i : Ino) (w : Nat) :
    (w.testBit 2 → (statxOf i w).nlink = (statOf i).nlink) ∧
    (w.testBit 3 → (statxOf i w).uid = (statOf i).uid) ∧
    (w.testBit 4 → (statxOf i w).gid = (statOf i).gid) ∧
    (w.testBit 5 → (statxOf i w).atime = (statOf i).atime) ∧
    (w.testBit 6 → (statxOf i w).mtime = (statOf i).mtime) ∧
    (w.testBit 7 → (statxOf i w).ctime = (statOf i).ctime) ∧
    (w.testBit 8 → (statxOf i w).ino = (statOf i).ino) ∧
    (w.testBit 9 → (statxOf i w).size = (statOf i).size) ∧
    (w.testBit 10 → (statxOf i w).blocks = (statOf i).blocks) ∧
    (w.testBit 11 → (statxOf i w).btime = i.btime) ∧
    (w.testBit 0 → (statxOf i w).mode / 4096 = (statOf i).mode / 4096) ∧
    (w.testBit 1 → (statxOf i w).mode % 4096 = (statOf i).mode % 4096) := by
  by_cases h : w = 0
  · subst h; simp
  · unfold statxOf statOf
    rw [if_neg h]
    simp only [want, wantTs]
    refine ⟨?_, ?_, ?_, ?_, ?_, ?_, ?_, ?_, ?_, ?_, ?_, ?_⟩
    all_goals (intro hb; simp only [if_pos hb])
    · split <;> omega
    · split <;> omega

/-- Attributes not asked for are not told. -/
theorem C65_statx_untold (i : Ino) (w : Nat) :
    (¬ w.testBit 2 → (statxOf i w).nlink = 0) ∧ (¬ w.testBit 3 → (statxOf i w).uid = 0) ∧
    (¬ w.testBit 4 → (statxOf i w).gid = 0) ∧ (¬ w.testBit 8 → (statxOf i w).ino = 0) ∧
    (¬ w.testBit 9 → (statxOf i w).size = 0) ∧ (¬ w.testBit 10 → (statxOf i w).blocks = 0) ∧
    (¬ w.testBit 0 → (statxOf i w).mode / 4096 = 0) ∧ (¬ w.testBit 1 → (statxOf i w).mode % 4096 = 0) := by
  by_cases h : w = 0
  · subst h; simp [statxOf, Statx.zero]
  · unfold statxOf
    rw [if_neg h]
    simp only [want, wantTs]
    refine ⟨?_, ?_, ?_, ?_, ?_, ?_, ?_, ?_⟩
    all_goals (intro hb; simp only [if_neg hb])
    · split <;> omega
    · split <;> omega

/-- Space of a file in units of 512 bytes, as stat(2) has it, is twice the number of 1K units. -/
theorem C65_blocks (i : Ino) : (statOf i).blocks = 2 * i.kbs := by
  unfold statOf statBlocks; simp only; omega

/-- What the kernel reads at the places of struct fuse_statx. -/
def kTs (b : List Nat) (o : Nat) : Ts := ⟨toI64 (leVal (get b o 8)), leVal (get b (o + 8) 4)⟩

def kStatx (b : List Nat) (o : Nat) : Statx :=
  { mask := leVal (get b o 4), blksize := leVal (get b (o + 4) 4), attributes := leVal (get b (o + 8) 8)
    nlink := leVal (get b (o + 16) 4), uid := leVal (get b (o + 20) 4), gid := leVal (get b (o + 24) 4)
    mode := leVal (get b (o + 28) 2), ino := leVal (get b (o + 32) 8), size := leVal (get b (o + 40) 8)
    blocks := leVal (get b (o + 48) 8), attributesMask := leVal (get b (o + 56) 8)
    atime := kTs b (o + 64), btime := kTs b (o + 80), ctime := kTs b (o + 96), mtime := kTs b (o + 112)
    rdevMajor := leVal (get b (o + 128) 4), rdevMinor := leVal (get b (o + 132) 4) }

structure StatxOk (x : Statx) : Prop where
  n32 : x.mask < 4294967296 ∧ x.blksize < 4294967296 ∧ x.nlink < 4294967296 ∧ x.uid < 4294967296 ∧
    x.gid < 4294967296 ∧ x.rdevMajor < 4294967296 ∧ x.rdevMinor < 4294967296
  mode : x.mode < 65536
  n64 : x.attributes < 18446744073709551616 ∧ x.ino < 18446744073709551616 ∧ x.size < 18446744073709551616 ∧
    x.blocks < 18446744073709551616 ∧ x.attributesMask < 18446744073709551616
  times : IsI64 x.atime.sec ∧ IsI64 x.btime.sec ∧ IsI64 x.ctime.sec ∧ IsI64 x.mtime.sec
  nsecs : x.atime.nsec < 4294967296 ∧ x.btime.nsec < 4294967296 ∧ x.ctime.nsec < 4294967296 ∧
    x.mtime.nsec < 4294967296

theorem get_get (b : List Nat) (o n k m : Nat) (h : k + m ≤ n) :
    get (get b o n) k m = get b (o + k) m := by
  apply List.ext_getElem?
  intro j
  rw [get_get?, get_get?, get_get?]
  by_cases hj : j < m
  · rw [if_pos hj, if_pos (by omega), if_pos hj]; congr 1; omega
  · rw [if_neg hj, if_neg hj]

theorem kTs_of {l : List (Nat × List Nat)} {b : List Nat} (ha : apart b.length (spans l) = true) {o : Nat}
    {t : Ts} (hm : (o, tsBytes t) ∈ l) (h1 : IsI64 t.sec) (h2 : t.nsec < 4294967296) :
    kTs (puts b l) o = t := by
  have h := get_puts l b ha o _ hm
  rw [tsBytes_length] at h
  unfold kTs
  have e1 : get (puts b l) o 8 = leBytes 8 (toU64 t.sec) := by
    rw [show get (puts b l) o 8 = get (get (puts b l) o 16) 0 8 from (get_get _ o 16 0 8 (by decide)).symm, h]
    unfold tsBytes get
    rw [List.drop_zero, List.append_assoc, List.take_left' (leBytes_length _ _)]
  have e2 : get (puts b l) (o + 8) 4 = leBytes 4 t.nsec := by
    rw [← get_get (puts b l) o 16 8 4 (by decide), h]
    unfold tsBytes get
    rw [List.append_assoc, List.drop_left' (leBytes_length _ _), List.take_left' (leBytes_length _ _)]
  rw [e1, e2, leVal_leBytes, leVal_leBytes, Nat.mod_eq_of_lt (show toU64 t.sec < 256 ^ 8 from toU64_lt _),
    Nat.mod_eq_of_lt (show t.nsec < 256 ^ 4 from h2), toI64_toU64 _ h1]

theorem kStatx_of {l : List (Nat × List Nat)} {b : List Nat} (ha : apart b.length (spans l) = true) {o : Nat}
    {x : Statx} (hm : ∀ f, f ∈ stxFields o x → f ∈ l) (hx : StatxOk x) : kStatx (puts b l) o = x := by
  obtain ⟨a1, a2, a3, a4, a5, a6, a7⟩ := hx.n32
  obtain ⟨b1, b2, b3, b4, b5⟩ := hx.n64
  obtain ⟨c1, c2, c3, c4⟩ := hx.times
  obtain ⟨d1, d2, d3, d4⟩ := hx.nsecs
  unfold kStatx
  have f1 := num_of ha (o := o) (n := 4) (v := x.mask) (hm _ (by simp [stxFields])) a1
  have f2 := num_of ha (o := o + 4) (n := 4) (v := x.blksize) (hm _ (by simp [stxFields])) a2
  have f3 := num_of ha (o := o + 8) (n := 8) (v := x.attributes) (hm _ (by simp [stxFields])) b1
  have f4 := num_of ha (o := o + 16) (n := 4) (v := x.nlink) (hm _ (by simp [stxFields])) a3
  have f5 := num_of ha (o := o + 20) (n := 4) (v := x.uid) (hm _ (by simp [stxFields])) a4
  have f6 := num_of ha (o := o + 24) (n := 4) (v := x.gid) (hm _ (by simp [stxFields])) a5
  have f7 := num_of ha (o := o + 28) (n := 2) (v := x.mode) (hm _ (by simp [stxFields])) hx.mode
  have f8 := num_of ha (o := o + 32) (n := 8) (v := x.ino) (hm _ (by simp [stxFields])) b2
  have f9 := num_of ha (o := o + 40) (n := 8) (v := x.size) (hm _ (by simp [stxFields])) b3
  have f10 := num_of ha (o := o + 48) (n := 8) (v := x.blocks) (hm _ (by simp [stxFields])) b4
  have f11 := num_of ha (o := o + 56) (n := 8) (v := x.attributesMask) (hm _ (by simp [stxFields])) b5
  have f12 := num_of ha (o := o + 128) (n := 4) (v := x.rdevMajor) (hm _ (by simp [stxFields])) a6
  have f13 := num_of ha (o := o + 132) (n := 4) (v := x.rdevMinor) (hm _ (by simp [stxFields])) a7
  have t1 := kTs_of ha (o := o + 64) (t := x.atime) (hm _ (by simp [stxFields])) c1 d1
  have t2 := kTs_of ha (o := o + 80) (t := x.btime) (hm _ (by simp [stxFields])) c2 d2
  have t3 := kTs_of ha (o := o + 96) (t := x.ctime) (hm _ (by simp [stxFields])) c3 d3
  have t4 := kTs_of ha (o := o + 112) (t := x.mtime) (hm _ (by simp [stxFields])) c4 d4
  rw [f1, f2, f3, f4, f5, f6, f7, f8, f9, f10, f11, f12, f13, t1, t2, t3, t4]

theorem want_lt (w k v n : Nat) (h : v < n) : want w k v < n := by
  unfold want; split <;> omega

theorem statx_ok (i : Ino) (hi : InoOk i) (w : Nat) : StatxOk (statxOf i w) := by
  have hm := C65_statx_mask i w
  obtain ⟨s1, s2, s3⟩ := hi.small
  obtain ⟨w1, w2, w3, w4⟩ := hi.w32
  obtain ⟨r1, r2⟩ := hi.rdev
  obtain ⟨t1, t2, t3, t4⟩ := hi.times
  obtain ⟨n1, n2, n3, n4⟩ := hi.nsecs
  have hbs : statBlksize i < 4294967296 := by unfold statBlksize; split <;> omega
  have hbl : statBlocks i < 18446744073709551616 := by unfold statBlocks; omega
  have hz : IsI64 Ts.zero.sec := by unfold IsI64 Ts.zero; simp
  have hz' : Ts.zero.nsec < 4294967296 := by decide
  have hi64 : ∀ k (t : Ts), IsI64 t.sec → IsI64 (wantTs w k t).sec := by
    intro k t ht; unfold wantTs; split <;> assumption
  have hns : ∀ k (t : Ts), t.nsec < 1000000000 → (wantTs w k t).nsec < 4294967296 := by
    intro k t ht; unfold wantTs; split
    · omega
    · exact hz'
  by_cases h : w = 0
  · subst h
    have e : statxOf i 0 = Statx.zero := rfl
    rw [e]
    exact ⟨by decide, by decide, by decide, ⟨hz, hz, hz, hz⟩, ⟨hz', hz', hz', hz'⟩⟩
  · refine ⟨⟨by omega, ?_⟩, ?_, ?_, ?_, ?_⟩
    all_goals (unfold statxOf; rw [if_neg h]; simp only)
    · exact ⟨hbs, want_lt _ _ _ _ w2, want_lt _ _ _ _ w3, want_lt _ _ _ _ w4, r1, r2⟩
    · unfold want; split <;> split <;> omega
    · exact ⟨by decide, want_lt _ _ _ _ s1, want_lt _ _ _ _ s2, want_lt _ _ _ _ hbl, by decide⟩
    · exact ⟨hi64 _ _ t1, hi64 _ _ t2, hi64 _ _ t3, hi64 _ _ t4⟩
    · exact ⟨hns _ _ n1, hns _ _ n2, hns _ _ n3, hns _ _ n4⟩

/-- What the kernel reads from the answer to FUSE_STATX is exactly the statx of the file. -/
theorem C65_fuse_statx (i : Ino) (hi : InoOk i) (w : Nat) :
    (fuseStatxOut (statxOf i w)).length = 288 ∧ kStatx (fuseStatxOut (statxOf i w)) 32 = statxOf i w := by
  have ha : apart (zeros 288).length (spans ((0, leBytes 8 4294967295) :: stxFields 32 (statxOf i w))) = true := by
    have e : spans ((0, leBytes 8 4294967295) :: stxFields 32 (statxOf i w)) =
        (0, 8) :: spans (stxFields 32 (statxOf i w)) := by
      simp only [spans, List.map_cons, leBytes_length]
    rw [e, stx_spans, zeros_length]
    decide
  unfold fuseStatxOut
  refine ⟨by rw [puts_length _ _ ha, zeros_length], ?_⟩
  exact kStatx_of ha (fun f hf => List.mem_cons_of_mem _ hf) (statx_ok i hi w)

/-- `silofs show statx` prints the attributes of the file that was asked about, those of stat(2), and
its flags. -/
theorem C65_show_statx (rs : List Req) (hrs : ∀ r ∈ rs, ReqOk r) (e : Env) (he : EnvOk e) (i : Ino)
    (hi : InoOk i) (rest : List Nat) :
    ∃ a, (serve (served rs) (.query e i none none (ask 6 rest))).1 = .bytes a ∧
      showStatx a = [(statOf i).blksize, (statOf i).nlink, (statOf i).uid, (statOf i).gid, (statOf i).mode,
        (statOf i).ino, (statOf i).size, (statOf i).blocks, i.iflags, if isDir i.mode then i.dirflags else 0] := by
  refine ⟨_, ask_ans rs hrs e he i 6 (by decide) (by decide) rest, ?_⟩
  rw [doQuery_statx]
  have hb := base_length _ (served_length rs hrs)
  have hz : get (put (served rs) 64 (zeros 1984)) 324 4 = [0, 0, 0, 0] := by
    have hl := served_length rs hrs
    have := get_get (put (served rs) 64 (zeros 1984)) 64 1984 260 4 (by decide)
    have h2 := get_put_same (served rs) 64 (zeros 1984) (by rw [zeros_length]; omega)
    rw [zeros_length] at h2
    rw [show 324 = 64 + 260 from rfl, ← this, h2]
    unfold get zeros
    rw [List.drop_replicate, List.take_replicate]
    rfl
  generalize put (served rs) 64 (zeros 1984) = b at hb hz
  unfold fillStatx
  simp only
  generalize hl : stxFields 64 (statxOf i 0xfff) ++ [(64 + 256, leBytes 4 i.iflags)] ++
      (if isDir i.mode then [(64 + 260, leBytes 4 i.dirflags)] else []) = l
  have ha : apart b.length (spans l) = true := by
    rw [hb, ← hl]
    have h : ∀ l : List (Nat × List Nat), spans (stxFields 64 (statxOf i 0xfff) ++
        [(64 + 256, leBytes 4 i.iflags)] ++ l) = spans (stxFields 64 (statxOf i 0xfff)) ++ [(320, 4)] ++ spans l := by
      intro l; simp only [spans, List.map_append, List.map_cons, List.map_nil, leBytes_length]
    rw [h, stx_spans]
    split
    · simp only [spans, List.map_cons, List.map_nil, leBytes_length]; decide
    · decide
  have hk := kStatx_of ha (o := 64) (x := statxOf i 0xfff)
    (fun f hf => by rw [← hl]; exact List.mem_append_left _ (List.mem_append_left _ hf)) (statx_ok i hi _)
  have hfl := num_of ha (o := 320) (n := 4) (v := i.iflags)
    (by rw [← hl]; exact List.mem_append_left _ (List.mem_append_right _ (by simp))) hi.flags.1
  have hdf : leVal (get (puts b l) 324 4) = if isDir i.mode then i.dirflags else 0 := by
    by_cases hd : isDir i.mode = true
    · rw [if_pos hd]
      exact num_of ha (by rw [← hl, if_pos hd]; exact List.mem_append_right _ (by simp)) hi.flags.2
    · rw [if_neg hd, get_puts_ne l b ha, hz]
      · rfl
      · rw [← hl, if_neg hd, List.append_nil]
        have h : spans (stxFields 64 (statxOf i 0xfff) ++ [(64 + 256, leBytes 4 i.iflags)]) =
            spans (stxFields 64 (statxOf i 0xfff)) ++ [(320, 4)] := by
          simp only [spans, List.map_append, List.map_cons, List.map_nil, leBytes_length]
        rw [h, stx_spans]
        decide
  have g := fun {α : Type} (f : Statx → α) => congrArg f hk
  have p1 : leVal (get (puts b l) 68 4) = (statxOf i 0xfff).blksize := g Statx.blksize
  have p2 : leVal (get (puts b l) 80 4) = (statxOf i 0xfff).nlink := g Statx.nlink
  have p3 : leVal (get (puts b l) 84 4) = (statxOf i 0xfff).uid := g Statx.uid
  have p4 : leVal (get (puts b l) 88 4) = (statxOf i 0xfff).gid := g Statx.gid
  have p5 : leVal (get (puts b l) 92 2) = (statxOf i 0xfff).mode := g Statx.mode
  have p6 : leVal (get (puts b l) 96 8) = (statxOf i 0xfff).ino := g Statx.ino
  have p7 : leVal (get (puts b l) 104 8) = (statxOf i 0xfff).size := g Statx.size
  have p8 : leVal (get (puts b l) 112 8) = (statxOf i 0xfff).blocks := g Statx.blocks
  obtain ⟨v1, v2, v3, _, _, _, v4, v5, v6, _, v7, v8⟩ := C65_statx_values i 0xfff
  have hmode : (statxOf i 0xfff).mode = (statOf i).mode := by
    have := v7 (by decide); have := v8 (by decide); omega
  have hbs : (statxOf i 0xfff).blksize = (statOf i).blksize := by
    unfold statxOf statOf; rw [if_neg (by decide)]
  unfold showStatx
  rw [p1, p2, p3, p4, p5, p6, p7, p8, hfl, hdf, hbs, hmode, v1 (by decide), v2 (by decide), v3 (by decide),
    v4 (by decide), v5 (by decide), v6 (by decide)]

/-! ### What else the answer carries -/

/-- Behind its first 64 bytes the answer to a query depends on nothing but the file-system and the file
asked about: not on what the thread served before. -/
theorem C65_answer_partial (rs rs' : List Req) (hrs : ∀ r ∈ rs, ReqOk r) (hrs' : ∀ r ∈ rs', ReqOk r)
    (e : Env) (he : EnvOk e) (i : Ino) (q : Nat) (h0 : 0 < q) (h7 : q < 7) (rest rest' : List Nat) :
    ∃ a a', (serve (served rs) (.query e i none none (ask q rest))).1 = .bytes a ∧
      (serve (served rs') (.query e i none none (ask q rest'))).1 = .bytes a' ∧ a.drop 64 = a'.drop 64 := by
  refine ⟨_, _, ask_ans rs hrs e he i q h7 h0 rest, ask_ans rs' hrs' e he i q h7 h0 rest', ?_⟩
  have l1 := served_length rs hrs
  have l2 := served_length rs' hrs'
  suffices hs : SameFrom 64 (doQuery e i none none q (served rs)).2 (doQuery e i none none q (served rs')).2 by
    apply List.ext_getElem?
    intro k
    rw [List.getElem?_drop, List.getElem?_drop]
    exact hs.2 _ (by omega)
  have hb := base_length _ l1
  have hb' := base_length _ l2
  have hbase : SameFrom 64 (put (served rs) 64 (zeros 1984)) (put (served rs') 64 (zeros 1984)) := by
    refine ⟨by rw [hb, hb'], fun j hj => ?_⟩
    rw [put_get? _ _ _ (by rw [zeros_length]; omega), put_get? _ _ _ (by rw [zeros_length]; omega), zeros_length]
    by_cases hk : j < 2048
    · rw [if_pos (by omega), if_pos (by omega)]
    · rw [if_neg (by omega), if_neg (by omega), List.getElem?_eq_none (by omega), List.getElem?_eq_none (by omega)]
  generalize hB : put (served rs) 64 (zeros 1984) = b at hb hbase
  generalize hB' : put (served rs') 64 (zeros 1984) = b' at hb' hbase
  have hstr : ∀ (c c' : List Nat) (off bsz : Nat) (s : List Nat), SameFrom 64 c c' → 0 < bsz → off + bsz ≤ c.length →
      SameFrom 64 (strToBuf c off bsz s) (strToBuf c' off bsz s) := by
    intro c c' off bsz s hc h1 h2
    refine ⟨by rw [strToBuf_length _ _ _ _ h1 h2, strToBuf_length _ _ _ _ h1 (by rw [← hc.1]; exact h2), hc.1],
      fun j hj => ?_⟩
    rw [strToBuf_get? _ _ _ _ h1 h2, strToBuf_get? _ _ _ _ h1 (by rw [← hc.1]; exact h2), hc.2 j hj]
  unfold doQuery
  simp only
  rw [hB, hB']
  by_cases q1 : q = 1
  · rw [if_pos q1, if_pos q1]
    unfold fillVersion
    generalize hl : [(64 + 512, leBytes 4 e.verMajor), (64 + 516, leBytes 4 e.verMinor),
      (64 + 520, leBytes 4 e.verSub)] = l
    have hin : (spans l).all (fun f => decide (f.1 + f.2 ≤ b.length)) = true := by
      rw [hb, ← hl]; simp only [spans, List.map_cons, List.map_nil, leBytes_length]; decide
    exact hstr _ _ _ _ _ (SameFrom.puts l hbase hin) (by decide) (by rw [puts_length' _ _ hin, hb]; decide)
  · rw [if_neg q1, if_neg q1]
    by_cases q2 : q = 2
    · rw [if_pos q2, if_pos q2]
      exact hstr _ _ _ _ _ hbase (by decide) (by rw [hb]; decide)
    · rw [if_neg q2, if_neg q2]
      by_cases q3 : q = 3
      · rw [if_pos q3, if_pos q3]
        unfold fillBoot
        refine SameFrom.puts _ (hstr _ _ _ _ _ hbase (by decide) (by rw [hb]; decide)) ?_
        rw [strToBuf_length _ _ _ _ (by decide) (by rw [hb]; decide), hb]
        have hn := toName_length e.bootAddr he.addr.1
        simp only [spans, List.map_cons, List.map_nil, List.length_append, List.length_singleton, he.uuids.1,
          he.uuids.2, List.all_cons, List.all_nil, Bool.and_eq_true, Bool.and_true, decide_eq_true_eq]
        omega
      · rw [if_neg q3, if_neg q3]
        by_cases q4 : q = 4
        · rw [if_pos q4, if_pos q4]
          unfold fillProc
          refine SameFrom.puts _ hbase ?_
          rw [hb]; simp only [spans, List.map_cons, List.map_nil, leBytes_length, zeros_length]; decide
        · rw [if_neg q4, if_neg q4]
          by_cases q5 : q = 5
          · rw [if_pos q5, if_pos q5]
            unfold fillSpstats
            refine SameFrom.puts _ hbase ?_
            rw [hb]
            have h : spans ((64, zeros 1024) :: statsFields 64 (collect e.curr e.base)) =
                [(64, 1024), (64, 8), (72, 8), (80, 8), (88, 8), (96, 8)] ++
                spans (gaugeFields 320 (collect e.curr e.base).lsegs) ++
                spans (gaugeFields 576 (collect e.curr e.base).bks) ++
                spans (gaugeFields 832 (collect e.curr e.base).objs) := by
              unfold statsFields
              simp only [spans, List.map_append, List.map_cons, List.map_nil, leBytes_length, zeros_length,
                List.cons_append, List.nil_append]
            rw [h, gauge_spans, gauge_spans, gauge_spans]
            decide
          · rw [if_neg q5, if_neg q5]
            have q6 : q = 6 := by omega
            rw [if_pos q6, if_pos q6]
            unfold fillStatx
            simp only
            refine SameFrom.puts _ hbase ?_
            rw [hb]
            have h : ∀ l : List (Nat × List Nat), spans (stxFields 64 (statxOf i 0xfff) ++
                [(64 + 256, leBytes 4 i.iflags)] ++ l) = spans (stxFields 64 (statxOf i 0xfff)) ++ [(320, 4)] ++ spans l := by
              intro l; simp only [spans, List.map_append, List.map_cons, List.map_nil, leBytes_length]
            rw [h, stx_spans]
            split
            · simp only [spans, List.map_cons, List.map_nil, leBytes_length]; decide
            · decide

theorem doQuery_head (e : Env) (he : EnvOk e) (i : Ino) (b : List Nat) (h : b.length = 2048) (o n : Nat)
    (ho : o + n ≤ 64) : get (doQuery e i none none 2 b).2 o n = get b o n := by
  show get (fillRepo e (put b 64 (zeros 1984))) o n = _
  have hb := base_length b h
  unfold fillRepo
  rw [← get_put_ne b 64 (zeros 1984) (by rw [zeros_length]; omega) o n (Or.inl ho)]
  apply List.ext_getElem?
  intro k
  rw [get_get?, get_get?]
  by_cases hk : k < n
  · rw [if_pos hk, if_pos hk, strToBuf_get? _ _ _ _ (by decide) (by omega), if_neg (by omega), if_neg (by omega)]
  · rw [if_neg hk, if_neg hk]

/-- C65 is false of the first 64 bytes: whoever may read some file and asks for the path of the repository
gets, with the answer, the inode number, link count, mode, owner, group and size of the file the
thread last reported on, whoever asked for that. -/
theorem C65_answer_violated (rs : List Req) (hrs : ∀ r ∈ rs, ReqOk r) (j : Ino) (hj : InoOk j) (e : Env)
    (he : EnvOk e) (i : Ino) (rest : List Nat) :
    ∃ a, (serve (served (rs ++ [.attr j])) (.query e i none none (ask 2 rest))).1 = .bytes a ∧
      leVal (get a 8 8) = j.ino ∧ leVal (get a 16 8) = j.nlink ∧ leVal (get a 24 4) = j.mode ∧
      leVal (get a 28 4) = j.uid ∧ leVal (get a 32 4) = j.gid ∧ leVal (get a 48 8) = j.size := by
  have hrs' : ∀ r ∈ rs ++ [Req.attr j], ReqOk r := by
    intro r hr
    rcases List.mem_append.mp hr with h | h
    · exact hrs r h
    · rw [List.mem_singleton] at h; subst h; trivial
  refine ⟨_, ask_ans _ hrs' e he i 2 (by decide) (by decide) rest, ?_⟩
  have hl := served_length _ hrs'
  have hsv : served (rs ++ [Req.attr j]) = puts (served rs) (statFields (statOf j)) := by
    unfold served; rw [List.foldl_append]; rfl
  have h := fun o n ho => doQuery_head e he i (served (rs ++ [Req.attr j])) hl o n ho
  have ha : apart (served rs).length (spans (statFields (statOf j))) = true := by
    rw [served_length rs hrs]
    simp only [spans, statFields, List.map_cons, List.map_nil, leBytes_length]
    decide
  obtain ⟨w1, w2, w3, w4⟩ := hj.w32
  rw [h 8 8 (by decide), h 16 8 (by decide), h 24 4 (by decide), h 28 4 (by decide), h 32 4 (by decide),
    h 48 8 (by decide), hsv]
  exact ⟨num_of ha (v := (statOf j).ino) (by simp [statFields]) hj.small.1,
    num_of ha (v := (statOf j).nlink) (by simp [statFields]) (show j.nlink < _ by omega),
    num_of ha (v := (statOf j).mode) (by simp [statFields]) (show j.mode < _ by omega),
    num_of ha (v := (statOf j).uid) (by simp [statFields]) w3,
    num_of ha (v := (statOf j).gid) (by simp [statFields]) w4,
    num_of ha (v := (statOf j).size) (by simp [statFields]) hj.small.2.1⟩

/-- Who may not read the file asked about is told nothing. -/
theorem C65_denied (out : List Nat) (e : Env) (i : Ino) (er : Nat) (perm : Option Nat) (r : Ioc) :
    ∃ er', (serve out (.query e i (some er) perm r)).1 = .err er' ∧
      (r.inSize = 2048 → r.outSize = 2048 → er' = er) := by
  show ∃ er', (iocQuery e i (some er) perm r out).1 = .err er' ∧ _
  unfold iocQuery doQuery
  by_cases h1 : 2048 < r.inSize
  · rw [if_pos h1]; exact ⟨_, rfl, by omega⟩
  · rw [if_neg h1]
    by_cases h2 : r.outSize = 0
    · rw [if_pos h2]; exact ⟨_, rfl, by omega⟩
    · rw [if_neg h2]
      by_cases h3 : r.outSize ≠ 2048
      · rw [if_pos h3]; exact ⟨_, rfl, fun _ h => (h3 h).elim⟩
      · rw [if_neg h3]
        by_cases h4 : r.inSize < 4
        · rw [if_pos h4]; exact ⟨_, rfl, by omega⟩
        · rw [if_neg h4]; exact ⟨er, rfl, fun _ _ => rfl⟩

end Silofs.Rep
