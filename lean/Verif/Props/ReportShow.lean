import Verif.Props.Report
/-
C65: what `silofs show` prints is what the mounted file-system has, whatever was served before; and
what else the answer carries.
-/
set_option linter.unusedSimpArgs false
namespace Silofs.Rep
open Silofs Silofs.Addr Silofs.Space

/-- Reading a number from a field of fields that are apart. -/
theorem num_of {l : List (Nat × List Nat)} {b : List Nat} (ha : apart b.length (spans l) = true) {o n v : Nat}
    (hm : (o, leBytes n v) ∈ l) (hv : v < 256 ^ n) : leVal (get (puts b l) o n) = v := by
  have h := get_puts l b ha o _ hm
  rw [leBytes_length] at h
  rw [h, leVal_leBytes, Nat.mod_eq_of_lt hv]

theorem puts_cons (b : List Nat) (f : Nat × List Nat) (l : List (Nat × List Nat)) :
    puts b (f :: l) = puts (put b f.1 f.2) l := rfl

theorem doQuery_proc (e : Env) (i : Ino) (b : List Nat) :
    (doQuery e i none none 4 b).2 = fillProc e (put b 64 (zeros 1984)) := by
  unfold doQuery
  simp only
  rw [if_neg (by decide), if_neg (by decide), if_neg (by decide), if_pos trivial]

theorem doQuery_spstats (e : Env) (i : Ino) (b : List Nat) :
    (doQuery e i none none 5 b).2 = fillSpstats e (put b 64 (zeros 1984)) := by
  unfold doQuery
  simp only
  rw [if_neg (by decide), if_neg (by decide), if_neg (by decide), if_neg (by decide), if_pos trivial]

theorem doQuery_statx (e : Env) (i : Ino) (b : List Nat) :
    (doQuery e i none none 6 b).2 = (fillStatx i none (put b 64 (zeros 1984))).2 := by
  unfold doQuery
  simp only
  rw [if_neg (by decide), if_neg (by decide), if_neg (by decide), if_neg (by decide), if_neg (by decide),
    if_pos trivial]

/-! ### Texts -/

/-- `silofs show version` prints the version of the running program. -/
theorem C65_version (rs : List Req) (hrs : ∀ r ∈ rs, ReqOk r) (e : Env) (he : EnvOk e) (i : Ino)
    (rest : List Nat) : ∃ a, (serve (served rs) (.query e i none none (ask 1 rest))).1 = .bytes a ∧
      showVersion a = e.verString ∧
      leVal (get a 576 4) = e.verMajor ∧ leVal (get a 580 4) = e.verMinor ∧ leVal (get a 584 4) = e.verSub := by
  refine ⟨_, ask_ans rs hrs e he i 1 (by decide) (by decide) rest, ?_⟩
  show showVersion (fillVersion e _) = _ ∧ leVal (get (fillVersion e _) _ _) = _ ∧
    leVal (get (fillVersion e _) _ _) = _ ∧ leVal (get (fillVersion e _) _ _) = _
  have hb := base_length _ (served_length rs hrs)
  generalize hbb : put (served rs) 64 (zeros 1984) = b at hb
  generalize hl : [(64 + 512, leBytes 4 e.verMajor), (64 + 516, leBytes 4 e.verMinor),
      (64 + 520, leBytes 4 e.verSub)] = l
  have ha : apart b.length (spans l) = true := by
    rw [hb, ← hl]; simp only [spans, List.map_cons, List.map_nil, leBytes_length]; decide
  have hp := puts_length l b ha
  have hf : ∀ o n, 576 ≤ o → get (strToBuf (puts b l) 64 512 e.verString) o n = get (puts b l) o n := by
    intro o n ho
    apply List.ext_getElem?
    intro k
    rw [get_get?, get_get?]
    by_cases hk : k < n
    · rw [if_pos hk, if_pos hk, strToBuf_get? _ _ _ _ (by decide) (by omega), if_neg (by omega),
        if_neg (by omega)]
    · rw [if_neg hk, if_neg hk]
  unfold fillVersion showVersion
  rw [hl]
  obtain ⟨h1, h2, h3⟩ := he.vers
  refine ⟨?_, ?_, ?_, ?_⟩
  · rw [cstr_strToBuf _ _ _ _ (by decide) (by omega) he.ver.1, List.take_of_length_le (by have := he.ver.2; omega)]
  · rw [hf _ _ (by omega)]; exact num_of ha (by rw [← hl]; simp) h1
  · rw [hf _ _ (by omega)]; exact num_of ha (by rw [← hl]; simp) h2
  · rw [hf _ _ (by omega)]; exact num_of ha (by rw [← hl]; simp) h3

/-- `silofs show repo` prints the path of the repository. -/
theorem C65_repo (rs : List Req) (hrs : ∀ r ∈ rs, ReqOk r) (e : Env) (he : EnvOk e) (i : Ino)
    (rest : List Nat) : ∃ a, (serve (served rs) (.query e i none none (ask 2 rest))).1 = .bytes a ∧
      showRepo a = e.repodir := by
  refine ⟨_, ask_ans rs hrs e he i 2 (by decide) (by decide) rest, ?_⟩
  show showRepo (fillRepo e _) = _
  have hb := base_length _ (served_length rs hrs)
  unfold fillRepo showRepo
  rw [cstr_strToBuf _ _ _ _ (by decide) (by omega) he.repo.1, List.take_of_length_le (by have := he.repo.2; omega)]

/-- `silofs show boot` prints the name of the file-system, an address which, given back as text, is
the address of its boot record, and its identifiers. -/
theorem C65_boot (rs : List Req) (hrs : ∀ r ∈ rs, ReqOk r) (e : Env) (he : EnvOk e) (i : Ino)
    (rest : List Nat) : ∃ a, (serve (served rs) (.query e i none none (ask 3 rest))).1 = .bytes a ∧
      (showBoot a).1 = e.name ∧ Caddr.byName (showBoot a).2.1 = .ok e.bootAddr ∧
      (showBoot a).2.2 = e.fsUuid ∧ get a 1104 16 = e.lvUuid := by
  refine ⟨_, ask_ans rs hrs e he i 3 (by decide) (by decide) rest, ?_⟩
  show (showBoot (fillBoot e _)).1 = _ ∧ Caddr.byName (showBoot (fillBoot e _)).2.1 = _ ∧
    (showBoot (fillBoot e _)).2.2 = _ ∧ get (fillBoot e _) 1104 16 = _
  have hb := base_length _ (served_length rs hrs)
  generalize put (served rs) 64 (zeros 1984) = b at hb
  have hsl := strToBuf_length b 64 512 e.name (by decide) (by omega)
  have ha := fillBoot_spans e he _ (hsl.trans hb)
  have hn := toName_length e.bootAddr he.addr.1
  have hnl := he.name.2
  unfold fillBoot showBoot
  generalize hl : [(64 + 512, Caddr.toName e.bootAddr ++ [0]), (64 + 1024, e.fsUuid), (64 + 1040, e.lvUuid)] = l at ha
  have h512 := fun (k : Nat) (hk : k < 576) => congrArg (fun (x : List Nat) => x[0]?)
    (get_puts_ne l (strToBuf b 64 512 e.name) ha k 1 (by
      rw [← hl]
      simp only [spans, List.map_cons, List.map_nil, List.all_cons, List.all_nil, Bool.and_true, Bool.and_eq_true,
        decide_eq_true_eq]
      omega))
  simp only [get_get?, Nat.add_zero, if_pos (show (0 : Nat) < 1 by decide)] at h512
  refine ⟨?_, ?_, ?_, ?_⟩
  · apply cstr_of _ _ _ he.name.1
    · intro k hk
      rw [h512 _ (by omega), strToBuf_get? _ _ _ _ (by decide) (by omega), if_pos (by omega)]
      congr 1; omega
    · rw [h512 _ (by omega), strToBuf_get? _ _ _ _ (by decide) (by omega), if_neg (by omega), if_pos (by omega)]
  · have hg := get_puts l _ ha 576 (Caddr.toName e.bootAddr ++ [0]) (by rw [← hl]; simp)
    have hk := fun (k : Nat) => congrArg (fun (x : List Nat) => x[k]?) hg
    simp only [get_get?, List.length_append, List.length_singleton] at hk
    show Caddr.byName (cstr (puts (strToBuf b 64 512 e.name) l) 576) = _
    rw [cstr_of _ 576 (Caddr.toName e.bootAddr) (toName_ne _)]
    · exact Caddr.C27_caddr_name_roundtrip _ he.addr.1 he.addr.2
    · intro k hlt
      have := hk k
      rw [if_pos (by omega), List.getElem?_append_left hlt] at this
      exact this
    · have := hk (Caddr.toName e.bootAddr).length
      rw [if_pos (by omega), List.getElem?_append_right (by omega), Nat.sub_self] at this
      exact this
  · have hg := get_puts l _ ha 1088 e.fsUuid (by rw [← hl]; simp)
    rw [he.uuids.1] at hg; exact hg
  · have hg := get_puts l _ ha 1104 e.lvUuid (by rw [← hl]; simp)
    rw [he.uuids.2] at hg; exact hg

/-! ### Numbers -/

/-- `silofs show proc` prints the state of the process. -/
theorem C65_proc (rs : List Req) (hrs : ∀ r ∈ rs, ReqOk r) (e : Env) (he : EnvOk e) (i : Ino)
    (rest : List Nat) : ∃ a, (serve (served rs) (.query e i none none (ask 4 rest))).1 = .bytes a ∧
      showProc a = (e.pid, e.uptime, e.msflags, e.memMax, e.memCur, e.bopenCur, e.iopenMax, e.iopenCur) ∧
      leVal (get a 72 4) = e.uid ∧ leVal (get a 76 4) = e.gid := by
  refine ⟨_, ask_ans rs hrs e he i 4 (by decide) (by decide) rest, ?_⟩
  rw [doQuery_proc]
  have hb := base_length _ (served_length rs hrs)
  generalize put (served rs) 64 (zeros 1984) = b0 at hb
  have hb1 : (put b0 64 (zeros 256)).length = 2048 := by
    rw [put_length _ _ _ (by rw [zeros_length]; omega), hb]
  have hf : fillProc e b0 = puts (put b0 64 (zeros 256)) [(64 + 8, leBytes 4 e.uid), (64 + 12, leBytes 4 e.gid),
    (64, leBytes 8 (toU64 e.pid)), (64 + 24, leBytes 8 e.msflags), (64 + 16, leBytes 8 (toU64 e.uptime)),
    (64 + 56, leBytes 8 e.iopenMax), (64 + 64, leBytes 8 e.iopenCur), (64 + 32, leBytes 8 e.memMax),
    (64 + 40, leBytes 8 e.memCur), (64 + 48, leBytes 8 e.bopenCur)] := by
    unfold fillProc; rw [puts_cons]
  rw [hf]
  generalize put b0 64 (zeros 256) = b at hb1
  generalize hl : [(64 + 8, leBytes 4 e.uid), (64 + 12, leBytes 4 e.gid),
    (64, leBytes 8 (toU64 e.pid)), (64 + 24, leBytes 8 e.msflags), (64 + 16, leBytes 8 (toU64 e.uptime)),
    (64 + 56, leBytes 8 e.iopenMax), (64 + 64, leBytes 8 e.iopenCur), (64 + 32, leBytes 8 e.memMax),
    (64 + 40, leBytes 8 e.memCur), (64 + 48, leBytes 8 e.bopenCur)] = l
  have ha : apart b.length (spans l) = true := by
    rw [hb1, ← hl]; simp only [spans, List.map_cons, List.map_nil, leBytes_length]; decide
  obtain ⟨n1, n2, n3, n4, n5, n6⟩ := he.nums
  have g1 := num_of ha (o := 64) (n := 8) (v := toU64 e.pid) (by rw [← hl]; simp) (toU64_lt _)
  have g2 := num_of ha (o := 80) (n := 8) (v := toU64 e.uptime) (by rw [← hl]; simp) (toU64_lt _)
  have g3 := num_of ha (o := 88) (n := 8) (v := e.msflags) (by rw [← hl]; simp) n1
  have g4 := num_of ha (o := 96) (n := 8) (v := e.memMax) (by rw [← hl]; simp) n4
  have g5 := num_of ha (o := 104) (n := 8) (v := e.memCur) (by rw [← hl]; simp) n5
  have g6 := num_of ha (o := 112) (n := 8) (v := e.bopenCur) (by rw [← hl]; simp) n6
  have g7 := num_of ha (o := 120) (n := 8) (v := e.iopenMax) (by rw [← hl]; simp) n2
  have g8 := num_of ha (o := 128) (n := 8) (v := e.iopenCur) (by rw [← hl]; simp) n3
  refine ⟨?_, num_of ha (by rw [← hl]; simp) he.ids.1, num_of ha (by rw [← hl]; simp) he.ids.2⟩
  unfold showProc
  rw [g1, g2, g3, g4, g5, g6, g7, g8, toI64_toU64 _ he.times.1, toI64_toU64 _ he.times.2]

/-- `silofs show spstats` prints, for every kind of object, the numbers of segments, blocks and
objects of the volume and of those it was forked from, and the capacity and times of the volume. -/
theorem C65_spstats (rs : List Req) (hrs : ∀ r ∈ rs, ReqOk r) (e : Env) (he : EnvOk e) (i : Ino)
    (rest : List Nat) : ∃ a, (serve (served rs) (.query e i none none (ask 5 rest))).1 = .bytes a ∧
      (showSpstats a).btime = e.curr.btime ∧ (showSpstats a).ctime = e.curr.ctime ∧
      (showSpstats a).capacity = e.curr.capacity ∧ (showSpstats a).vspacesize = e.curr.vspacesize ∧
      (showSpstats a).generation = e.curr.generation ∧
      ∀ t, 2 ≤ t → t ≤ 12 → (showSpstats a).lsegs t = e.curr.lsegs t + e.base.lsegs t ∧
        (showSpstats a).bks t = e.curr.bks t + e.base.bks t ∧
        (showSpstats a).objs t = e.curr.objs t + e.base.objs t := by
  refine ⟨_, ask_ans rs hrs e he i 5 (by decide) (by decide) rest, ?_⟩
  have hb := base_length _ (served_length rs hrs)
  have hd : (doQuery e i none none 5 (served rs)).2 = puts (put (put (served rs) 64 (zeros 1984)) 64 (zeros 1024))
    (statsFields 64 (collect e.curr e.base)) := by
    rw [doQuery_spstats]; unfold fillSpstats; rw [puts_cons]
  rw [hd]
  have hb1 : (put (put (served rs) 64 (zeros 1984)) 64 (zeros 1024)).length = 2048 := by
    rw [put_length _ _ _ (by rw [zeros_length]; omega), hb]
  generalize put (put (served rs) 64 (zeros 1984)) 64 (zeros 1024) = b at hb1
  have ha : apart b.length (spans (statsFields 64 (collect e.curr e.base))) = true := by
    rw [hb1]; exact stats_apart _
  obtain ⟨n1, n2, n3⟩ := he.stNums
  have m : ∀ f, f ∈ [(64, leBytes 8 (toU64 e.curr.btime)), (64 + 8, leBytes 8 (toU64 e.curr.ctime)),
      (64 + 16, leBytes 8 e.curr.capacity), (64 + 24, leBytes 8 e.curr.vspacesize),
      (64 + 32, leBytes 8 e.curr.generation)] → f ∈ statsFields 64 (collect e.curr e.base) := by
    intro f hf
    unfold statsFields
    simp only [List.mem_append]
    exact Or.inl (Or.inl (Or.inl hf))
  have hg : ∀ t, 2 ≤ t → t ≤ 12 →
      gaugesIn (puts b (statsFields 64 (collect e.curr e.base))) (64 + 256) t = e.curr.lsegs t + e.base.lsegs t ∧
      gaugesIn (puts b (statsFields 64 (collect e.curr e.base))) (64 + 512) t = e.curr.bks t + e.base.bks t ∧
      gaugesIn (puts b (statsFields 64 (collect e.curr e.base))) (64 + 768) t = e.curr.objs t + e.base.objs t := by
    intro t h2 h12
    have hsome : ∃ k, gaugeOff t = some k := by
      have : t = 2 ∨ t = 3 ∨ t = 4 ∨ t = 5 ∨ t = 6 ∨ t = 7 ∨ t = 8 ∨ t = 9 ∨ t = 10 ∨ t = 11 ∨ t = 12 := by omega
      rcases this with h | h | h | h | h | h | h | h | h | h | h <;> subst h <;> exact ⟨_, rfl⟩
    obtain ⟨k, hk⟩ := hsome
    obtain ⟨g1, g2, g3⟩ := he.gauges t
    have hc1 : (collect e.curr e.base).lsegs t = e.curr.lsegs t + e.base.lsegs t := by
      show (if (gaugeOff t).isSome then _ else _) = _
      rw [hk]; rfl
    have hc2 : (collect e.curr e.base).bks t = e.curr.bks t + e.base.bks t := by
      show (if (gaugeOff t).isSome then _ else _) = _
      rw [hk]; rfl
    have hc3 : (collect e.curr e.base).objs t = e.curr.objs t + e.base.objs t := by
      show (if (gaugeOff t).isSome then _ else _) = _
      rw [hk]; rfl
    have w1 : (64 + 256 + k, leBytes 8 (gaugeEnc ((collect e.curr e.base).lsegs t))) ∈
        statsFields 64 (collect e.curr e.base) := by
      unfold statsFields
      simp only [List.mem_append]
      exact Or.inl (Or.inl (Or.inr (gauge_mem _ _ t k hk)))
    have w2 : (64 + 512 + k, leBytes 8 (gaugeEnc ((collect e.curr e.base).bks t))) ∈
        statsFields 64 (collect e.curr e.base) := by
      unfold statsFields
      simp only [List.mem_append]
      exact Or.inl (Or.inr (gauge_mem _ _ t k hk))
    have w3 : (64 + 768 + k, leBytes 8 (gaugeEnc ((collect e.curr e.base).objs t))) ∈
        statsFields 64 (collect e.curr e.base) := by
      unfold statsFields
      simp only [List.mem_append]
      exact Or.inr (gauge_mem _ _ t k hk)
    rw [hc1] at w1; rw [hc2] at w2; rw [hc3] at w3
    obtain ⟨q1, b1⟩ := C21_gauge _ g1.1 g1.2
    obtain ⟨q2, b2⟩ := C21_gauge _ g2.1 g2.2
    obtain ⟨q3, b3⟩ := C21_gauge _ g3.1 g3.2
    refine ⟨?_, ?_, ?_⟩
    · unfold gaugesIn
      rw [hk]; simp only
      rw [num_of ha w1 b1, q1]
    · unfold gaugesIn
      rw [hk]; simp only
      rw [num_of ha w2 b2, q2]
    · unfold gaugesIn
      rw [hk]; simp only
      rw [num_of ha w3 b3, q3]
  unfold showSpstats statsIn
  have v1 := num_of ha (o := 64) (n := 8) (v := toU64 e.curr.btime) (m _ (by simp)) (toU64_lt _)
  have v2 := num_of ha (o := 64 + 8) (n := 8) (v := toU64 e.curr.ctime) (m _ (by simp)) (toU64_lt _)
  have v3 := num_of ha (o := 64 + 16) (n := 8) (v := e.curr.capacity) (m _ (by simp)) n1
  have v4 := num_of ha (o := 64 + 24) (n := 8) (v := e.curr.vspacesize) (m _ (by simp)) n2
  have v5 := num_of ha (o := 64 + 32) (n := 8) (v := e.curr.generation) (m _ (by simp)) n3
  generalize puts b (statsFields 64 (collect e.curr e.base)) = a at v1 v2 v3 v4 v5 hg
  refine ⟨?_, ?_, v3, v4, v5, ?_⟩
  · simp only; rw [v1, toI64_toU64 _ he.stTimes.1]
  · simp only; rw [v2, toI64_toU64 _ he.stTimes.2]
  · exact hg

/-- With an allocator in any state reached by any calls: `show spstats` counts exactly the units of
each kind which are in use. -/
theorem C65_spstats_objects (rs : List Req) (hrs : ∀ r ∈ rs, ReqOk r) (e : Env) (he : EnvOk e) (i : Ino)
    (rest : List Nat) {cap vend cm sp : Nat} {s : Sys} {b : Book}
    (hr : Reach (initSys cap vend cm sp) s b) (hc : e.curr.objs = s.objs) (hb : e.base.objs = s.objsBase) :
    ∃ a, (serve (served rs) (.query e i none none (ask 5 rest))).1 = .bytes a ∧
      ∀ t, isVnode t = true → (showSpstats a).objs t = ((b.live t).length : Int) := by
  obtain ⟨a, h1, _, _, _, _, _, h2⟩ := C65_spstats rs hrs e he i rest
  refine ⟨a, h1, fun t ht => ?_⟩
  have hv : 5 ≤ t ∧ t ≤ 12 := by
    unfold isVnode at ht; simp only [Bool.and_eq_true, decide_eq_true_eq] at ht; exact ht
  rw [(h2 t (by omega) hv.2).2.2, hc, hb]
  have := (reach_inv hr).1.cnt t ht
  omega

end Silofs.Rep
