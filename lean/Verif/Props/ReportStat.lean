import Verif.Props.ReportRest
/-
C65, continued: statfs, mount flags, tuning; cases which meet the hypotheses.
-/
set_option linter.unusedSimpArgs false
namespace Silofs.Rep
open Silofs Silofs.Addr Silofs.Space

/-! ### statfs -/

theorem exec_live {s s' : Sys} {b b' : Book} {op : Op} {out : Option (Nat × Nat)}
    (h : exec s b op = some (s', b', out)) (t : Nat) :
    (b'.live t).length ≤ (b.live t).length ∨
      (∃ o off, op = .claim t o ∧ claim s t o = some (s', .ok off) ∧ (b'.live t).length = (b.live t).length + 1) := by
  cases op with
  | claim t' o =>
    simp only [exec] at h
    split at h
    · cases h
    · rename_i s1 off hc
      simp only [Option.some.injEq, Prod.mk.injEq] at h
      obtain ⟨h1, h2, _⟩ := h
      subst h1; subst h2
      by_cases ht : t = t'
      · subst ht
        right
        exact ⟨o, off, rfl, hc, by simp [Book.claimed, upd]⟩
      · left; simp [Book.claimed, upd, ht]
    · simp only [Option.some.injEq, Prod.mk.injEq] at h
      obtain ⟨_, h2, _⟩ := h
      subst h2; exact Or.inl (Nat.le_refl _)
  | addref t' off o =>
    left
    simp only [exec] at h
    split at h
    · cases h
    · simp only [Option.some.injEq, Prod.mk.injEq] at h
      obtain ⟨_, h2, _⟩ := h
      subst h2; exact Nat.le_refl _
    · simp only [Option.some.injEq, Prod.mk.injEq] at h
      obtain ⟨_, h2, _⟩ := h
      subst h2; exact Nat.le_refl _
  | reclaim t' off o =>
    left
    simp only [exec] at h
    split at h
    · cases h
    · simp only [Option.some.injEq, Prod.mk.injEq] at h
      obtain ⟨_, h2, _⟩ := h
      subst h2
      unfold Book.released
      simp only
      split
      · by_cases ht : t = t'
        · subst ht
          simp only [upd, if_pos]
          exact List.length_erase_le
        · simp [upd, ht]
      · exact Nat.le_refl _
    · simp only [Option.some.injEq, Prod.mk.injEq] at h
      obtain ⟨_, h2, _⟩ := h
      subst h2; exact Nat.le_refl _
  | remount t' o =>
    left
    simp only [exec, Option.map_eq_some_iff] at h
    obtain ⟨x, _, hx⟩ := h
    simp only [Prod.mk.injEq] at hx
    rw [← hx.2.1]; exact Nat.le_refl _
  | setUnwritten t' off =>
    left; simp only [exec, Option.some.injEq, Prod.mk.injEq] at h; rw [← h.2.1]; exact Nat.le_refl _
  | clearUnwritten t' off =>
    left; simp only [exec, Option.some.injEq, Prod.mk.injEq] at h; rw [← h.2.1]; exact Nat.le_refl _
  | reload t' k =>
    left; simp only [exec, Option.some.injEq, Prod.mk.injEq] at h; rw [← h.2.1]; exact Nat.le_refl _
  | renewStats =>
    left; simp only [exec, Option.some.injEq, Prod.mk.injEq] at h; rw [← h.2.1]; exact Nat.le_refl _

/-- There are never more inodes than statfs says there can be. -/
theorem inodes_le {cap vend cm sp : Nat} {s : Sys} {b : Book} (hcap : cap < 288230376151711744)
    (h : Reach (initSys cap vend cm sp) s b) : (b.live LTYPE_INODE).length ≤ cap / 1024 / 4 := by
  induction h with
  | init => exact Nat.zero_le _
  | step hr hl he ih =>
    rename_i s b op s' b' out
    obtain ⟨hi, _, hcp⟩ := reach_inv hr
    rcases exec_live he LTYPE_INODE with hle | ⟨o, off, hop, hc, hlen⟩
    · exact Nat.le_trans hle ih
    · rw [hlen]
      have hk : isVnode LTYPE_INODE = true := by decide
      obtain ⟨_, _, _, c4⟩ := claim_inv hk hi hc
      obtain ⟨_, _, _, _, hav⟩ := c4 off rfl
      unfold checkAvail at hav
      rw [Bool.and_eq_true] at hav
      have h2 := hav.2
      rw [if_neg (by decide)] at h2
      unfold mayallocMeta at h2
      rw [hcp] at h2
      split at h2
      · simp at h2
      · rw [if_pos (by decide)] at h2
        simp only [decide_eq_true_eq] at h2
        have hcnt := hi.cnt LTYPE_INODE hk
        rw [hcnt] at h2
        unfold toU64 at h2
        omega

/-- The number of files statfs reports in use (total minus free) is the number of inodes there are,
and it never reports more free than there can be, after any calls of the allocator. -/
theorem C65_statfs_files {cap vend cm sp : Nat} {s : Sys} {b : Book} (hcap : cap < 288230376151711744)
    (h : Reach (initSys cap vend cm sp) s b) :
    (fillStatvfs s).ffree ≤ (fillStatvfs s).files ∧
    (fillStatvfs s).files - (fillStatvfs s).ffree = (b.live LTYPE_INODE).length ∧
    (fillStatvfs s).favail = (fillStatvfs s).ffree ∧ (fillStatvfs s).files = cap / 4096 := by
  have hle := inodes_le hcap h
  obtain ⟨hi, _, hcp⟩ := reach_inv h
  have hcnt := hi.cnt LTYPE_INODE (by decide)
  have hu : inodesUsed s = (b.live LTYPE_INODE).length := by
    unfold inodesUsed; rw [hcnt]; unfold toU64; omega
  have hm : inodesMax s = cap / 1024 / 4 := by unfold inodesMax; rw [hcp]
  have hf : (fillStatvfs s).ffree = cap / 1024 / 4 - (b.live LTYPE_INODE).length := by
    show toU64 ((inodesMax s : Int) - (inodesUsed s : Int)) = _
    rw [hu, hm]; unfold toU64; omega
  refine ⟨?_, ?_, rfl, ?_⟩
  · rw [hf]; show _ ≤ inodesMax s; rw [hm]; omega
  · rw [hf]; show inodesMax s - _ = _; rw [hm]; omega
  · show inodesMax s = _; rw [hm]; omega

/-- A new inode is refused when statfs reports no free one. -/
theorem C65_statfs_files_full {cap vend cm sp : Nat} {s s' : Sys} {b : Book} {o : Oracle} {off : Nat}
    (hcap : cap < 288230376151711744) (h : Reach (initSys cap vend cm sp) s b)
    (hz : (fillStatvfs s).ffree = 0) : claim s LTYPE_INODE o ≠ some (s', .ok off) := by
  intro hc
  have hle := inodes_le hcap (Reach.step h (op := .claim LTYPE_INODE o) (s' := s')
    (b' := b.claimed LTYPE_INODE off) (out := some (off, ltypeSize LTYPE_INODE)) (by show isVnode LTYPE_INODE = true; decide)
    (by simp only [exec, hc]))
  have hl : ((b.claimed LTYPE_INODE off).live LTYPE_INODE).length = (b.live LTYPE_INODE).length + 1 := by
    simp [Book.claimed, upd]
  obtain ⟨h1, h2, _, h4⟩ := C65_statfs_files hcap h
  rw [hl] at hle
  omega

/-- The space statfs reports free is, in whole blocks of 4096 bytes, the capacity less the bytes in use
by data, meta-data and space maps — while these are within the capacity. -/
theorem C65_statfs_space_partial {cap vend cm sp : Nat} {s : Sys} {b : Book} (hcap : cap < 288230376151711744)
    (h : Reach (initSys cap vend cm sp) s b) (hw : (vnodeBytes b : Int) + unodeBytes s ≤ cap) :
    (fillStatvfs s).frsize = 4096 ∧ (fillStatvfs s).bsize = 4096 ∧ (fillStatvfs s).blocks = cap / 4096 ∧
    ((fillStatvfs s).bfree : Int) = ((cap : Int) - ((vnodeBytes b : Int) + unodeBytes s)) / 4096 ∧
    (fillStatvfs s).bfree ≤ (fillStatvfs s).blocks ∧
    (fillStatvfs s).bavail = (fillStatvfs s).bfree := by
  obtain ⟨hi, _, hcp⟩ := reach_inv h
  obtain ⟨hb, hn⟩ := C21_bytes h
  have hU := usedU_eq hi (by omega)
  have hf : (fillStatvfs s).bfree = toU64 ((s.cap : Int) - (usedU s : Int)) / 4096 := rfl
  have hblk : (fillStatvfs s).blocks = cap / 4096 := by show s.cap / 4096 = _; rw [hcp]
  have he : ((fillStatvfs s).bfree : Int) = ((cap : Int) - ((vnodeBytes b : Int) + unodeBytes s)) / 4096 := by
    rw [hf, hU, hb, hcp]; unfold toU64; omega
  exact ⟨rfl, rfl, hblk, he, by omega, rfl⟩

/-- C65 is false of the space reported free when the space maps outgrow the capacity (which is not checked
for them): after one file is made on a volume of 32 blocks, 4503599627370487 are reported free. -/
theorem C65_statfs_space_violated :
    (match claim (initSys 131072 (2 ^ 30) 64 0) LTYPE_INODE okOracle with
     | some (s, _) => some ((fillStatvfs s).blocks, (fillStatvfs s).bavail)
     | none => none) = some (32, 4503599627370487) := by
  decide +kernel

/-- What statfs reports available is not available to data: at any time when the next unit of data would
bring the use above 31/32 of the capacity, storing it fails, whatever number of blocks is reported
available. -/
theorem C65_avail_violated {cap vend cm sp : Nat} {s s' : Sys} {b : Book} {t off : Nat} {o : Oracle}
    (h : Reach (initSys cap vend cm sp) s b) (hk : isVnode t = true) (hd : isData t = true)
    (hcap : cap < 288230376151711744) (hw : usedBytes s ≤ cap)
    (hlim : 31 * cap < 32 * (usedBytes s + ltypeSize t)) :
    claim s t o ≠ some (s', .ok off) ∧
      ((fillStatvfs s).bavail : Int) = ((cap : Int) - usedBytes s) / 4096 := by
  obtain ⟨hb, hn⟩ := C21_bytes h
  constructor
  · intro hc
    have := (C22_claim h hk hcap (by omega) hc).2.1 hd
    omega
  · obtain ⟨_, _, _, h4, _, h6⟩ := C65_statfs_space_partial hcap h (by omega)
    rw [h6, h4, hb]

/-- The longest name statfs promises is refused. -/
theorem C65_namemax_violated (s : Sys) :
    nameLenOk (fillStatvfs s).namemax = false ∧ nameLenOk 256 = false ∧ 256 ≤ (fillStatvfs s).namemax := by
  refine ⟨?_, by decide, ?_⟩
  · show nameLenOk 511 = false; decide
  · show 256 ≤ 511; decide

/-- Names refused for their length are longer than 255 or empty. -/
theorem C65_namemax_partial (n : Nat) : nameLenOk n = true ↔ 0 < n ∧ n ≤ 255 := by
  unfold nameLenOk
  simp only [Bool.and_eq_true, decide_eq_true_eq]
  omega

/-! ### Mount flags -/

theorem and_mod (fl f : Nat) (h : f < 2048) : fl &&& f = (fl % 2048) &&& f := by
  have h1 := Nat.and_mod_two_pow (a := fl) (b := f) (n := 11)
  have h2 : fl &&& f ≤ f := Nat.and_le_right
  rw [Nat.mod_eq_of_lt (show fl &&& f < 2 ^ 11 by omega), Nat.mod_eq_of_lt (show f < 2 ^ 11 by omega)] at h1
  exact h1

theorem msLoop_mod (fl : Nat) (l : List (Nat × List Nat)) (hl : ∀ x ∈ l, x.1 < 2048) :
    ∀ b pos first, msLoop fl l b pos first = msLoop (fl % 2048) l b pos first := by
  induction l with
  | nil => intro b pos first; rfl
  | cons x l ih =>
    intro b pos first
    have ih := ih (fun y hy => hl y (List.mem_cons_of_mem _ hy))
    obtain ⟨f, nm⟩ := x
    simp only [msLoop]
    rw [and_mod fl f (hl _ List.mem_cons_self)]
    simp only [ih]

theorem showMsflags_mod (fl : Nat) : showMsflags fl = showMsflags (fl % 2048) := by
  unfold showMsflags
  rw [msLoop_mod fl msNames (by decide)]

/-- The flags of mount(2) (`MS_RDONLY` 1, `MS_NODEV` 4, `MS_NOSUID` 2, `MS_NOEXEC` 8, `MS_MANDLOCK` 64,
`MS_NOATIME` 1024) which are set, by the names mount(8) has for them ("rdonly", "nodev", "nosuid", "noexec",
"mandlock", "noatime"). -/
def msSet (fl : Nat) : List (List Nat) :=
  (if fl &&& 1 ≠ 0 then [[114, 100, 111, 110, 108, 121]] else []) ++ (if fl &&& 4 ≠ 0 then [[110, 111, 100, 101, 118]] else []) ++
  (if fl &&& 2 ≠ 0 then [[110, 111, 115, 117, 105, 100]] else []) ++ (if fl &&& 8 ≠ 0 then [[110, 111, 101, 120, 101, 99]] else []) ++
  (if fl &&& 64 ≠ 0 then [[109, 97, 110, 100, 108, 111, 99, 107]] else []) ++ (if fl &&& 1024 ≠ 0 then [[110, 111, 97, 116, 105, 109, 101]] else [])

theorem msSet_mod (fl : Nat) : msSet fl = msSet (fl % 2048) := by
  unfold msSet
  rw [and_mod fl 1 (by decide), and_mod fl 4 (by decide), and_mod fl 2 (by decide), and_mod fl 8 (by decide),
    and_mod fl 64 (by decide), and_mod fl 1024 (by decide)]

/-- What is printed for the mount flags: the names of the first two that are set, with nothing between them. -/
theorem C65_msflags_exact (fl : Nat) : showMsflags fl = some ((msSet fl).take 2).flatten := by
  rw [showMsflags_mod, msSet_mod]
  have h : ∀ k, k < 2048 → showMsflags k = some ((msSet k).take 2).flatten := by decide +kernel
  exact h _ (Nat.mod_lt _ (by decide))

/-- Printing the mount flags writes only inside its buffer, and with at most one flag set its name is
printed. -/
theorem C65_msflags_partial (fl : Nat) :
    (∃ t, showMsflags fl = some t) ∧
    ((msSet fl).length ≤ 1 → showMsflags fl = some (msSet fl).flatten) := by
  refine ⟨⟨_, C65_msflags_exact fl⟩, fun h => ?_⟩
  rw [C65_msflags_exact, List.take_of_length_le (by omega)]

/-- Flags that differ print the same: nodev and nosuid, with or without noexec. -/
theorem C65_msflags_violated : msSet 6 ≠ msSet 14 ∧ showMsflags 6 = showMsflags 14 ∧
    showMsflags 6 = some [110, 111, 100, 101, 118, 110, 111, 115, 117, 105, 100] := by
  decide +kernel

/-! ### Tuning -/

/-- Tuning changes the kind of files which will be made in a directory, to exactly what was asked: set when
it is among the flags to set, cleared when among those to clear, kept otherwise; with other flags, or
the same flag to set and to clear, or without permission, nothing changes. -/
theorem C65_tune (i : Ino) (wacc : Option Nat) (w d : Nat) (hw : w < 4294967296) (hd : d < 4294967296) :
    match doTune i wacc w d with
    | (none, f) => wacc = none ∧ (w = 0 ∨ w = 2) ∧ (d = 0 ∨ d = 2) ∧ ¬ (w = 2 ∧ d = 2) ∧
        (f &&& 2 = if w = 2 then 2 else if d = 2 then 0 else i.iflags &&& 2)
    | (some _, f) => f = i.iflags := by
  unfold doTune
  cases wacc with
  | some e => rfl
  | none =>
    simp only
    by_cases hc : (tuneMaskOk w && tuneMaskOk d && (w &&& d == 0)) = true
    · rw [if_pos hc]
      simp only
      simp only [tuneMaskOk, Bool.and_eq_true, beq_iff_eq] at hc
      obtain ⟨⟨c1, c2⟩, c3⟩ := hc
      have hle : ∀ x : Nat, x ||| 2 = 2 → x = 0 ∨ x = 2 := by
        intro x hx
        have h1 : x ≤ x ||| 2 := Nat.left_le_or
        rw [hx] at h1
        have : x = 0 ∨ x = 1 ∨ x = 2 := by omega
        rcases this with h | h | h <;> subst h <;> first | exact Or.inl rfl | exact Or.inr rfl | cases hx
      have aux : ∀ u v : Nat, ((u ||| v) &&& 2) = (u &&& 2) ||| (v &&& 2) := fun u v => Nat.and_or_distrib_right _ _ _
      rcases hle w c1 with h | h <;> rcases hle d c2 with h' | h' <;> subst h <;> subst h'
      · refine ⟨trivial, by decide, by decide, by decide, ?_⟩
        rw [if_neg (by decide), if_neg (by decide)]
        unfold updateIflags
        rw [Nat.or_zero, Nat.and_assoc, Nat.and_assoc]
        rfl
      · refine ⟨trivial, by decide, by decide, by decide, ?_⟩
        rw [if_neg (by decide), if_pos rfl]
        unfold updateIflags
        rw [Nat.or_zero, Nat.and_assoc, Nat.and_assoc]
        rw [show (4294967295 ^^^ 2) &&& (2 &&& 2) = 0 from rfl, Nat.and_zero]
      · refine ⟨trivial, by decide, by decide, by decide, ?_⟩
        rw [if_pos rfl]
        unfold updateIflags
        rw [Nat.and_assoc, Nat.and_assoc, show (4294967295 ^^^ 0) &&& (2 &&& 2) = 2 from rfl, aux]
        have : i.iflags &&& 2 = 0 ∨ i.iflags &&& 2 = 2 := by
          have h1 : i.iflags &&& 2 ≤ 2 := Nat.and_le_right
          have h2 : (i.iflags &&& 2) &&& 2 = i.iflags &&& 2 := by rw [Nat.and_assoc]; rfl
          generalize i.iflags &&& 2 = x at h1 h2
          have : x = 0 ∨ x = 1 ∨ x = 2 := by omega
          rcases this with h | h | h <;> subst h <;> first | exact Or.inl rfl | exact Or.inr rfl | cases h2
        rcases this with h | h <;> rw [h] <;> rfl
      · cases c3
    · rw [if_neg hc]

/-- A regular file made in a directory is of the kind the directory was tuned to, and sub-directories pass
it on. -/
theorem C65_tune_inherit (p i : Ino) (hm : isReg i.mode = true ∨ isDir i.mode = true)
    (hf : i.iflags = newIflags i.mode p.iflags) :
    (isReg i.mode = true → ftype i = if p.iflags &&& 2 = 0 then 1 else 2) ∧
    i.iflags &&& 2 = p.iflags &&& 2 := by
  have h : i.iflags = p.iflags &&& 2 := by rw [hf]; unfold newIflags; rw [if_pos hm]
  have h2 : i.iflags &&& 2 = p.iflags &&& 2 := by rw [h, Nat.and_assoc]; rfl
  refine ⟨fun hr => ?_, h2⟩
  unfold ftype
  rw [if_pos hr, h2]
  by_cases hz : p.iflags &&& 2 = 0
  · rw [if_pos hz, if_neg (by simpa using hz)]
  · rw [if_neg hz, if_pos (by simpa using hz)]

/-- An inode the root directory could be. -/
def anIno (mode fl : Nat) : Ino :=
  ⟨1, mode, 2, 1000, 100, 0, 0, 4096, 5, ⟨10, 1⟩, ⟨11, 2⟩, ⟨12, 3⟩, ⟨13, 4⟩, fl, 3⟩

/-- Tuning the root directory, even with nothing to set or to clear, takes away the flag (1) which says
it is the root directory. -/
theorem C65_tune_root_violated : doTune (anIno 0o040755 1) none 0 0 = (none, 0) ∧
    doTune (anIno 0o040755 1) none 2 0 = (none, 2) := by decide

/-! ### Cases -/

/-- A file-system that meets the hypotheses. -/
def anEnv : Env :=
  { verString := [49, 46, 48], verMajor := 1, verMinor := 0, verSub := 7, repodir := [47, 114], name := [102, 115]
    bootAddr := ⟨List.replicate 32 7, 1024, 1⟩, fsUuid := List.replicate 16 1, lvUuid := List.replicate 16 2
    uid := 1000, gid := 100, pid := 4711, uptime := 60, msflags := 6, iopenMax := 100, iopenCur := 3
    memMax := 1000000, memCur := 5000, bopenCur := 2
    curr := ⟨1, 2, 4294967296, 8, 9, fun _ => 3, fun _ => -1, fun _ => 5⟩
    base := ⟨0, 0, 0, 0, 0, fun _ => 4, fun _ => 7, fun _ => 0⟩ }

theorem anEnv_ok : EnvOk anEnv := by
  refine ⟨by decide, by decide, by decide, by decide, ⟨⟨⟨by decide, by decide⟩, by decide, by decide⟩, by decide⟩,
    by decide, by decide, ⟨?_, ?_⟩, by decide, ⟨?_, ?_⟩, by decide, ?_⟩
  · unfold IsI64; decide
  · unfold IsI64; decide
  · unfold IsI64; decide
  · unfold IsI64; decide
  · intro t; unfold Small anEnv; simp

theorem anIno_ok : InoOk (anIno 0o100644 0) := by
  refine ⟨by decide, by decide, by decide, by decide, ?_, by decide⟩
  unfold IsI64; decide

example : ∃ a, (serve (served [.attr (anIno 0o100644 0)])
    (.query anEnv (anIno 0o040755 1) none none (ask 2 []))).1 = .bytes a ∧ showRepo a = [47, 114] ∧
    leVal (get a 28 4) = 1000 := by
  obtain ⟨a, h1, h2⟩ := C65_answer_violated [] (by simp) _ anIno_ok anEnv anEnv_ok (anIno 0o040755 1) []
  obtain ⟨a', h3, h4⟩ := C65_repo [.attr (anIno 0o100644 0)] (by simp [ReqOk]) anEnv anEnv_ok (anIno 0o040755 1) []
  rw [List.nil_append] at h1
  have : a = a' := by rw [h1] at h3; exact Ans.bytes.inj h3
  subst this
  exact ⟨a, h1, h4, h2.2.2.2.1⟩

example : (statxOf (anIno 0o100644 0) 0x209).size = 4096 ∧ (statxOf (anIno 0o100644 0) 0x209).gid = 0 ∧
    (statxOf (anIno 0o100644 0) 0x209).mask = 0x209 := by decide

/-- A volume of 4G: one inode, and the number of files reported. -/
example : (match claim (initSys (2 ^ 32) (2 ^ 40) 64 0) LTYPE_INODE okOracle with
     | some (s, _) => some ((fillStatvfs s).files - (fillStatvfs s).ffree, (fillStatvfs s).bfree)
     | none => none) = some (1, 1048535) := by
  decide +kernel

end Silofs.Rep
