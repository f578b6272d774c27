import Verif.Spec.Conn

/-! # C73: what the daemon promises the kernel in its answer to INIT -/

set_option linter.unusedSimpArgs false
set_option linter.unusedVariables false

namespace Silofs.Cn

/-! ## Powers of two -/

theorem page_cases {p : Nat} (h : checkPage p = none) : p = 4096 ∨ p = 8192 ∨ p = 16384 ∨ p = 65536 := by
  unfold checkPage at h
  split at h
  · exact nomatch h
  · split at h
    · next h2 => simpa using h2
    · exact nomatch h

theorem page_pow {p : Nat} (h : checkPage p = none) : ∃ k, p = 2 ^ k ∧ 12 ≤ k ∧ k ≤ 16 := by
  rcases page_cases h with h | h | h | h
  · exact ⟨12, by rw [h]; decide⟩
  · exact ⟨13, by rw [h]; decide⟩
  · exact ⟨14, by rw [h]; decide⟩
  · exact ⟨16, by rw [h]; decide⟩

theorem roundup_pow (n : Nat) : ∃ k, roundup n = 2 ^ k := ⟨_, rfl⟩

theorem roundup_ge {n : Nat} (h1 : 1 ≤ n) (h2 : n < 2 ^ 32) : n ≤ roundup n := by
  have e : (n + 4294967295) % 4294967296 = n - 1 := by omega
  unfold roundup
  rw [e]
  unfold fls32
  split
  · omega
  · next h => have := @Nat.lt_log2_self (n - 1); omega

theorem pipeMax_pow {p : Nat} (hp : checkPage p = none) (lim : Option Nat) : ∃ k, pipeMax p lim = 2 ^ k := by
  cases lim with
  | none =>
    rcases page_pow hp with ⟨k, hk, _⟩
    exact ⟨4 + k, by rw [Nat.pow_add, ← hk]; rfl⟩
  | some l =>
    simp only [pipeMax]
    split
    · exact roundup_pow l
    · exact ⟨21, by decide⟩

theorem pipeMax_le {p : Nat} (hp : checkPage p = none) (lim : Option Nat) : pipeMax p lim ≤ BUF := by
  cases lim with
  | none => rcases page_cases hp with h | h | h | h <;> subst h <;> decide
  | some l => simp only [pipeMax]; split <;> omega

theorem pipeMax_ge {p : Nat} (hp : checkPage p = none) {lim : Option Nat}
    (hl : ∀ l, lim = some l → p ≤ l ∧ l < 2 ^ 32) : p ≤ pipeMax p lim := by
  cases lim with
  | none => simp only [pipeMax]; omega
  | some l =>
    have h := hl l rfl
    have hp4 : 4096 ≤ p ∧ p ≤ 65536 := by rcases page_cases hp with h | h | h | h <;> omega
    have hr := roundup_ge (n := l) (by omega) h.2
    simp only [pipeMax]
    have hb : BUF = 2097152 := rfl
    split <;> omega

theorem page_dvd {p : Nat} (hp : checkPage p = none) {lim : Option Nat}
    (hl : ∀ l, lim = some l → p ≤ l ∧ l < 2 ^ 32) : p ∣ pipeMax p lim := by
  have hge := pipeMax_ge hp hl
  rcases page_pow hp with ⟨k, hk, _⟩
  rcases pipeMax_pow hp lim with ⟨j, hj⟩
  rw [hj, hk] at hge ⊢
  exact Nat.pow_dvd_pow 2 ((Nat.pow_le_pow_iff_right (by omega)).1 hge)

theorem pipeSize_max {p : Nat} {lim : Option Nat} {want : Nat} (h : pipeMax p lim ≤ want) :
    pipeSize p lim want = pipeMax p lim := by
  unfold pipeSize; rw [if_pos h]

theorem dvd_buf {p : Nat} (hp : checkPage p = none) : p ∣ BUF := by
  rcases page_cases hp with h | h | h | h <;> subst h <;> decide

/-- Size of the buffers: the limit of pipes, or 2M. -/
def want (s : Sys) (splice : Bool) : Nat := if splice then pipeMax s.page s.lim else BUF

theorem want_dvd {s : Sys} (hs : s.Ok) (b : Bool) : s.page ∣ want s b := by
  unfold want; split
  · exact page_dvd hs.page hs.lim
  · exact dvd_buf hs.page

theorem want_le {s : Sys} (hs : s.Ok) (b : Bool) : want s b ≤ BUF := by
  unfold want; split
  · exact pipeMax_le hs.page s.lim
  · exact Nat.le_refl _

theorem bufSize_eq {s : Sys} (hs : s.Ok) (b : Bool) :
    bufSize s.page s.lim b = if want s b < MINREAD then .error EPROTO else .ok (want s b) := by
  have e : min (if b = true then pipeSize s.page s.lim BUF else BUF) BUF / s.page * s.page = want s b := by
    have : min (if b = true then pipeSize s.page s.lim BUF else BUF) BUF = want s b := by
      have hle := want_le hs b
      unfold want at hle ⊢
      cases b
      · simp
      · simp only [if_true] at hle ⊢
        rw [pipeSize_max (pipeMax_le hs.page s.lim)]; omega
    rw [this]
    exact Nat.div_mul_cancel (want_dvd hs b)
  unfold bufSize
  rw [e]
  have hle := want_le hs b
  by_cases h : want s b < MINREAD
  · rw [if_pos h, if_pos (Or.inl h)]
  · rw [if_neg h, if_neg (by omega)]

theorem ar_div {p q w : Nat} (hd : p = 4096 ∨ p = 8192 ∨ p = 16384 ∨ p = 65536) (hq : w = p * q) (h1 : 8192 ≤ w) :
    (w - 40 - 40) / p * p = w - p := by
  rcases hd with h | h | h | h <;> subst h <;> omega

theorem ar_pages {p q w : Nat} (hd : p = 4096 ∨ p = 8192 ∨ p = 16384 ∨ p = 65536) (hq : w = p * q)
    (h1 : 8192 ≤ w) (h2 : w ≤ 2097152) : min ((w - p - 1) / p + 1) 65535 = w / p - 1 ∨ w < 3 * p := by
  have e : (w - p - 1) / p + 1 = w / p - 1 ∨ w < 3 * p := by
    rcases hd with h | h | h | h <;> subst h <;> omega
  have e3 : w / p ≤ 65535 := by rcases hd with h | h | h | h <;> subst h <;> omega
  rcases e with e | e
  · left; rw [e]; omega
  · exact Or.inr e

theorem ar_short {p w : Nat} (hd : p = 4096 ∨ p = 8192 ∨ p = 16384 ∨ p = 65536) (h : w < 80 + p) :
    w < 3 * p ∨ w < 8192 + p := by
  rcases hd with h | h | h | h <;> subst h <;> omega

theorem ar_min {p w : Nat} (hp : p ≤ w) :
    w - p < max (2 * p) 8192 ↔ (w < 3 * p ∨ w < 8192 + p) := by omega

/-- All sizes in one: what `fuseq_update_conn_info` computes. -/
theorem connInfo_eq {s : Sys} (hs : s.Ok) (b : Bool) :
    connInfo s.page s.lim b =
      if want s b < 3 * s.page ∨ want s b < 8192 + s.page then .error EPROTO
      else .ok { buffsize := want s b, maxWrite := want s b - s.page, maxRead := want s b - s.page,
                 maxReadahead := want s b - s.page, maxPages := want s b / s.page - 1 } := by
  have hle := want_le hs b
  obtain ⟨q, hq⟩ := want_dvd hs b
  unfold connInfo
  rw [bufSize_eq hs b]
  generalize want s b = w at *
  have hB : BUF = 2097152 := rfl
  have hM : MINREAD = 8192 := rfl
  have hH : HDR = 40 := rfl
  have hW : WRIN = 40 := rfl
  have hd := page_cases hs.page
  generalize s.page = p at *
  by_cases h1 : w < MINREAD
  · rw [if_pos h1, if_pos (by omega)]
  rw [if_neg h1]
  simp only [maxWriteOf]
  have e : (w - HDR - WRIN) / p * p = w - p := ar_div hd hq (by omega)
  have e2 := ar_pages hd hq (by omega) (by omega)
  rw [e]
  by_cases h2 : w < HDR + WRIN + p
  · rw [if_pos h2, if_pos (ar_short hd (by omega))]
  rw [if_neg h2]
  by_cases h3 : w - p < max (2 * p) MINREAD
  · rw [if_pos h3, if_pos ((ar_min (by omega)).1 h3)]
  · have h4 : ¬ (w < 3 * p ∨ w < 8192 + p) := fun h => h3 ((ar_min (by omega)).2 h)
    rw [if_neg h3, if_neg h4]
    simp only [Except.ok.injEq, Conn.mk.injEq, true_and]
    rcases e2 with e2 | e2
    · exact e2
    · exact absurd (Or.inl e2) h4

/-! ## Pipes -/

theorem pipeSize_idem {s : Sys} : pipeSize s.page s.lim (pipeMax s.page s.lim) = pipeMax s.page s.lim :=
  pipeSize_max (Nat.le_refl _)

theorem openPipe_ok {s : Sys} (hs : s.Ok) {p : PipeSys} {w : Nat} (hw : w = pipeMax s.page s.lim)
    (h : (openPipe s.page s.lim w p).2 = none) : (openPipe s.page s.lim w p).1 = max p.size0 w := by
  have hi := @pipeSize_idem s
  rw [← hw] at hi
  unfold openPipe at h ⊢
  split
  · next e he => rw [he] at h; exact nomatch h
  · next he =>
    rw [he] at h
    simp only at h ⊢
    by_cases h1 : p.size0 < s.page
    · rw [if_pos h1] at h; exact nomatch h
    · rw [if_neg h1] at h ⊢
      unfold tryGrow at h ⊢
      by_cases h2 : w = p.size0
      · rw [if_pos h2]; simp only; omega
      · rw [if_neg h2] at h ⊢
        by_cases h3 : w < s.page ∨ w > 1024 * s.page
        · rw [if_pos h3] at h; exact nomatch h
        · rw [if_neg h3] at h ⊢
          rw [hi] at h ⊢
          by_cases h4 : p.size0 < w
          · rw [if_pos h4] at h ⊢
            unfold setSize at h ⊢
            rw [hi] at h ⊢
            rw [if_neg h2] at h ⊢
            split
            · next e hg => rw [hg] at h; exact nomatch h
            · simp only; omega
          · rw [if_neg h4]; simp only; omega

theorem openPipes_all {s : Sys} (hs : s.Ok) {w : Nat} (hw : w = pipeMax s.page s.lim) :
    ∀ (l : List PipeSys) (done sizes : List Nat), openPipes s.page s.lim w l done = .all sizes →
      sizes = done ++ l.map (fun p => max p.size0 w) := by
  intro l
  induction l with
  | nil => intro done sizes h; simp only [openPipes, Opened.all.injEq] at h; simp [h]
  | cons p l ih =>
    intro done sizes h
    unfold openPipes at h
    split at h
    · next ho =>
      have := ih _ _ h
      rw [openPipe_ok hs hw ho] at this
      simpa using this
    · split at h <;> exact nomatch h

theorem openPipe_le {s : Sys} {p : PipeSys} {w : Nat} (hw : w = pipeMax s.page s.lim) :
    (openPipe s.page s.lim w p).1 ≤ max p.size0 w := by
  have hi := @pipeSize_idem s
  rw [← hw] at hi
  unfold openPipe
  split
  · simp only; omega
  · split
    · simp only; omega
    · unfold tryGrow setSize
      rw [hi, hi]
      (repeat' split) <;> simp only <;> omega

theorem openPipes_cannot {s : Sys} {w m : Nat} (hw : w = pipeMax s.page s.lim) (hm : w ≤ m) :
    ∀ (l : List PipeSys) (done sizes : List Nat), (∀ p ∈ l, p.size0 ≤ m) → (∀ x ∈ done, x ≤ m) →
      openPipes s.page s.lim w l done = .cannot sizes → ∀ x ∈ sizes, x ≤ m := by
  intro l
  induction l with
  | nil => intro done sizes _ _ h; exact nomatch h
  | cons p l ih =>
    intro done sizes hl hd h
    have hp : (openPipe s.page s.lim w p).1 ≤ m := by
      have := @openPipe_le s p w hw
      have := hl p List.mem_cons_self
      omega
    unfold openPipes at h
    split at h
    · refine ih _ _ (fun q hq => hl q (List.mem_cons_of_mem _ hq)) ?_ h
      intro x hx
      rcases List.mem_append.1 hx with hx | hx
      · exact hd x hx
      · simp only [List.mem_singleton] at hx; omega
    · split at h
      · cases h
        intro x hx
        rcases List.mem_append.1 hx with hx | hx
        · exact hd x hx
        · rcases List.mem_cons.1 hx with hx | hx
          · omega
          · obtain ⟨_, _, hx⟩ := List.mem_map.1 hx; omega
      · exact nomatch h

/-- The outcome of `silofs_fuseq_update` in full. -/
theorem update_ok {s : Sys} (hs : s.Ok) {u : Up} (h : update s = .ok u) :
    3 * s.page ≤ want s u.splice ∧ 8192 + s.page ≤ want s u.splice ∧
    u.conn = { buffsize := want s u.splice, maxWrite := want s u.splice - s.page, maxRead := want s u.splice - s.page,
               maxReadahead := want s u.splice - s.page, maxPages := want s u.splice / s.page - 1 } ∧
    (u.splice = true → s.splice = true ∧ u.sizes = s.pipes.map (fun p => max p.size0 (want s true))) ∧
    (u.splice = false → (∀ p ∈ s.pipes, p.size0 ≤ BUF) → ∀ x ∈ u.sizes, x ≤ BUF) := by
  unfold update at h
  rw [connInfo_eq hs, connInfo_eq hs] at h
  by_cases h1 : want s s.splice < 3 * s.page ∨ want s s.splice < 8192 + s.page
  · rw [if_pos h1] at h; exact nomatch h
  rw [if_neg h1] at h
  simp only at h
  by_cases h2 : s.splice = true
  · rw [if_pos h2] at h
    rw [h2] at h h1
    have hw : want s true = pipeMax s.page s.lim := rfl
    split at h
    · next sizes ho =>
      cases h
      have := openPipes_all hs hw _ _ _ ho
      dsimp only
      refine ⟨by omega, by omega, rfl, fun _ => ⟨h2, by simpa using this⟩, (nomatch ·)⟩
    · exact nomatch h
    · next sizes ho =>
      by_cases h3 : want s false < 3 * s.page ∨ want s false < 8192 + s.page
      · rw [if_pos h3] at h; exact nomatch h
      rw [if_neg h3] at h
      cases h
      dsimp only
      refine ⟨by omega, by omega, rfl, (nomatch ·), fun _ hp => ?_⟩
      exact openPipes_cannot hw (want_le hs true) _ _ _ hp (by simp) ho
  · rw [if_neg h2] at h
    cases h
    have h3 : s.splice = false := by simpa using h2
    rw [h3] at h1 ⊢
    dsimp only
    refine ⟨by omega, by omega, rfl, (nomatch ·), fun _ _ x hx => ?_⟩
    obtain ⟨_, _, hx⟩ := List.mem_map.1 hx; omega

/-! ## C73: sizes -/

/-- **C73.** Whenever the daemon gets ready to mount, on every supported page size, whatever the limit of pipes: its
buffers are a whole number of pages, fit the memory set aside for them and hold the largest request it allows, headers
and all; the number of pages it announces is exactly the data of that request; the limit of reads is the same; and the
mount service takes it. -/
theorem C73_sizes {s : Sys} (hs : s.Ok) {u : Up} (h : update s = .ok u) :
    s.page ∣ u.conn.buffsize ∧ 8192 ≤ u.conn.buffsize ∧ u.conn.buffsize ≤ 2097152 ∧
    u.conn.maxWrite + 80 ≤ u.conn.buffsize ∧ 8192 ≤ u.conn.maxWrite ∧
    u.conn.maxPages * s.page = u.conn.maxWrite ∧ u.conn.maxRead = u.conn.maxWrite ∧ u.conn.maxPages < 65536 ∧
    mountTakes s.page u.conn.maxRead = true := by
  have ⟨h1, h2, h3, _, _⟩ := update_ok hs h
  have hd := want_dvd hs u.splice
  have hl := want_le hs u.splice
  have hB : BUF = 2097152 := rfl
  have hp := page_cases hs.page
  rw [h3]
  dsimp only
  generalize want s u.splice = w at *
  generalize s.page = p at *
  have e : (w / p - 1) * p = w - p := by
    rw [Nat.sub_mul, Nat.div_mul_cancel hd, Nat.one_mul]
  have e2 : w / p ≤ 65535 := by rcases hp with h | h | h | h <;> subst h <;> omega
  refine ⟨hd, by omega, by omega, by omega, by omega, e, rfl, by omega, ?_⟩
  simp only [mountTakes, Bool.and_eq_true, Bool.not_eq_true', decide_eq_false_iff_not]
  omega

/-- The hypotheses are met: pages of 4K, the usual limit of 1M for pipes, two dispatchers whose pipes grow. -/
def sys4k : Sys := { page := 4096, lim := some 1048576, splice := true, pipes := [{ size0 := 65536 }, { size0 := 65536 }] }

theorem sys4k_ok : sys4k.Ok := ⟨by decide, by intro l h; cases h; decide⟩

def up4k : Up := { conn := { buffsize := 1048576, maxWrite := 1044480, maxRead := 1044480, maxReadahead := 1044480,
                             maxPages := 255 }, splice := true, sizes := [1048576, 1048576] }

theorem sys4k_up : update sys4k = .ok up4k := by
  have h : (match update sys4k with | .ok u => decide (u = up4k) | .error _ => false) = true := by decide +kernel
  split at h
  · next u hu => rw [hu, of_decide_eq_true h]
  · exact nomatch h

/-- **C73.** Without pipes the daemon always gets ready, with buffers of 2M. -/
theorem C73_starts {s : Sys} (hs : s.Ok) (h : s.splice = false) :
    ∃ u, update s = .ok u ∧ u.splice = false ∧ u.conn.buffsize = 2097152 := by
  unfold update
  rw [connInfo_eq hs, h]
  have hp := page_cases hs.page
  have hB : want s false = 2097152 := rfl
  rw [hB, if_neg (by omega)]
  exact ⟨{ conn := _, splice := false, sizes := _ }, rfl, rfl, rfl⟩

/-- With pipes it depends on the limit: **violated** when the administrator limits pipes to two pages. The mount is
refused, although it would work without pipes, and the fallback exists for a pipe that may not grow. -/
theorem C73_starts_violated :
    ({ sys4k with lim := some 8192 } : Sys).Ok ∧ update { sys4k with lim := some 8192 } = .error EPROTO ∧
    ∃ u, update { sys4k with lim := some 8192, splice := false } = .ok u := by
  refine ⟨⟨by decide, by intro l h; cases h; decide⟩, ?_, ?_⟩
  · have h : (match update { sys4k with lim := some 8192 } with | .ok _ => false | .error e => decide (e = EPROTO)) = true := by
      decide +kernel
    split at h
    · exact nomatch h
    · next e he => rw [he, of_decide_eq_true h]
  · have ⟨u, hu, _⟩ := C73_starts (s := { sys4k with lim := some 8192, splice := false })
      ⟨by decide, by intro l h; cases h; decide⟩ rfl
    exact ⟨u, hu⟩

/-! ## C73: capabilities -/

theorem and_pow_ne (k b : Nat) : (k &&& 2 ^ b ≠ 0) ↔ k.testBit b = true := by
  constructor
  · intro h
    cases hk : k.testBit b
    · exfalso; apply h
      apply Nat.eq_of_testBit_eq
      intro i
      rw [Nat.testBit_and, Nat.testBit_two_pow, Nat.zero_testBit]
      by_cases hi : b = i
      · subst hi; simp [hk]
      · simp [hi]
    · rfl
  · intro h h0
    have : (k &&& 2 ^ b).testBit b = true := by
      rw [Nat.testBit_and, Nat.testBit_two_pow, h]; simp
    rw [h0, Nat.zero_testBit] at this
    exact nomatch this

theorem capWant_bit (k w b i : Nat) :
    (capWant k w b).testBit i = (w.testBit i || (decide (i = b) && k.testBit i)) := by
  have e := and_pow_ne k b
  unfold capWant
  by_cases h : k.testBit b = true
  · rw [if_pos (e.2 h), Nat.testBit_or, Nat.testBit_two_pow]
    by_cases hi : i = b
    · subst hi; simp [h]
    · have : ¬ b = i := fun h => hi h.symm
      simp [hi, this]
  · rw [if_neg (fun h2 => h (e.1 h2))]
    by_cases hi : i = b
    · subst hi; simp [h]
    · simp [hi]

theorem foldl_bit (k i : Nat) : ∀ (l : List Nat) (w : Nat),
    (l.foldl (capWant k) w).testBit i = (w.testBit i || (decide (i ∈ l) && k.testBit i)) := by
  intro l
  induction l with
  | nil => intro w; simp
  | cons b l ih =>
    intro w
    rw [List.foldl_cons, ih, capWant_bit]
    by_cases h1 : i = b <;> by_cases h2 : i ∈ l <;> cases w.testBit i <;> cases k.testBit i <;> simp [h1, h2]

theorem doInit_ok {u : Up} {wback : Bool} {want : Nat} {i : InitIn} {o : InitOut}
    (h : doInit u wback want i = .ok o) :
    o = replyInit u.conn (initCaps wback i.flags want) ∧ i.major = 7 ∧ 34 ≤ i.minor := by
  unfold doInit checkInit at h
  by_cases h1 : i.major ≠ 7 ∨ i.minor < 34
  · rw [if_pos h1] at h; exact nomatch h
  · rw [if_neg h1] at h
    cases h
    exact ⟨rfl, by omega, by omega⟩

/-- **C73.** The capabilities the daemon accepts: exactly those of its list which the kernel offers, and BIG_WRITES; those
of write-back caching only if the mount asks for it. -/
theorem C73_flags {u : Up} {wback : Bool} {i : InitIn} {o : InitOut} (h : doInit u wback 0 i = .ok o) (b : Nat) :
    o.flags.testBit b = true ↔
      b = 5 ∨ (i.flags.testBit b = true ∧
        (b ∈ [0, 3, 4, 7, 9, 13, 14, 15, 18, 19, 22, 23, 29] ∨ (wback = true ∧ b ∈ [12, 16]))) := by
  obtain ⟨h, _⟩ := doInit_ok h
  subst h
  show (initCaps wback i.flags 0).testBit b = true ↔ _
  unfold initCaps
  rw [foldl_bit]
  have e : ((0 ||| 2 ^ BIG_WRITES).testBit b) = decide (5 = b) := by
    rw [Nat.zero_or, Nat.testBit_two_pow]; rfl
  rw [e]
  simp only [ASYNC_READ, ATOMIC_O_TRUNC, EXPORT_SUPPORT, SPLICE_WRITE, SPLICE_READ, PARALLEL_DIROPS, HANDLE_KILLPRIV,
    MAX_PAGES, CACHE_SYMLINKS, DO_READDIRPLUS, READDIRPLUS_AUTO, ASYNC_DIO, SETXATTR_EXT, AUTO_INVAL_DATA,
    WRITEBACK_CACHE]
  cases wback <;> simp <;> grind

/-- **C73.** Nothing is accepted that was not offered, but BIG_WRITES. -/
theorem C73_flags_offered {u : Up} {wback : Bool} {i : InitIn} {o : InitOut} (h : doInit u wback 0 i = .ok o) {b : Nat}
    (hb : o.flags.testBit b = true) : b = 5 ∨ i.flags.testBit b = true := by
  rcases (C73_flags h b).1 hb with hb | hb
  · exact Or.inl hb
  · exact Or.inr hb.1

/-- **C73.** The daemon never asks the kernel to enforce POSIX access lists, whatever is offered. -/
theorem C73_no_acl {u : Up} {wback : Bool} {i : InitIn} {o : InitOut} (h : doInit u wback 0 i = .ok o) :
    o.flags.testBit POSIX_ACL = false := by
  cases hb : o.flags.testBit POSIX_ACL
  · rfl
  · exact absurd ((C73_flags h _).1 hb) (by unfold POSIX_ACL; simp)

/-- **C73.** Writes stay visible at once to others: caching of writes in the kernel is off unless asked for. -/
theorem C73_no_writeback {u : Up} {i : InitIn} {o : InitOut} (h : doInit u false 0 i = .ok o) :
    o.flags.testBit WRITEBACK_CACHE = false := by
  cases hb : o.flags.testBit WRITEBACK_CACHE
  · rfl
  · exact absurd ((C73_flags h _).1 hb) (by unfold WRITEBACK_CACHE; simp)

/-- **C73.** Messages are received through pipes only if the kernel offered both ways of splicing. -/
theorem C73_splice_offered {u : Up} {wback : Bool} {i : InitIn} {o : InitOut} (h : doInit u wback 0 i = .ok o)
    {normal : Bool} {n : Nat} (ha : allowedSplice u o.flags normal n = true) :
    u.splice = true ∧ i.flags.testBit 7 = true ∧ i.flags.testBit 9 = true := by
  simp only [allowedSplice, Bool.and_eq_true, decide_eq_true_eq] at ha
  obtain ⟨⟨⟨h1, _⟩, _⟩, h4⟩ := ha
  have bit : ∀ b, (2 ^ SPLICE_READ ||| 2 ^ SPLICE_WRITE).testBit b = true → o.flags.testBit b = true := by
    intro b hb
    rw [← h4, Nat.testBit_and] at hb
    simp only [Bool.and_eq_true] at hb
    exact hb.1
  have off : ∀ b, b ≠ 5 → (2 ^ SPLICE_READ ||| 2 ^ SPLICE_WRITE).testBit b = true → i.flags.testBit b = true := by
    intro b h5 hb
    rcases C73_flags_offered h (bit b hb) with h | h
    · exact absurd h h5
    · exact h
  exact ⟨h1, off 7 (by decide) (by decide), off 9 (by decide) (by decide)⟩

/-- The kernels in use offer every capability up to SETXATTR_EXT. -/
def init740 : InitIn := { major := 7, minor := 40, flags := 2 ^ 30 - 1 }

theorem init740_ok (u : Up) : ∃ o, doInit u false 0 init740 = .ok o ∧ o.flags.testBit MAX_PAGES = true := by
  have h : doInit u false 0 init740 = .ok (replyInit u.conn (initCaps false init740.flags 0)) := rfl
  exact ⟨_, h, (C73_flags h _).2 (Or.inr ⟨by decide, Or.inl (by decide)⟩)⟩

/-! ## C73: requests -/

theorem pages_le {s : Sys} (hs : s.Ok) {u : Up} (h : update s = .ok u) {wback : Bool} {w0 : Nat} {i : InitIn}
    {o : InitOut} (ho : doInit u wback w0 i = .ok o) (hf : o.flags.testBit MAX_PAGES = true) (k : Kern) :
    k.pages o = min k.limit u.conn.maxPages ∧ o.maxPages = u.conn.maxPages ∧ o.maxWrite = u.conn.maxWrite := by
  have hz := C73_sizes hs h
  obtain ⟨ho, _⟩ := doInit_ok ho
  subst ho
  have e : (replyInit u.conn (initCaps wback i.flags w0)).maxPages = u.conn.maxPages := by
    have e2 : (initCaps wback i.flags w0 &&& 2 ^ MAX_PAGES ≠ 0) := (and_pow_ne _ _).2 hf
    show (if _ then _ else _) = _
    rw [if_pos e2]; omega
  refine ⟨?_, e, rfl⟩
  unfold Kern.pages
  have hf2 : (replyInit u.conn (initCaps wback i.flags w0)).flags.testBit 22 = true := hf
  rw [if_pos hf2, e]
  have : u.conn.maxPages ≠ 0 := by
    intro h0; have := hz.2.2.2.2.2.1; rw [h0] at this; omega
  omega

theorem sends_len {s : Sys} (hs : s.Ok) {u : Up} (h : update s = .ok u) {wback : Bool} {w0 : Nat} {i : InitIn}
    {o : InitOut} (ho : doInit u wback w0 i = .ok o) (k : Kern)
    (hk : k.On s u) {r : Req} (hr : k.Sends o r) : r.len ≤ u.conn.maxWrite ∧ r.msg ≤ 80 + u.conn.maxWrite := by
  have hz := C73_sizes hs h
  obtain ⟨ho, _⟩ := doInit_ok ho
  have e3 : o.maxWrite = u.conn.maxWrite := by rw [ho]; rfl
  cases r with
  | read len =>
    simp only [Kern.Sends, Req.len, Req.msg] at hr ⊢
    have := hk.read
    omega
  | write len pages =>
    simp only [Kern.Sends, Req.len, Req.msg] at hr ⊢
    omega

/-- **C73.** Every READ and WRITE which the kernel may send after the answer to INIT is received whole into the buffer the
daemon reads with, and passes the checks of its header. -/
theorem C73_received {s : Sys} (hs : s.Ok) {u : Up} (h : update s = .ok u) {wback : Bool} {w0 : Nat} {i : InitIn}
    {o : InitOut} (ho : doInit u wback w0 i = .ok o) (k : Kern) (hk : k.On s u) {r : Req} (hr : k.Sends o r) :
    Kern.read o u.conn.buffsize r = .got r.msg ∧ checkInhdr u.conn r.msg r.msg true = none := by
  have hz := C73_sizes hs h
  have hl := sends_len hs h ho k hk hr
  obtain ⟨ho, _⟩ := doInit_ok ho
  have e3 : o.maxWrite = u.conn.maxWrite := by rw [ho]; rfl
  refine ⟨?_, ?_⟩
  · unfold Kern.read
    rw [if_neg (by omega), if_neg (by omega)]
  · unfold checkInhdr
    have : 80 ≤ r.msg := by cases r <;> simp only [Req.msg] <;> omega
    rw [if_neg (by unfold HDR; omega), if_neg (by omega), if_neg (by simp)]

/-- **C73.** The daemon neither shortens a read (the reader would take it for the end of the file) nor a write. -/
theorem C73_whole {s : Sys} (hs : s.Ok) {u : Up} (h : update s = .ok u) {wback : Bool} {w0 : Nat} {i : InitIn}
    {o : InitOut} (ho : doInit u wback w0 i = .ok o) (k : Kern) (hk : k.On s u) :
    (∀ len, k.Sends o (.read len) → readLen u.conn len = len) ∧
    (∀ len pages iter, k.Sends o (.write len pages) → writeLen u.conn iter len = len) := by
  have hz := C73_sizes hs h
  refine ⟨fun len hr => ?_, fun len pages iter hr => ?_⟩
  · have := (sends_len hs h ho k hk hr).1
    unfold readLen
    simp only [Req.len] at this
    omega
  · have := (sends_len hs h ho k hk hr).1
    unfold writeLen
    simp only [Req.len] at this
    split <;> omega

/-- **C73.** When messages go through pipes, every pipe has the size of the buffers, unless it was larger to begin with;
then a kernel which knows MAX_PAGES never sends a message with more pages than the pipe has buffers, and all of it
arrives. -/
theorem C73_spliced {s : Sys} (hs : s.Ok) {u : Up} (h : update s = .ok u) (hsp : u.splice = true)
    (hp : ∀ p ∈ s.pipes, p.size0 ≤ u.conn.buffsize) {wback : Bool} {w0 : Nat} {i : InitIn}
    {o : InitOut} (ho : doInit u wback w0 i = .ok o) (hf : o.flags.testBit MAX_PAGES = true) (k : Kern) (hk : k.On s u) :
    u.sizes = s.pipes.map (fun _ => u.conn.buffsize) ∧
    ∀ size ∈ u.sizes, checkPipePre u.conn size = none ∧
      ∀ r, k.Sends o r → Kern.splice k o u.conn.buffsize size r = .got r.msg := by
  have ⟨h1, h2, h3, h4, _⟩ := update_ok hs h
  have hb : u.conn.buffsize = want s true := by rw [h3, hsp]
  have e : u.sizes = s.pipes.map (fun _ => u.conn.buffsize) := by
    rw [(h4 hsp).2]
    apply List.map_congr_left
    intro p hpp
    have := hp p hpp
    omega
  refine ⟨e, fun size hsz => ?_⟩
  have hsz2 : size = u.conn.buffsize := by
    rw [e] at hsz
    obtain ⟨_, _, hx⟩ := List.mem_map.1 hsz
    exact hx.symm
  refine ⟨by unfold checkPipePre; rw [if_neg (by omega)], fun r hr => ?_⟩
  unfold Kern.splice
  rw [(C73_received hs h ho k hk hr).1]
  have hpg := pages_le hs h ho hf k
  have hmp : u.conn.maxPages = want s true / s.page - 1 := by rw [h3, hsp]
  have hge : 3 ≤ want s true / s.page := by
    rw [hsp] at h1
    have : 0 < s.page := by rcases page_cases hs.page with h | h | h | h <;> omega
    rw [Nat.le_div_iff_mul_le this]; omega
  have hslots : r.slots ≤ size / k.page := by
    rw [hsz2, hb, hk.page]
    cases r with
    | read len => simp only [Req.slots]; omega
    | write len pages =>
      simp only [Kern.Sends, Req.slots] at hr ⊢
      omega
  simp only
  rw [if_neg (by omega)]

/-- All hypotheses of the theorems above are met, and the kernel does send something: on a system with pages of 4K it sends
a WRITE of 255 pages, the largest it may, which arrives through a pipe. -/
example : ∃ o, doInit up4k false 0 init740 = .ok o ∧ o.flags.testBit MAX_PAGES = true ∧
    ∃ k : Kern, k.On sys4k up4k ∧ k.Sends o (.write 1044480 255) ∧
      Kern.splice k o up4k.conn.buffsize 1048576 (.write 1044480 255) = .got 1044560 := by
  obtain ⟨o, ho, hf⟩ := init740_ok up4k
  have hk : Kern.On { page := 4096, limit := 256, mountRead := 1044480 } sys4k up4k := ⟨rfl, rfl⟩
  have hp := pages_le sys4k_ok sys4k_up ho hf { page := 4096, limit := 256, mountRead := 1044480 }
  have hs : Kern.Sends { page := 4096, limit := 256, mountRead := 1044480 } o (.write 1044480 255) := by
    simp only [Kern.Sends]
    rw [hp.1, hp.2.2]
    decide
  refine ⟨o, ho, hf, _, hk, hs, ?_⟩
  exact ((C73_spliced sys4k_ok sys4k_up rfl (by decide) ho hf _ hk).2 1048576 (by decide)).2 _ hs

/-- **Violated** when a pipe is larger to begin with than the limit (the limit was lowered below 64K and the daemon runs
with CAP_SYS_RESOURCE): the daemon mounts, and then refuses to receive any request through that dispatcher. -/
theorem C73_pipe_violated {s : Sys} (hs : s.Ok) {u : Up} (h : update s = .ok u) (hsp : u.splice = true)
    {p : PipeSys} (hp : p ∈ s.pipes) (hb : u.conn.buffsize < p.size0) :
    ∃ size ∈ u.sizes, checkPipePre u.conn size = some EIO := by
  have ⟨h1, h2, h3, h4, _⟩ := update_ok hs h
  refine ⟨max p.size0 (want s true), ?_, ?_⟩
  · rw [(h4 hsp).2]
    exact List.mem_map.2 ⟨p, hp, rfl⟩
  · unfold checkPipePre
    rw [if_pos (by omega)]

/-- The case exists: a limit of 32K and pipes of 64K. -/
example : ({ sys4k with lim := some 32768 } : Sys).Ok ∧
    (match update { sys4k with lim := some 32768 } with
      | .ok u => u.splice && decide (u.conn.buffsize < 65536) | .error _ => false) = true :=
  ⟨⟨by decide, by intro l h; cases h; decide⟩, by decide +kernel⟩

/-- **C73.** Which systems keep the promise of the sizes: every READ and WRITE the kernel may send passes the check of its
length if and only if the data of one request, the smaller of the kernel's and the daemon's number of pages, is not
above 2M - 64K. -/
theorem C73_accepted_iff {s : Sys} (hs : s.Ok) {u : Up} (h : update s = .ok u) {wback : Bool} {w0 : Nat} {i : InitIn}
    {o : InitOut} (ho : doInit u wback w0 i = .ok o) (hf : o.flags.testBit MAX_PAGES = true) (k : Kern) (hk : k.On s u) :
    (∀ r, k.Sends o r → checkIoLen r.len = none) ↔ min k.limit u.conn.maxPages * s.page ≤ 2031616 := by
  have hz := C73_sizes hs h
  have hpg := pages_le hs h ho hf k
  have hI : IOMAX = 2031616 := rfl
  have hmul : min k.limit u.conn.maxPages * s.page ≤ u.conn.maxWrite := by
    rw [← hz.2.2.2.2.2.1]
    exact Nat.mul_le_mul_right _ (by omega)
  constructor
  · intro hall
    by_cases h0 : min k.limit u.conn.maxPages * s.page = 0
    · omega
    have hs1 : k.Sends o (.write (min k.limit u.conn.maxPages * s.page) (min k.limit u.conn.maxPages)) := by
      simp only [Kern.Sends]
      rw [hpg.1, hk.page]
      exact ⟨by omega, by omega, Nat.le_refl _, Nat.le_refl _⟩
    have : checkIoLen (min k.limit u.conn.maxPages * s.page) = none := hall _ hs1
    unfold checkIoLen at this
    by_cases hx : min k.limit u.conn.maxPages * s.page > IOMAX
    · rw [if_pos hx] at this; exact nomatch this
    · omega
  · intro hle r hr
    have : r.len ≤ min k.limit u.conn.maxPages * s.page := by
      cases r with
      | read len =>
        simp only [Kern.Sends, Req.len] at hr ⊢
        rw [hpg.1, hk.page] at hr; exact hr.2.2
      | write len pages =>
        simp only [Kern.Sends, Req.len] at hr ⊢
        rw [hpg.1, hk.page] at hr
        exact Nat.le_trans hr.2.2.2 (Nat.mul_le_mul_right _ hr.2.2.1)
    unfold checkIoLen
    rw [if_neg (by omega)]

/-- **C73.** It is kept with pages of 64K, with buffers of up to 1M (the usual limit of pipes), and with pages of 4K and
the kernel's default of 256 pages. -/
theorem C73_accepted_partial {s : Sys} (hs : s.Ok) {u : Up} (h : update s = .ok u) {wback : Bool} {w0 : Nat}
    {i : InitIn} {o : InitOut} (ho : doInit u wback w0 i = .ok o) (hf : o.flags.testBit MAX_PAGES = true) (k : Kern)
    (hk : k.On s u)
    (hc : s.page = 65536 ∨ u.conn.buffsize ≤ 1048576 ∨ (s.page = 4096 ∧ k.limit ≤ 256)) {r : Req} (hr : k.Sends o r) :
    checkIoLen r.len = none := by
  refine (C73_accepted_iff hs h ho hf k hk).2 ?_ r hr
  have hz := C73_sizes hs h
  have h3 := (update_ok hs h).2.2.1
  have hmul : min k.limit u.conn.maxPages * s.page ≤ u.conn.maxWrite := by
    rw [← hz.2.2.2.2.2.1]
    exact Nat.mul_le_mul_right _ (by omega)
  rcases hc with hc | hc | hc
  · have : u.conn.maxWrite = u.conn.buffsize - s.page := by rw [h3]
    omega
  · omega
  · have : min k.limit u.conn.maxPages * s.page ≤ 256 * 4096 := by
      rw [hc.1]; exact Nat.mul_le_mul_right _ (by omega)
    omega

/-- **Violated** elsewhere: pages of 16K, no pipes, a kernel with its default of 256 pages. The daemon announces writes of
2M - 16K and refuses one of them with EINVAL. -/
def sys16k : Sys := { page := 16384, lim := some 1048576, splice := false, pipes := [{ size0 := 65536 }] }

theorem C73_accepted_violated : sys16k.Ok ∧ ∃ u o, update sys16k = .ok u ∧ doInit u false 0 init740 = .ok o ∧
    o.maxWrite = 2080768 ∧
    ∃ k : Kern, k.On sys16k u ∧ k.limit = 256 ∧ k.Sends o (.write 2080768 127) ∧
      writeLen u.conn true 2080768 = 2080768 ∧ checkIoLen (writeLen u.conn true 2080768) = some EINVAL := by
  have hs : sys16k.Ok := ⟨by decide, by intro l h; cases h; decide⟩
  refine ⟨hs, ?_⟩
  have ⟨u, hu, hsp, _⟩ := C73_starts hs rfl
  obtain ⟨o, ho, hf⟩ := init740_ok u
  have h3 := (update_ok hs hu).2.2.1
  rw [hsp] at h3
  have hw : u.conn.maxWrite = 2080768 := by rw [h3]; rfl
  have hm : u.conn.maxPages = 127 := by rw [h3]; rfl
  have hk : Kern.On { page := 16384, limit := 256, mountRead := u.conn.maxRead } sys16k u := ⟨rfl, rfl⟩
  have hp := pages_le hs hu ho hf { page := 16384, limit := 256, mountRead := u.conn.maxRead }
  have hwl : writeLen u.conn true 2080768 = 2080768 := by unfold writeLen; rw [if_pos rfl, hw]; rfl
  refine ⟨u, o, hu, ho, by omega, _, hk, rfl, ?_, hwl, by rw [hwl]; rfl⟩
  simp only [Kern.Sends]
  rw [hp.1, hp.2.2, hw, hm]
  dsimp only
  decide

/-- The same with pages of 4K once the administrator raises the kernel's limit to 497 pages
or more: the longest requests fail. -/
theorem C73_limit_violated {s : Sys} (hs : s.Ok) (hp : s.page = 4096) (hsp : s.splice = false) {u : Up}
    (h : update s = .ok u) {wback : Bool} {w0 : Nat} {i : InitIn} {o : InitOut} (ho : doInit u wback w0 i = .ok o)
    (hf : o.flags.testBit MAX_PAGES = true) (k : Kern) (hk : k.On s u) (hl : 497 ≤ k.limit) :
    ∃ r, k.Sends o r ∧ checkIoLen r.len ≠ none := by
  have hn : ¬ (∀ r, k.Sends o r → checkIoLen r.len = none) := by
    rw [C73_accepted_iff hs h ho hf k hk, hp]
    have ⟨u2, hu2, hsp2, _⟩ := C73_starts hs hsp
    rw [h] at hu2; cases hu2
    have h3 := (update_ok hs h).2.2.1
    rw [hsp2] at h3
    have hm : u.conn.maxPages = 511 := by rw [h3]; show want s false / s.page - 1 = _; rw [hp]; show 2097152 / 4096 - 1 = 511; decide
    rw [hm]
    intro hle
    have : 497 * 4096 ≤ min k.limit 511 * 4096 := Nat.mul_le_mul_right _ (by omega)
    omega
  exact Classical.byContradiction fun hc => hn fun r hr => Classical.byContradiction fun h2 => hc ⟨r, hr, h2⟩

/-! ## C73: EXPORT_SUPPORT -/

/-- **Violated:** the daemon promises EXPORT_SUPPORT whenever it is offered: that it answers LOOKUP of "." and "..". It
never does so, in any directory of any file-system whose directories have only names an application may give. -/
theorem C73_export_violated {u : Up} {wback : Bool} {i : InitIn} {o : InitOut} (h : doInit u wback 0 i = .ok o)
    (hoff : i.flags.testBit EXPORT_SUPPORT = true) (s : Ns.Fs)
    (hs : ∀ e ∈ s.ents, e.name ≠ dot ∧ e.name ≠ dotdot) (cr : Ns.Cred) (d : Nat) :
    o.flags.testBit EXPORT_SUPPORT = true ∧
    (∀ c, lookup s cr d dot ≠ .ok c) ∧ (∀ c, lookup s cr d dotdot ≠ .ok c) := by
  have hl : ∀ n, (n = dot ∨ n = dotdot) → s.look d n = none := by
    intro n hn
    unfold Ns.Fs.look
    rw [List.find?_eq_none.2 ?_]
    · rfl
    · intro e he
      have := hs e he
      simp only [Bool.and_eq_true, beq_iff_eq, not_and]
      intro _ h2
      rcases hn with hn | hn <;> rw [hn] at h2
      · exact this.1 h2
      · exact this.2 h2
  have hk : ∀ n, (n = dot ∨ n = dotdot) → ∀ c, lookup s cr d n ≠ .ok c := by
    intro n hn c hc
    unfold lookup at hc
    split at hc
    · exact nomatch hc
    · split at hc
      · exact nomatch hc
      · split at hc
        · exact nomatch hc
        · unfold Ns.Fs.stageByName at hc
          rw [hl n hn] at hc
          exact nomatch hc
  exact ⟨(C73_flags h _).2 (Or.inr ⟨hoff, Or.inl (by decide)⟩), hk _ (Or.inl rfl), hk _ (Or.inr rfl)⟩

/-- LOOKUP of a name that is there works. -/
example : lookup { ino := fun i => if i = 1 then some { attr := { kind := .dir, perm := 0o777, uid := 0, gid := 0 }, nlink := 2, parent := 1 }
                     else if i = 2 then some { attr := { kind := .reg, perm := 0o777, uid := 0, gid := 0 }, nlink := 1, parent := 1 } else none,
                   ents := [⟨1, [97], 2⟩], writable := true, iopen := 0, iopenMax := 10 }
    { uid := 0, gid := 0, host := 0 } 1 [97] = .ok 2 := rfl

/-! ## Which error makes the daemon do without pipes -/

/-- What opening the pipes comes to is decided by the first error. -/
theorem openPipes_first (page : Nat) (lim : Option Nat) (w : Nat) : ∀ (ps : List PipeSys) (done : List Nat),
    match (ps.filterMap fun p => (openPipe page lim w p).2).head? with
    | none => ∃ l, openPipes page lim w ps done = .all l
    | some e => if e = 1 then ∃ l, openPipes page lim w ps done = .cannot l
        else openPipes page lim w ps done = .fail e
  | [], done => ⟨done, rfl⟩
  | p :: rest, done => by
    have ih := openPipes_first page lim w rest (done ++ [(openPipe page lim w p).1])
    unfold openPipes
    cases h : (openPipe page lim w p).2 with
    | none =>
      rw [List.filterMap_cons_none (f := fun p => (openPipe page lim w p).2) h]
      exact ih
    | some e =>
      rw [List.filterMap_cons_some (f := fun p => (openPipe page lim w p).2) h]
      simp only [List.head?_cons]
      by_cases he : e = 1
      · have hE : e = EPERM := he
        rw [if_pos he]
        simp only [hE, if_true]
        exact ⟨_, rfl⟩
      · have hE : e ≠ EPERM := he
        rw [if_neg he, if_neg hE]

/-- **C73**: with pipes asked for, the first error of opening them decides:
without an error pipes are used; lack of permission (errno 1), the error of a
pipe that may not grow, makes the daemon do without; any other error refuses
the mount with that error. -/
theorem C73_fallback {s : Sys} (hsp : s.splice = true) {c : Conn}
    (hc : connInfo s.page s.lim true = .ok c) :
    match (s.pipes.filterMap fun p => (openPipe s.page s.lim c.buffsize p).2).head? with
    | none => ∃ u, update s = .ok u ∧ u.splice = true
    | some e =>
      if e = 1 then ∀ u, update s = .ok u → u.splice = false
      else update s = .error e := by
  have h := openPipes_first s.page s.lim c.buffsize s.pipes []
  unfold update
  rw [hsp, hc]
  simp only [if_true]
  cases hh : (s.pipes.filterMap fun p => (openPipe s.page s.lim c.buffsize p).2).head? with
  | none =>
    rw [hh] at h
    obtain ⟨l, hl⟩ := h
    simp only [hl]
    exact ⟨_, rfl, rfl⟩
  | some e =>
    rw [hh] at h
    simp only at h ⊢
    by_cases he : e = 1
    · rw [if_pos he] at h ⊢
      obtain ⟨l, hl⟩ := h
      intro u hu
      rw [hl] at hu
      simp only at hu
      split at hu
      · exact nomatch hu
      · cases hu; rfl
    · rw [if_neg he] at h ⊢
      rw [h]

/-- A pipe that may not grow: the daemon does without and keeps a mount. -/
example : (match update ⟨4096, some 1048576, true,
      [⟨none, 65536, some 1⟩, ⟨none, 65536, none⟩]⟩ with
    | .ok u => u.splice == false
    | .error _ => false) = true := by decide +kernel

/-- Too many open files: the mount is refused with that error. -/
example : (match update ⟨4096, some 1048576, true,
      [⟨some 24, 65536, none⟩, ⟨none, 65536, some 1⟩]⟩ with
    | .ok _ => false
    | .error e => e == 24) = true := by decide +kernel

end Silofs.Cn
