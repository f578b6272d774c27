import Verif.Spec.Sysio
/-
C53: what the file-system hands to storage arrives there byte for byte, and comes back so,
however the kernel cuts the transfers.
-/
set_option linter.unusedSimpArgs false
namespace Silofs.Sysio

theorem File.ext' {f g : File} (h : f.size = g.size) (h2 : ∀ i, f.byte i = g.byte i) : f = g := by
  cases f; cases g; simp only [File.mk.injEq]; exact ⟨h, funext h2⟩

theorem put_nil (f : File) (off : Nat) : f.put off [] = f := by
  apply File.ext'
  · simp [File.put]
  · intro i; simp [File.put]

theorem put_wrote (f : File) (off : Nat) (l : List Byte) : Wrote f off l (f.put off l) := by
  refine ⟨rfl, ?_, ?_⟩
  · intro i b h
    simp [File.put, h]
  · intro i h
    show (if off ≤ i then _ else _) = _
    by_cases h1 : off ≤ i
    · rw [if_pos h1, List.getElem?_eq_none (by omega)]; rfl
    · rw [if_neg h1]

/-- The specification determines the file. -/
theorem wrote_unique (f : File) (off : Nat) (l : List Byte) (f1 f2 : File) (h1 : Wrote f off l f1) (h2 : Wrote f off l f2) : f1 = f2 := by
  obtain ⟨a1, b1, c1⟩ := h1
  obtain ⟨a2, b2, c2⟩ := h2
  apply File.ext'
  · rw [a1, a2]
  · intro i
    by_cases hi : i < off ∨ off + l.length ≤ i
    · rw [c1 i hi, c2 i hi]
    · have : i = off + (i - off) := by omega
      rw [this, b1 (i - off) _ (List.getElem?_eq_getElem (by omega)), b2 (i - off) _ (List.getElem?_eq_getElem (by omega))]

theorem put_put (f : File) (off : Nat) (a b : List Byte) : (f.put off a).put (off + a.length) b = f.put off (a ++ b) := by
  apply File.ext'
  · by_cases ha : a = [] <;> by_cases hb : b = []
    · simp [File.put, ha, hb]
    · simp [File.put, ha, hb]
    · simp [File.put, ha, hb]
    · have : a ++ b ≠ [] := by simp [ha]
      simp only [File.put, ha, hb, this, if_false, List.length_append]
      omega
  · intro i
    simp only [File.put]
    by_cases h1 : off + a.length ≤ i
    · rw [if_pos h1, if_pos (by omega), if_pos (by omega), List.getElem?_append_right (by omega)]
      rw [show i - (off + a.length) = i - off - a.length from by omega]
      rw [List.getElem?_eq_none (l := a) (by omega)]
      rfl
    · rw [if_neg h1]
      by_cases h2 : off ≤ i
      · rw [if_pos h2, if_pos h2, List.getElem?_append_left (by omega)]
      · rw [if_neg h2, if_neg h2]

theorem ioStatus_ok {e a b : Nat} (h : ioStatus e a b = .ok) : e = 0 ∧ a = b := by
  unfold ioStatus at h
  split at h
  · cases h
  · split at h
    · cases h
    · omega

/-! ### Single buffers -/

theorem pwriten_loop (buf : List Byte) (off : Nat) (f : File) (as : List Ans) :
    ∀ nwr, nwr ≤ buf.length →
      (∃ k, nwr ≤ k ∧ k ≤ buf.length ∧
        (pwritenLoop buf off as nwr (f.put off (buf.take nwr))).2 = f.put off (buf.take k) ∧
        ((pwritenLoop buf off as nwr (f.put off (buf.take nwr))).1 = .ok ↔ k = buf.length)) ∧
      (pwritenLoop buf off as nwr (f.put off (buf.take nwr))).1 ≠ .undef ∧
      (Steady as → (pwritenLoop buf off as nwr (f.put off (buf.take nwr))).1 = .ok) := by
  induction as with
  | nil =>
    intro nwr hn
    unfold pwritenLoop
    by_cases h : nwr < buf.length
    · rw [if_pos h]
      try dsimp only
      refine ⟨⟨buf.length, hn, Nat.le_refl _, ?_, ?_⟩, ?_, fun _ => by simp [ioStatus]⟩
      · have := put_put f off (buf.take nwr) (buf.drop nwr)
        rw [List.length_take, Nat.min_eq_left hn, List.take_append_drop] at this
        rw [this, List.take_length]
      · simp [ioStatus]
      · simp [ioStatus]
    · rw [if_neg h]
      try dsimp only
      have : nwr = buf.length := by omega
      subst this
      exact ⟨⟨buf.length, Nat.le_refl _, Nat.le_refl _, rfl, by simp [ioStatus]⟩, by simp [ioStatus], fun _ => by simp [ioStatus]⟩
  | cons a as ih =>
    intro nwr hn
    unfold pwritenLoop
    by_cases h : nwr < buf.length
    · rw [if_pos h]
      try dsimp only
      cases a with
      | intr =>
        obtain ⟨h1, h2, h3⟩ := ih nwr hn
        exact ⟨h1, h2, fun hs => h3 (fun x hx => hs x (List.mem_cons_of_mem _ hx))⟩
      | fail e =>
        refine ⟨⟨nwr, Nat.le_refl _, hn, rfl, ?_⟩, ?_, ?_⟩
        · constructor
          · intro h0; exact (ioStatus_ok h0).2
          · intro h0; omega
        · show ioStatus _ _ _ ≠ _
          unfold ioStatus; split
          · simp
          · split <;> simp
        · intro hs
          rcases hs _ (List.mem_cons_self ..) with h0 | ⟨n, _, h0⟩ <;> cases h0
      | upto n =>
        dsimp only
        by_cases h0 : min n (buf.length - nwr) = 0
        · rw [if_pos h0]
          try dsimp only
          refine ⟨⟨nwr, Nat.le_refl _, hn, rfl, ?_⟩, ?_, ?_⟩
          · constructor
            · intro h1; exact (ioStatus_ok h1).2
            · intro h1; omega
          · show ioStatus _ _ _ ≠ _
            unfold ioStatus; split
            · simp
            · split <;> simp
          · intro hs
            rcases hs _ (List.mem_cons_self ..) with h1 | ⟨m, hm, h1⟩
            · cases h1
            · cases h1; omega
        · rw [if_neg h0]
          try dsimp only
          have hle : nwr + min n (buf.length - nwr) ≤ buf.length := by omega
          have hput : (f.put off (buf.take nwr)).put (off + nwr) ((buf.drop nwr).take (min n (buf.length - nwr))) =
              f.put off (buf.take (nwr + min n (buf.length - nwr))) := by
            have := put_put f off (buf.take nwr) ((buf.drop nwr).take (min n (buf.length - nwr)))
            rw [List.length_take, Nat.min_eq_left hn] at this
            rw [this, List.take_add]
          rw [hput]
          obtain ⟨⟨k, k1, k2, k3, k4⟩, h2, h3⟩ := ih _ hle
          exact ⟨⟨k, by omega, k2, k3, k4⟩, h2, fun hs => h3 (fun x hx => hs x (List.mem_cons_of_mem _ hx))⟩
    · rw [if_neg h]
      try dsimp only
      have : nwr = buf.length := by omega
      subst this
      exact ⟨⟨buf.length, Nat.le_refl _, Nat.le_refl _, rfl, by simp [ioStatus]⟩, by simp [ioStatus], fun _ => by simp [ioStatus]⟩

theorem pwriten_spec (f : File) (buf : List Byte) (off : Nat) (as : List Ans) :
    (∃ k, k ≤ buf.length ∧ (pwriten f buf off as).2 = f.put off (buf.take k) ∧ ((pwriten f buf off as).1 = .ok ↔ k = buf.length)) ∧
    (pwriten f buf off as).1 ≠ .undef ∧ (Steady as → (pwriten f buf off as).1 = .ok) := by
  obtain ⟨⟨k, _, k2, k3, k4⟩, h2, h3⟩ := pwriten_loop buf off f as 0 (Nat.zero_le _)
  rw [List.take_zero, put_nil] at k3 k4 h2 h3
  exact ⟨⟨k, k2, k3, k4⟩, h2, h3⟩

/-- C53: a write of one buffer that reports success has put exactly the bytes of the buffer at
their place, whatever short counts and interruptions the kernel came up with. -/
theorem C53_write (f : File) (buf : List Byte) (off : Nat) (as : List Ans) (f' : File)
    (h : pwriten f buf off as = (.ok, f')) : Wrote f off buf f' := by
  obtain ⟨⟨k, k2, k3, k4⟩, -, -⟩ := pwriten_spec f buf off as
  rw [h] at k3 k4
  have : k = buf.length := k4.mp rfl
  subst this
  rw [List.take_length] at k3
  have := put_wrote f off buf
  rwa [← k3] at this

/-- C53: when it reports an error, what is in the file is a beginning of the buffer and nothing
outside of its place was touched. -/
theorem C53_write_failed (f : File) (buf : List Byte) (off : Nat) (as : List Ans) (r : Res) (f' : File)
    (h : pwriten f buf off as = (r, f')) (hr : r ≠ .ok) :
    (∃ e, r = .err e) ∧ ∃ k, k < buf.length ∧ Wrote f off (buf.take k) f' := by
  obtain ⟨⟨k, k2, k3, k4⟩, h2, -⟩ := pwriten_spec f buf off as
  rw [h] at k3 k4 h2
  constructor
  · cases r with
    | ok => exact absurd rfl hr
    | err e => exact ⟨e, rfl⟩
    | undef => exact absurd rfl h2
  · refine ⟨k, ?_, ?_⟩
    · rcases Nat.lt_or_ge k buf.length with h0 | h0
      · exact h0
      · exact absurd (k4.mpr (by omega)) hr
    · have := put_wrote f off (buf.take k)
      rwa [← k3] at this

/-- C53: and it does report success when the kernel has no error to report. -/
theorem C53_write_succeeds (f : File) (buf : List Byte) (off : Nat) (as : List Ans) (h : Steady as) :
    (pwriten f buf off as).1 = .ok := (pwriten_spec f buf off as).2.2 h

/-! ### Reading -/

theorem get_length (f : File) (off n : Nat) : (f.get off n).length = min n (f.size - off) := by
  simp [File.get]

theorem get_get (f : File) (off n : Nat) (i b : Nat) (h : (f.get off n)[i]? = some b) : f.byte (off + i) = b := by
  simp only [File.get, List.getElem?_map, Option.map_eq_some_iff] at h
  obtain ⟨j, h1, h2⟩ := h
  obtain ⟨h3, h4⟩ := List.getElem?_eq_some_iff.mp h1
  rw [List.getElem_range] at h4
  rw [h4, h2]

/-- The bytes read so far are those of the file. -/
def Got (f : File) (off : Nat) (got : List Byte) : Prop :=
  (got ≠ [] → off + got.length ≤ f.size) ∧ ∀ i b, got[i]? = some b → f.byte (off + i) = b

theorem got_append (f : File) (off n : Nat) (got : List Byte) (h : Got f off got) :
    Got f off (got ++ f.get (off + got.length) n) := by
  refine ⟨?_, ?_⟩
  · intro h0
    rw [List.length_append, get_length]
    by_cases hg : got = []
    · subst hg
      simp only [List.length_nil, Nat.add_zero, Nat.zero_add, List.nil_append] at h0 ⊢
      have h1 : (f.get off n).length ≠ 0 := by simpa using h0
      rw [get_length] at h1
      omega
    · have := h.1 hg
      omega
  · intro i b hi
    by_cases h1 : i < got.length
    · rw [List.getElem?_append_left h1] at hi
      exact h.2 i b hi
    · rw [List.getElem?_append_right (by omega)] at hi
      have := get_get f (off + got.length) n _ _ hi
      rw [show off + got.length + (i - got.length) = off + i from by omega] at this
      exact this

theorem preadn_loop (f : File) (cnt off : Nat) (as : List Ans) :
    ∀ got, got.length ≤ cnt → Got f off got →
      ((preadnLoop f cnt off as got).1 = .ok → (preadnLoop f cnt off as got).2.length = cnt) ∧
      (preadnLoop f cnt off as got).1 ≠ .undef ∧
      Got f off (preadnLoop f cnt off as got).2 ∧
      (Steady as → off + cnt ≤ f.size → (preadnLoop f cnt off as got).1 = .ok) := by
  have hne : ∀ a b c, ioStatus a b c ≠ .undef := by
    intro a b c; unfold ioStatus; split
    · simp
    · split <;> simp
  induction as with
  | nil =>
    intro got hg hG
    unfold preadnLoop
    by_cases h : got.length < cnt
    · rw [if_pos h]
      try dsimp only
      refine ⟨?_, (by exact hne _ _ _), got_append f off _ got hG, ?_⟩
      · intro h0
        have := (ioStatus_ok h0).2
        simpa [List.length_append] using this
      · intro _ hs
        show ioStatus _ _ _ = _
        have : got.length + (f.get (off + got.length) (cnt - got.length)).length = cnt := by rw [get_length]; omega
        simp [ioStatus, this]
    · rw [if_neg h]
      try dsimp only
      have : got.length = cnt := by omega
      exact ⟨fun _ => this, (by exact hne _ _ _), hG, fun _ _ => by simp [ioStatus, this]⟩
  | cons a as ih =>
    intro got hg hG
    unfold preadnLoop
    by_cases h : got.length < cnt
    · rw [if_pos h]
      try dsimp only
      cases a with
      | intr =>
        obtain ⟨h1, h2, h3, h4⟩ := ih got hg hG
        exact ⟨h1, h2, h3, fun hs => h4 (fun x hx => hs x (List.mem_cons_of_mem _ hx))⟩
      | fail e =>
        refine ⟨fun h0 => (ioStatus_ok h0).2, (by exact hne _ _ _), hG, ?_⟩
        intro hs
        rcases hs _ (List.mem_cons_self ..) with h0 | ⟨n, _, h0⟩ <;> cases h0
      | upto n =>
        dsimp only
        by_cases h0 : f.get (off + got.length) (min n (cnt - got.length)) = []
        · rw [if_pos h0]
          try dsimp only
          refine ⟨fun h1 => (ioStatus_ok h1).2, (by exact hne _ _ _), hG, ?_⟩
          intro hs hsz
          exfalso
          rcases hs _ (List.mem_cons_self ..) with h1 | ⟨m, hm, h1⟩
          · cases h1
          · cases h1
            have := congrArg List.length h0
            rw [get_length, List.length_nil] at this
            omega
        · rw [if_neg h0]
          try dsimp only
          have hG' := got_append f off (min n (cnt - got.length)) got hG
          have hl : (got ++ f.get (off + got.length) (min n (cnt - got.length))).length ≤ cnt := by
            rw [List.length_append, get_length]; omega
          obtain ⟨h1, h2, h3, h4⟩ := ih _ hl hG'
          exact ⟨h1, h2, h3, fun hs => h4 (fun x hx => hs x (List.mem_cons_of_mem _ hx))⟩
    · rw [if_neg h]
      try dsimp only
      have : got.length = cnt := by omega
      exact ⟨fun _ => this, (by exact hne _ _ _), hG, fun _ _ => by simp [ioStatus, this]⟩

theorem got_nil (f : File) (off : Nat) : Got f off [] := ⟨fun h => absurd rfl h, fun i b h => by simp at h⟩

/-- C53: a read that reports success delivers exactly the bytes of the file at the place asked
for, all of them inside the file. -/
theorem C53_read (f : File) (cnt off : Nat) (as : List Ans) (l : List Byte) (h : preadn f cnt off as = (.ok, l)) :
    Holds f off cnt l := by
  obtain ⟨h1, _, h3, _⟩ := preadn_loop f cnt off as [] (Nat.zero_le _) (got_nil f off)
  have e : preadnLoop f cnt off as [] = (.ok, l) := h
  rw [e] at h1 h3
  have hl := h1 rfl
  refine ⟨hl, ?_, h3.2⟩
  intro h0
  have hne : l ≠ [] := by
    intro h2
    rw [h2] at hl
    simp only [List.length_nil] at hl
    omega
  have := h3.1 hne
  simp only at this hl
  omega

/-- C53: a read inside the file succeeds when the kernel has no error to report. -/
theorem C53_read_succeeds (f : File) (cnt off : Nat) (as : List Ans) (h : Steady as) (hs : off + cnt ≤ f.size) :
    (preadn f cnt off as).1 = .ok := (preadn_loop f cnt off as [] (Nat.zero_le _) (got_nil f off)).2.2.2 h hs

/-- C53: what was written is what is read, across any two sequences of kernel answers. -/
theorem C53_roundtrip (f : File) (buf : List Byte) (off : Nat) (as bs : List Ans) (f' : File) (l : List Byte)
    (h : pwriten f buf off as = (.ok, f')) (h2 : preadn f' buf.length off bs = (.ok, l)) : l = buf := by
  have w := C53_write f buf off as f' h
  have r := C53_read f' buf.length off bs l h2
  apply List.ext_getElem? 
  intro i
  by_cases hi : i < buf.length
  · rw [List.getElem?_eq_getElem hi, List.getElem?_eq_getElem (by rw [r.1]; exact hi)]
    have a := w.2.1 i _ (List.getElem?_eq_getElem hi)
    have b := r.2.2 i _ (List.getElem?_eq_getElem (by rw [r.1]; exact hi))
    rw [← a, ← b]
  · rw [List.getElem?_eq_none (by rw [r.1]; omega), List.getElem?_eq_none (by omega)]

/-- C53: and such a read does succeed. -/
theorem C53_roundtrip_succeeds (f : File) (buf : List Byte) (off : Nat) (as bs : List Ans) (ha : Steady as) (hb : Steady bs) (hne : buf ≠ []) :
    ∃ f', pwriten f buf off as = (.ok, f') ∧ preadn f' buf.length off bs = (.ok, buf) := by
  have h1 := C53_write_succeeds f buf off as ha
  have e1 : pwriten f buf off as = (.ok, (pwriten f buf off as).2) := by rw [← h1]
  have w := C53_write f buf off as _ e1
  refine ⟨_, e1, ?_⟩
  have hsz : off + buf.length ≤ (pwriten f buf off as).2.size := by rw [w.1, if_neg hne]; omega
  have h2 := C53_read_succeeds (pwriten f buf off as).2 buf.length off bs hb hsz
  have e2 : preadn (pwriten f buf off as).2 buf.length off bs = (.ok, (preadn (pwriten f buf off as).2 buf.length off bs).2) := by rw [← h2]
  rw [e2, C53_roundtrip f buf off as bs _ _ e1 e2]

/-! ### Vectors -/

def iovs (bufs : List (List Byte)) : List Iov := bufs.map (fun b => ⟨b, 0, b.length⟩)

theorem iovs_len (bufs : List (List Byte)) : (iovs bufs).length = bufs.length := by simp [iovs]

theorem iovs_bytes (bufs : List (List Byte)) : ((iovs bufs).map Iov.bytes).flatten = bufs.flatten := by
  induction bufs with
  | nil => rfl
  | cons b bs ih =>
    simp only [iovs, List.map_cons, List.flatten_cons] at ih ⊢
    rw [ih]
    simp [Iov.bytes]

theorem iovs_total (bufs : List (List Byte)) : iovLength (iovs bufs) = bufs.flatten.length := by
  induction bufs with
  | nil => rfl
  | cons b bs ih =>
    simp only [iovs, List.map_cons, iovLength, List.flatten_cons, List.length_append] at ih ⊢
    rw [ih]

theorem advance_all (bufs : List (List Byte)) : ∀ room, bufs.length < room → 
    (iovAdvance (iovs bufs) room bufs.flatten.length).isSome = true := by
  induction bufs with
  | nil =>
    intro room h
    simp only [iovs, List.map_nil, iovAdvance, List.flatten_nil, List.length_nil, if_true]
    rw [if_neg (by simp only [List.length_nil] at h; omega)]
    rfl
  | cons b bs ih =>
    intro room h
    simp only [iovs, List.map_cons, iovAdvance, List.flatten_cons, List.length_append]
    by_cases h0 : b.length + bs.flatten.length ≠ 0 ∧ b.length + bs.flatten.length ≥ b.length
    · rw [if_pos h0]
      cases room with
      | zero => simp at h
      | succ r =>
        simp only
        rw [show b.length + bs.flatten.length - b.length = bs.flatten.length from by omega]
        exact ih r (by simp only [List.length_cons] at h; omega)
    · rw [if_neg h0]; rfl

theorem asked_all (bufs : List (List Byte)) (room : Nat) : asked ⟨iovs bufs, room⟩ bufs.length = some bufs.flatten := by
  unfold asked
  simp only
  rw [iovs_len, if_pos (Nat.le_refl _), List.take_of_length_le (by rw [iovs_len]; omega), iovs_bytes]

/-- One chunk with a kernel which never transfers a part. -/
theorem pwritev_whole (bufs : List (List Byte)) (room off : Nat) (hr : bufs.length < room) (f : File) (as : List Ans)
    (ha : AllOrNothing bufs.flatten.length as) :
    (∃ as', pwritevLoop bufs.length bufs.flatten.length as ⟨iovs bufs, room⟩ 0 off f = (.ok, f.put off bufs.flatten, off + bufs.flatten.length, as')) ∨
    (∃ e as', 0 < e ∧ pwritevLoop bufs.length bufs.flatten.length as ⟨iovs bufs, room⟩ 0 off f = (.err e, f, off, as')) := by
  induction as with
  | nil =>
    left
    unfold pwritevLoop
    by_cases h : 0 < bufs.flatten.length
    · rw [if_pos h, asked_all]
      simp only
      rw [if_neg (by intro h0; rw [h0] at h; simp at h)]
      obtain ⟨x, hx⟩ := Option.isSome_iff_exists.mp (advance_all bufs room hr)
      rw [hx]
      exact ⟨[], by simp [ioStatus]⟩
    · rw [if_neg h]
      have : bufs.flatten = [] := List.eq_nil_of_length_eq_zero (by omega)
      rw [this]
      exact ⟨[], by simp [ioStatus, put_nil]⟩
  | cons a as ih =>
    unfold pwritevLoop
    by_cases h : 0 < bufs.flatten.length
    · rw [if_pos h, asked_all]
      simp only
      rcases ha a (List.mem_cons_self ..) with h0 | ⟨e, h1, h0⟩ | ⟨m, h1, h0⟩
      · subst h0
        exact ih (fun x hx => ha x (List.mem_cons_of_mem _ hx))
      · subst h0
        right
        exact ⟨e, as, h1, by simp [ioStatus]; omega⟩
      · subst h0
        simp only
        rw [List.take_of_length_le h1, if_neg (by intro h0; rw [h0] at h; simp at h)]
        obtain ⟨x, hx⟩ := Option.isSome_iff_exists.mp (advance_all bufs room hr)
        rw [hx]
        simp only
        left
        cases as with
        | nil => unfold pwritevLoop; rw [if_neg (by omega)]; exact ⟨[], by simp [ioStatus]⟩
        | cons y ys => unfold pwritevLoop; rw [if_neg (by omega)]; exact ⟨y :: ys, by simp [ioStatus]⟩
    · rw [if_neg h]
      have : bufs.flatten = [] := List.eq_nil_of_length_eq_zero (by omega)
      rw [this]
      exact Or.inl ⟨a :: as, by simp [ioStatus, put_nil]⟩

theorem pwritevn_one (f : File) (bufs : List (List Byte)) (off : Nat) (as : List Ans) (hc : bufs.length < IOV_MAX) (hne : bufs ≠ []) :
    pwritevn f bufs off as =
      ((pwritevLoop bufs.length bufs.flatten.length as ⟨iovs bufs, IOV_MAX⟩ 0 off f).1,
       (pwritevLoop bufs.length bufs.flatten.length as ⟨iovs bufs, IOV_MAX⟩ 0 off f).2.1) := by
  unfold pwritevn
  change pwritevnLoop bufs.length (iovs bufs) as off f = _
  obtain ⟨k, hk⟩ : ∃ k, bufs.length = k + 1 := ⟨bufs.length - 1, by
    have : bufs.length ≠ 0 := by simpa using hne
    omega⟩
  have hl := iovs_len bufs
  rw [hk]
  unfold pwritevnLoop
  rw [if_neg (by intro h0; rw [h0] at hl; simp only [List.length_nil] at hl; omega)]
  rw [List.take_of_length_le (by omega), List.drop_eq_nil_of_le (by omega), iovs_total, hl, Nat.min_eq_left (by omega), hk]
  rcases hp : pwritevLoop (k + 1) bufs.flatten.length as ⟨iovs bufs, IOV_MAX⟩ 0 off f with ⟨r, f1, o1, as1⟩
  cases r with
  | ok =>
    simp only
    cases k with
    | zero => rfl
    | succ k => unfold pwritevnLoop; rw [if_pos rfl]
  | err e => rfl
  | undef => rfl

/-- C53 (partial): a batch of fewer than 128 buffers (a flush makes batches of at most 32,
include/silofs/task.h:24) is written exactly or not at all - provided the kernel never transfers
part of a request.  Missing: kernels which do. -/
theorem C53_writev_partial (f : File) (bufs : List (List Byte)) (off : Nat) (as : List Ans) (hc : bufs.length < 128)
    (ha : AllOrNothing bufs.flatten.length as) :
    (∃ f', pwritevn f bufs off as = (.ok, f') ∧ Wrote f off bufs.flatten f') ∨
    (∃ e, pwritevn f bufs off as = (.err e, f)) := by
  by_cases hne : bufs = []
  · subst hne
    left
    exact ⟨f, rfl, by have := put_wrote f off []; rwa [put_nil] at this⟩
  · rw [pwritevn_one f bufs off as hc hne]
    rcases pwritev_whole bufs IOV_MAX off hc f as ha with ⟨as', h⟩ | ⟨e, as', _, h⟩
    · rw [h]; exact Or.inl ⟨_, rfl, put_wrote _ _ _⟩
    · rw [h]; exact Or.inr ⟨e, rfl⟩

/-- C53: the same batch with a kernel that only interrupts is written. -/
theorem C53_writev_succeeds (f : File) (bufs : List (List Byte)) (off : Nat) (as : List Ans) (hc : bufs.length < 128)
    (ha : ∀ a ∈ as, a = .intr) : ∃ f', pwritevn f bufs off as = (.ok, f') ∧ Wrote f off bufs.flatten f' := by
  have h0 : pwritevn f bufs off as = pwritevn f bufs off [] := by
    by_cases hne : bufs = []
    · subst hne; rfl
    · rw [pwritevn_one f bufs off as hc hne, pwritevn_one f bufs off [] hc hne]
      have : (fun z : Res × File × Nat × List Ans => (z.1, z.2.1)) (pwritevLoop bufs.length bufs.flatten.length as ⟨iovs bufs, IOV_MAX⟩ 0 off f) =
          (fun z : Res × File × Nat × List Ans => (z.1, z.2.1)) (pwritevLoop bufs.length bufs.flatten.length [] ⟨iovs bufs, IOV_MAX⟩ 0 off f) := by
        induction as with
        | nil => rfl
        | cons a as ih =>
          have e : a = .intr := ha a (List.mem_cons_self ..)
          subst e
          rw [← ih (fun x hx => ha x (List.mem_cons_of_mem _ hx))]
          conv => lhs; unfold pwritevLoop
          by_cases h : 0 < bufs.flatten.length
          · rw [if_pos h, asked_all]
          · rw [if_neg h]
            cases as with
            | nil => unfold pwritevLoop; rw [if_neg h]
            | cons y ys => unfold pwritevLoop; rw [if_neg h]
      exact this
  rw [h0]
  rcases C53_writev_partial f bufs off [] hc (fun a h => by simp at h) with h | ⟨e, h⟩
  · exact h
  · exfalso
    by_cases hne : bufs = []
    · subst hne; cases h
    · rw [pwritevn_one f bufs off [] hc hne] at h
      unfold pwritevLoop at h
      by_cases hp : 0 < bufs.flatten.length
      · rw [if_pos hp, asked_all] at h
        simp only at h
        rw [if_neg (by intro h0; rw [h0] at hp; simp at hp)] at h
        obtain ⟨x, hx⟩ := Option.isSome_iff_exists.mp (advance_all bufs IOV_MAX hc)
        rw [hx] at h
        simp [ioStatus] at h
      · rw [if_neg hp] at h
        have : bufs.flatten.length = 0 := by omega
        simp [ioStatus, this] at h

/-- C53: what really happens when the kernel transfers a part `k` of the first buffer only: the
loop goes on, reports success, and has put the buffer's beginning a second time where its rest
belongs. -/
theorem C53_writev_short (f : File) (b : List Byte) (bs : List (List Byte)) (off k : Nat) (hc : (b :: bs).length < 128)
    (h0 : 0 < k) (hk : k < b.length) :
    ∃ f', pwritevn f (b :: bs) off [.upto k] = (.ok, f') ∧
      Wrote f off (b.take k ++ (b.take (b.length - k) ++ bs.flatten)) f' := by
  rw [pwritevn_one f (b :: bs) off _ hc (by simp)]
  have hft : (b :: bs).flatten = b ++ bs.flatten := List.flatten_cons
  have htk : (b ++ bs.flatten).take k = b.take k := by
    rw [List.take_append_of_le_length (by omega)]
  have htl : (b.take k).length = k := by rw [List.length_take]; omega
  have hadv : iovAdvance (iovs (b :: bs)) IOV_MAX k = some ⟨⟨b, 0, b.length - k⟩ :: iovs bs, IOV_MAX⟩ := by
    show iovAdvance ((⟨b, 0, b.length⟩ : Iov) :: iovs bs) IOV_MAX k = _
    unfold iovAdvance
    rw [if_neg (by simp only; omega)]
  have hask : asked ⟨⟨b, 0, b.length - k⟩ :: iovs bs, IOV_MAX⟩ (b :: bs).length = some (b.take (b.length - k) ++ bs.flatten) := by
    unfold asked
    simp only [List.length_cons, iovs_len, Nat.le_refl, if_true]
    rw [List.take_of_length_le (by simp [iovs_len]), List.map_cons, List.flatten_cons, iovs_bytes]
    simp [Iov.bytes]
  have hl2 : (b.take (b.length - k) ++ bs.flatten).length = (b ++ bs.flatten).length - k := by
    simp only [List.length_append, List.length_take]; omega
  have hadv2 : (iovAdvance ((⟨b, 0, b.length - k⟩ : Iov) :: iovs bs) IOV_MAX (b.take (b.length - k) ++ bs.flatten).length).isSome = true := by
    rw [List.length_append, List.length_take, Nat.min_eq_left (by omega)]
    unfold iovAdvance
    rw [if_pos (by simp only; omega)]
    show (iovAdvance (iovs bs) 127 _).isSome = true
    rw [show b.length - k + bs.flatten.length - (b.length - k) = bs.flatten.length from by omega]
    exact advance_all bs 127 (by simp only [List.length_cons] at hc; omega)
  obtain ⟨x, hx⟩ := Option.isSome_iff_exists.mp hadv2
  have hpos : 0 < (b :: bs).flatten.length := by rw [hft, List.length_append]; omega
  have hlen : (b ++ bs.flatten).length = b.length + bs.flatten.length := List.length_append
  unfold pwritevLoop
  rw [if_pos hpos, asked_all]
  simp only
  rw [hft, htk, if_neg (by intro h1; rw [h1] at htl; simp at htl; omega), htl, hadv]
  simp only
  unfold pwritevLoop
  rw [if_pos (by omega), hask]
  simp only
  rw [if_neg (by intro h1; rw [h1] at hl2; simp only [List.length_nil] at hl2; omega), hx]
  simp only
  have hst : ioStatus 0 (0 + k + (b.take (b.length - k) ++ bs.flatten).length) (b ++ bs.flatten).length = .ok := by
    unfold ioStatus
    rw [if_neg (by omega), if_neg (by omega)]
  rw [hst]
  refine ⟨_, rfl, ?_⟩
  have := put_put f off (b.take k) (b.take (b.length - k) ++ bs.flatten)
  rw [htl] at this
  rw [this]
  exact put_wrote _ _ _

/-- C53: when the part goes beyond the first buffer, the next call is given elements of the array
which were never set. -/
theorem C53_writev_beyond (f : File) (b : List Byte) (bs : List (List Byte)) (off k : Nat) (hc : (b :: bs).length < 128)
    (h0 : 0 < b.length) (hk : b.length ≤ k) (hk2 : k < (b :: bs).flatten.length) :
    (pwritevn f (b :: bs) off [.upto k]).1 = .undef := by
  rw [pwritevn_one f (b :: bs) off _ hc (by simp)]
  have hft : (b :: bs).flatten = b ++ bs.flatten := List.flatten_cons
  have hlen : (b ++ bs.flatten).length = b.length + bs.flatten.length := List.length_append
  have htl : ((b :: bs).flatten.take k).length = k := by rw [List.length_take]; omega
  -- the pointer moves, so fewer elements than `cnt` remain
  have hshort : ∀ (vs : List Iov) room len a, iovAdvance vs room len = some a → a.ents.length ≤ vs.length := by
    intro vs
    induction vs with
    | nil =>
      intro room len a h
      unfold iovAdvance at h
      split at h
      · split at h
        · cases h
        · cases h; simp
      · cases h
    | cons v vs ih =>
      intro room len a h
      unfold iovAdvance at h
      split at h
      · cases room with
        | zero => cases h
        | succ r =>
          have := ih r _ a h
          simp only [List.length_cons]; omega
      · cases h; simp
  have hstep : iovAdvance (iovs (b :: bs)) IOV_MAX k = iovAdvance (iovs bs) 127 (k - b.length) := by
    show iovAdvance ((⟨b, 0, b.length⟩ : Iov) :: iovs bs) IOV_MAX k = _
    conv => lhs; unfold iovAdvance
    rw [if_pos (by simp only; omega)]
    rfl
  unfold pwritevLoop
  rw [if_pos (by omega), asked_all]
  simp only
  rw [if_neg (by intro h1; rw [h1] at htl; simp at htl; omega), htl, hstep]
  cases ha : iovAdvance (iovs bs) 127 (k - b.length) with
  | none => rfl
  | some a =>
    simp only
    have := hshort _ _ _ _ ha
    rw [iovs_len] at this
    unfold pwritevLoop
    rw [if_pos (by omega)]
    have hn : asked a (b :: bs).length = none := by
      unfold asked
      rw [if_neg (by simp only [List.length_cons]; omega)]
    rw [hn]

/-- C53 (violated): a batch of two objects whose write reports success leaves wrong bytes in the
file: the kernel took one byte at first. -/
theorem C53_writev_violated : ∃ f bufs off as f', Steady as ∧ bufs.length ≤ 32 ∧ pwritevn f bufs off as = (.ok, f') ∧
    ¬ Wrote f off bufs.flatten f' := by
  obtain ⟨f', h1, h2⟩ := C53_writev_short ⟨0, fun _ => 0⟩ [1, 2] [[3, 4]] 0 1 (by decide) (by decide) (by decide)
  refine ⟨_, _, _, _, f', ?_, by decide, h1, ?_⟩
  · intro a h
    simp only [List.mem_singleton] at h
    exact Or.inr ⟨1, by decide, h⟩
  · intro h
    have a := h.2.1 1 2 (by decide)
    have b := h2.2.1 1 1 (by decide)
    rw [a] at b
    cases b

/-- C53: 128 buffers at once end outside of the array, even when everything is transferred. -/
theorem C53_writev_overrun (f : File) (bufs : List (List Byte)) (off : Nat) (hc : bufs.length = 128) (hp : ∀ b ∈ bufs, b ≠ []) :
    (pwritevn f bufs off []).1 = .undef := by
  have hout : ∀ (l : List (List Byte)), (∀ b ∈ l, b ≠ []) → iovAdvance (iovs l) l.length l.flatten.length = none := by
    intro l
    induction l with
    | nil => intro _; simp [iovs, iovAdvance]
    | cons b bs ih =>
      intro h
      have hb : b.length ≠ 0 := by
        have := h b (List.mem_cons_self ..)
        simpa using this
      show iovAdvance ((⟨b, 0, b.length⟩ : Iov) :: iovs bs) (bs.length + 1) _ = none
      unfold iovAdvance
      simp only [List.flatten_cons, List.length_append]
      rw [if_pos (by omega), show b.length + bs.flatten.length - b.length = bs.flatten.length from by omega]
      exact ih (fun x hx => h x (List.mem_cons_of_mem _ hx))
  have hne : bufs ≠ [] := by intro h0; rw [h0] at hc; simp at hc
  have hpos : 0 < bufs.flatten.length := by
    cases bufs with
    | nil => exact absurd rfl hne
    | cons b bs =>
      have := hp b (List.mem_cons_self ..)
      have hb : b.length ≠ 0 := by simpa using this
      rw [List.flatten_cons, List.length_append]; omega
  unfold pwritevn
  change (pwritevnLoop bufs.length (iovs bufs) [] off f).1 = _
  have hl := iovs_len bufs
  rw [hc]
  unfold pwritevnLoop
  rw [if_neg (by intro h0; rw [h0] at hl; simp only [List.length_nil] at hl; omega)]
  have hI : IOV_MAX = bufs.length := by rw [hc]; rfl
  rw [List.take_of_length_le (by rw [hl, hc]; exact Nat.le_refl 128), iovs_total, hl, hI, Nat.min_self]
  unfold pwritevLoop
  rw [if_pos hpos, asked_all]
  simp only
  rw [if_neg (by intro h0; rw [h0] at hpos; simp at hpos), hout bufs hp]

/-! ### The hypotheses are met -/

example : Steady [.intr, .upto 1, .upto 2] := by
  intro a h
  simp only [List.mem_cons, List.not_mem_nil, or_false] at h
  rcases h with rfl | rfl | rfl
  · exact Or.inl rfl
  · exact Or.inr ⟨1, by decide, rfl⟩
  · exact Or.inr ⟨2, by decide, rfl⟩

/-- three buffers bytes written in pieces of one, two and the rest -/
example : (pwriten ⟨0, fun _ => 0⟩ [7, 8, 9, 10] 5 [.upto 1, .intr, .upto 2]).1 = .ok := by decide

example : AllOrNothing 4 [.intr, .upto 9] := by
  intro a h
  simp only [List.mem_cons, List.not_mem_nil, or_false] at h
  rcases h with rfl | rfl
  · exact Or.inl rfl
  · exact Or.inr (Or.inr ⟨9, by decide, rfl⟩)

end Silofs.Sysio
