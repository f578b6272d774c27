import Verif.Spec.Mntcmd
/-
"mount" and "umount" tell what happened (C76).
-/
set_option linter.unusedSimpArgs false
set_option linter.unusedVariables false
namespace Silofs.Mc

open Silofs.Mnt (Path World Svc Env Params Out)

/-! ### mount -/

theorem checkMount_ok {s : Svc} {w : Nat → World} {t : Nat} {m : Params} {p : Path}
    (hp : m.path = some p) (h : Mnt.checkMount s w t m = .ok ()) :
    ∃ st, (w (t + 2 + (s.rules.getD []).length)).stat p = .ok st ∧ Mnt.isDir st.mode = true ∧
      st.nlink ≤ 2 ∧ st.ino ≠ 1 ∧ st.uid = s.peerUid ∧ m.userId = s.peerUid := by
  unfold Mnt.checkMount at h
  rw [hp] at h
  by_cases h1 : m.flags &&& Mnt.unsupMask ≠ 0
  · rw [if_pos h1] at h; cases h
  rw [if_neg h1] at h
  by_cases h2 : m.rootMode &&& 0x1C0 = 0
  · rw [if_pos h2] at h; cases h
  rw [if_neg h2] at h
  by_cases h3 : m.rootMode &&& 0x4000 = 0
  · rw [if_pos h3] at h; cases h
  rw [if_neg h3] at h
  by_cases h4 : m.userId ≠ s.peerUid ∨ m.groupId ≠ s.peerGid
  · rw [if_pos h4] at h; cases h
  rw [if_neg h4] at h
  by_cases h5 : m.maxRead < 2 * s.pageSize
  · rw [if_pos h5] at h; cases h
  rw [if_neg h5] at h
  by_cases h6 : 512 * s.pageSize < m.maxRead
  · rw [if_pos h6] at h; cases h
  rw [if_neg h6] at h
  dsimp only at h
  split at h
  · cases h
  · unfold Mnt.checkMountPath at h
    split at h
    · cases h
    · have he : t + 1 + (s.rules.getD []).length + 1 = t + 2 + (s.rules.getD []).length := by omega
      rw [he] at h
      unfold Mnt.checkMntpoint at h
      split at h
      · rename_i e hs
        split at h
        · rename_i hc; exact absurd hc.2 (by decide)
        · cases h
      · rename_i st hs
        refine ⟨st, hs, ?_⟩
        split at h
        · cases h
        · rename_i hd
          rw [if_pos rfl] at h
          split at h
          · cases h
          · split at h
            · cases h
            · split at h
              · cases h
              · rename_i hl hi hu
                refine ⟨?_, by omega, hi, ?_, ?_⟩
                · cases hq : Mnt.isDir st.mode
                  · exact absurd hq hd
                  · rfl
                · exact (Classical.not_not.mp hu).symm
                · exact Classical.byContradiction fun hne => h4 (Or.inl hne)

theorem checkMntpoint_ne {w : Nat → World} (hn : Numbered w) {t : Nat} {p : Path} {uid : Nat} {b : Bool} {e : Nat}
    (h : Mnt.checkMntpoint w t p uid b = .error e) : e ≠ 0 := by
  unfold Mnt.checkMntpoint at h
  split at h
  · rename_i e' hs
    split at h
    · cases h
    · injection h with h; subst h; exact hn.stat _ _ _ hs
  · split at h
    · injection h with h; subst h; decide
    split at h
    · split at h
      · injection h with h; subst h; decide
      split at h
      · injection h with h; subst h; decide
      split at h
      · injection h with h; subst h; decide
      split at h
      · rename_i e' hs
        injection h with h; subst h; exact hn.fstype _ _ _ hs
      · unfold Mnt.checkMntdirFstype at h
        split at h
        · injection h with h; subst h; decide
        · split at h
          · injection h with h; subst h; decide
          · cases h
    · split at h
      · injection h with h; subst h; decide
      · cases h

theorem checkMount_ne {w : Nat → World} (hn : Numbered w) {s : Svc} {t : Nat} {m : Params} {e : Nat}
    (h : Mnt.checkMount s w t m = .error e) : e ≠ 0 := by
  unfold Mnt.checkMount at h
  iterate 6 (split at h; (injection h with h; subst h; decide))
  split at h
  · injection h with h; subst h; decide
  split at h
  · rename_i e' hr
    injection h with h; subst h
    unfold Mnt.checkMountRule at hr
    split at hr
    · injection hr with hr; subst hr; decide
    split at hr
    · rename_i hs
      injection hr with hr; subst hr; exact hn.stat _ _ _ hs
    split at hr
    · injection hr with hr; subst hr; decide
    split at hr
    · injection hr with hr; subst hr; decide
    · cases hr
  · unfold Mnt.checkMountPath at h
    split at h
    · rename_i e' hc
      injection h with h; subst h
      unfold Mnt.checkCanonicalPath at hc
      split at hc
      · injection hc with hc; subst hc; decide
      split at hc
      · rename_i hs
        injection hc with hc; subst hc; exact hn.canon _ _ _ hs
      split at hc
      · cases hc
      · injection hc with hc; subst hc; decide
    · exact checkMntpoint_ne hn h

/-- **C76 (a)** "mount" goes on only with a directory of the caller's own, which is empty as far as its
number of links and the first entries tell, and which is neither on a FUSE file-system nor the root of a
mounted one; for every state of the system, whatever changes while the checks are made. -/
theorem C76_mount_place {x : Site} (hn : Numbered x.svc) {t : Nat} {arg p : Path}
    (h : prepareMount x t arg = some p) :
    (x.see t).canon arg = .ok p ∧
    (∃ st, (x.svc (t + 3 + (x.s.rules.getD []).length)).stat p = .ok st ∧ Mnt.isDir st.mode = true ∧
      st.nlink ≤ 2 ∧ st.ino ≠ 1 ∧ st.uid = x.s.peerUid ∧ x.uid = x.s.peerUid) ∧
    (∃ ty, (x.see t).fstype p = .ok ty ∧ ty ≠ 0x65735546 ∧ ty ≠ 0x01021994 ∧
      ∃ l, x.ents t p = .ok l ∧ l.headD 0 ≤ 2) := by
  unfold prepareMount at h
  split at h
  · cases h
  rename_i q hq
  split at h
  · rename_i hc
    injection h with h
    subst h
    simp only [Bool.and_eq_true, beq_iff_eq] at hc
    obtain ⟨⟨⟨hd, hm⟩, hh⟩, ha⟩ := hc
    refine ⟨hq, ?_, ?_⟩
    · unfold askMount at ha
      by_cases hs1 : x.sock (t + 1) ≠ 0
      · rw [if_pos hs1] at ha; exact absurd ha hs1
      rw [if_neg hs1] at ha
      by_cases hs2 : x.bye (t + 1) ≠ 0
      · rw [if_pos hs2] at ha; exact absurd ha hs2
      rw [if_neg hs2] at ha
      unfold Mnt.execMount at ha
      split at ha
      · rename_i e he
        exact absurd ha (checkMount_ne hn he)
      · rename_i u he
        have := checkMount_ok rfl he
        have e1 : t + 1 + 2 + (x.s.rules.getD []).length = t + 3 + (x.s.rules.getD []).length := by omega
        rw [e1] at this
        exact this
    · unfold mntdirForMount at hm
      simp only [Bool.and_eq_true] at hm
      obtain ⟨⟨hl, hd'⟩, hm⟩ := hm
      split at hm
      · cases hm
      rename_i ty hty
      have hf : (x.see t).fstype q = .ok ty := by
        unfold statfsOk at hty
        split at hty
        · cases hty
        split at hty
        · cases hty
        rename_i hs; injection hty with hty; subst hty; exact hs
      refine ⟨ty, hf, ?_, ?_, ?_⟩
      · rintro rfl; exact absurd hm (by simp [fsinfo, Mnt.fsinfoAllowed])
      · rintro rfl; exact absurd hm (by simp [fsinfo, Mnt.fsinfoAllowed])
      · split at hm
        · cases hm
        simp only [Bool.and_eq_true] at hm
        have he := hm.2
        unfold emptydirOk at he
        simp only [Bool.and_eq_true] at he
        have he := he.2
        split at he
        · cases he
        rename_i n hn'
        refine ⟨n, hn', ?_⟩
        have := of_decide_eq_true he
        omega
  · cases h

theorem poll_ok {see : Nat → World} {p : Path} {tm : Nat → Nat} : ∀ {n i : Nat} {e : Nat},
    pollLoop see p tm n i = .ok e → ∃ k, i ≤ k ∧ k < i + n ∧ e = tm k ∧ ShowsRoot (see (tm k)) p := by
  intro n
  induction n with
  | zero => intro i e h; cases h
  | succ n ih =>
    intro i e h
    unfold pollLoop at h
    split at h
    · cases h
    rename_i st hs
    split at h
    · cases h
    rename_i hd
    split at h
    · rename_i hi
      injection h with h
      refine ⟨i, Nat.le_refl _, by omega, h.symm, st, hs, ?_, hi⟩
      cases hq : Mnt.isDir st.mode
      · exact absurd hq hd
      · rfl
    · obtain ⟨k, h1, h2, h3⟩ := ih h
      exact ⟨k, by omega, by omega, h3⟩

theorem poll_finds {see : Nat → World} {p : Path} {tm : Nat → Nat} : ∀ {n i k : Nat},
    i ≤ k → k < i + n → (∀ j, i ≤ j → j < k → PlainDir (see (tm j)) p) → ShowsRoot (see (tm k)) p →
    pollLoop see p tm n i = .ok (tm k) := by
  intro n
  induction n with
  | zero => intro i k h1 h2; omega
  | succ n ih =>
    intro i k h1 h2 hp hr
    unfold pollLoop
    by_cases he : i = k
    · subst he
      obtain ⟨st, hs, hd, hi⟩ := hr
      rw [hs]
      dsimp only
      rw [if_neg (by rw [hd]; decide), if_pos hi]
    · obtain ⟨st, hs, hd, hi⟩ := hp i (Nat.le_refl _) (by omega)
      rw [hs]
      dsimp only
      rw [if_neg (by rw [hd]; decide), if_neg hi]
      exact ih (by omega) (by omega) (fun j h3 h4 => hp j (by omega) h4) hr

theorem poll_fail {see : Nat → World} {p : Path} {tm : Nat → Nat} : ∀ {n i c e : Nat},
    pollLoop see p tm n i = .fail c e →
    c = 1 ∧ ((∃ k, i ≤ k ∧ k < i + n ∧ e = tm k ∧ ∀ st, (see (tm k)).stat p = .ok st → Mnt.isDir st.mode = false) ∨
      (e = tm (i + n) ∧ ∀ k, i ≤ k → k < i + n → PlainDir (see (tm k)) p)) := by
  intro n
  induction n with
  | zero =>
    intro i c e h
    injection h with h1 h2
    exact ⟨h1.symm, Or.inr ⟨h2.symm, fun k _ _ => by omega⟩⟩
  | succ n ih =>
    intro i c e h
    unfold pollLoop at h
    split at h
    · rename_i e' hs
      injection h with h1 h2
      exact ⟨h1.symm, Or.inl ⟨i, Nat.le_refl _, by omega, h2.symm, fun st hst => by rw [hs] at hst; cases hst⟩⟩
    rename_i st hs
    split at h
    · rename_i hd
      injection h with h1 h2
      exact ⟨h1.symm, Or.inl ⟨i, Nat.le_refl _, by omega, h2.symm, fun st' hst => by
        rw [hs] at hst; injection hst with hst; subst hst; exact hd⟩⟩
    rename_i hd
    split at h
    · cases h
    rename_i hi
    obtain ⟨h1, h2⟩ := ih h
    refine ⟨h1, ?_⟩
    rcases h2 with ⟨k, a, b, c'⟩ | ⟨a, b⟩
    · exact Or.inl ⟨k, by omega, by omega, c'⟩
    · refine Or.inr ⟨by rw [a]; congr 1; omega, fun k h3 h4 => ?_⟩
      by_cases hk : k = i
      · subst hk
        refine ⟨st, hs, ?_, hi⟩
        cases hq : Mnt.isDir st.mode
        · exact absurd hq hd
        · rfl
      · exact b k (by omega) (by omega)

/-- A successful end of "mount" comes of one of twenty looks at the directory. -/
theorem mount_ok {x : Site} {t : Nat} {arg : Path} {pass : Bool} {wt : Wait} {tm : Nat → Nat} {e : Nat}
    (hw : wt ≠ .err 0) (h : mountCmd x t arg pass wt tm = .ok e) :
    ∃ p k, prepareMount x t arg = some p ∧ pass = true ∧ k < 20 ∧ e = tm k ∧ ShowsRoot (x.see (tm k)) p := by
  unfold mountCmd at h
  split at h
  · cases h
  rename_i p hp
  split at h
  · cases h
  rename_i hpass
  split at h
  · rename_i c hc
    split at h
    · rename_i h0
      exfalso
      subst h0
      cases wt <;> simp [waitChild] at hc
      subst hc; exact hw rfl
    · cases h
  · unfold finishParent at h
    obtain ⟨k, _, h2, h3, h4⟩ := poll_ok h
    refine ⟨p, k, hp, ?_, by omega, h3, h4⟩
    cases pass
    · exact absurd rfl hpass
    · rfl

/-- **C76 (b), partial** When "mount" ends with success, then all it checked was well, and at the moment it
looked the file-system was mounted at the directory by its own daemon; provided that nobody else mounts
there or replaces the directory in the meantime.  Without that see `C76_two_mounts_violated`. -/
theorem C76_mount_true_partial {x : Site} (hs : SameTree x) (hn : Numbered x.svc) {t : Nat} {arg : Path}
    {pass : Bool} {wt : Wait} {tm : Nat → Nat} {e : Nat} (hw : wt ≠ .err 0) {ours : Nat → Bool}
    (hq : ∀ u, u < tm 0 → ours u = false) (h0 : t + 4 + (x.s.rules.getD []).length ≤ tm 0)
    (hm : ∀ i, tm i ≤ tm (i + 1))
    (h : mountCmd x t arg pass wt tm = .ok e) :
    ∃ p, (x.see t).canon arg = .ok p ∧ pass = true ∧ (Alone x p ours t → ours e = true) := by
  obtain ⟨p, k, hp, hpass, hk, rfl, st, hst, hd, hi⟩ := mount_ok hw h
  obtain ⟨hc, ⟨st', hst', _, _, hi', _⟩, _⟩ := C76_mount_place hn hp
  refine ⟨p, hc, hpass, fun ha => ?_⟩
  rcases Bool.eq_false_or_eq_true (ours (tm k)) with hb | hb
  · exact hb
  exfalso
  have hge : tm 0 ≤ tm k := by
    clear hst hi hb hk h
    induction k with
    | zero => exact Nat.le_refl _
    | succ k ih => exact Nat.le_trans ih (hm k)
  rw [hs.stat _ _ (hs.canon _ _ _ hc)] at hst'
  have := ha (t + 3 + (x.s.rules.getD []).length) (tm k) (by omega) (by omega) (hq _ (by omega)) hb
  rw [hst', hst] at this
  injection this with this
  subst this
  exact hi' hi

/-- **C76 (c)** If all checks pass and one of the twenty looks shows the file-system, the ones before a
directory, then "mount" ends with success at that moment. -/
theorem C76_mount_found {x : Site} {t : Nat} {arg p : Path} {wt : Wait} {tm : Nat → Nat} {k : Nat}
    (hp : prepareMount x t arg = some p) (hw : waitChild wt = none) (hk : k < 20)
    (hb : ∀ j, j < k → PlainDir (x.see (tm j)) p) (hr : ShowsRoot (x.see (tm k)) p) :
    mountCmd x t arg true wt tm = .ok (tm k) := by
  unfold mountCmd
  rw [hp]
  dsimp only
  rw [if_neg (by decide), hw]
  exact poll_finds (Nat.zero_le _) (by omega) (fun j _ h => hb j h) hr

/-- **C76 (d), partial** When "mount" ends with failure after its daemon was started, then either a look
at the directory failed, or none of the twenty looks showed the file-system.  It may come up all the same,
see `C76_late_violated`. -/
theorem C76_mount_fail_partial {x : Site} {t : Nat} {arg p : Path} {wt : Wait} {tm : Nat → Nat} {c e : Nat}
    (hp : prepareMount x t arg = some p) (hw : waitChild wt = none)
    (h : mountCmd x t arg true wt tm = .fail c e) :
    (∃ k, k < 20 ∧ ∀ st, (x.see (tm k)).stat p = .ok st → Mnt.isDir st.mode = false) ∨
    (e = tm 20 ∧ ∀ k, k < 20 → ¬ ShowsRoot (x.see (tm k)) p) := by
  unfold mountCmd at h
  rw [hp] at h
  dsimp only at h
  rw [if_neg (by decide), hw] at h
  obtain ⟨_, h2⟩ := poll_fail h
  rcases h2 with ⟨k, _, h3, _, h4⟩ | ⟨h3, h4⟩
  · exact Or.inl ⟨k, by omega, h4⟩
  · refine Or.inr ⟨by simpa using h3, fun k hk => ?_⟩
    obtain ⟨st, hs, hd, hi⟩ := h4 k (Nat.zero_le _) (by omega)
    rintro ⟨st', hs', _, hi'⟩
    rw [hs] at hs'
    injection hs' with hs'
    subst hs'
    exact hi hi'

/-- A "mount" which was refused by its checks, or whose first opening failed, has started nothing: its end
does not depend on what a daemon does. -/
theorem C76_mount_refused {x : Site} {t : Nat} {arg : Path} {pass : Bool} {wt : Wait} {tm : Nat → Nat}
    (h : prepareMount x t arg = none ∨ pass = false) : mountCmd x t arg pass wt tm = .fail 1 t := by
  unfold mountCmd
  rcases h with h | h
  · rw [h]
  · split
    · rfl
    · rw [if_pos h]

/-! ### the daemon -/

theorem waitLock_some {held : Nat → Bool} : ∀ {n t u : Nat}, waitLock held n t = some u →
    held u = false ∧ t ≤ u ∧ u + 2 ≤ t + 2 * n := by
  intro n
  induction n with
  | zero => intro t u h; cases h
  | succ n ih =>
    intro t u h
    unfold waitLock at h
    split at h
    · obtain ⟨h1, h2, h3⟩ := ih h
      exact ⟨h1, by omega, by omega⟩
    · rename_i hb
      injection h with h
      subst h
      refine ⟨?_, Nat.le_refl _, by omega⟩
      cases hq : held t
      · rfl
      · exact absurd hq hb

theorem waitLock_none {held : Nat → Bool} : ∀ {n t : Nat}, waitLock held n t = none →
    ∀ k, k < n → held (t + 2 * k) = true := by
  intro n
  induction n with
  | zero => intro t _ k hk; omega
  | succ n ih =>
    intro t h k hk
    unfold waitLock at h
    split at h
    · rename_i hb
      cases k with
      | zero => exact hb
      | succ k =>
        have := ih h k (by omega)
        have e : t + 2 * (k + 1) = t + 2 + 2 * k := by omega
        rw [e]; exact this
    · cases h

/-- The directory shows the file-system from the moment the daemon has mounted it, and before it what was
there. -/
def Follows (see : Nat → World) (p : Path) (d : Daemon) (a : Nat) : Prop :=
  ∀ t, match d.mountedAt a with
    | none => PlainDir (see t) p
    | some m => (t < m → PlainDir (see t) p) ∧ (m ≤ t → ShowsRoot (see t) p)

/-- **C76 (e)** With a look each second, "mount" ends with success if and only if the daemon has mounted
within nineteen seconds from its start. -/
theorem C76_mount_iff {see : Nat → World} {p : Path} {d : Daemon} {a : Nat} (hf : Follows see p d a) :
    (finishParent see p (fun i => a + i)).isOk = true ↔ ∃ m, d.mountedAt a = some m ∧ m ≤ a + 19 := by
  constructor
  · intro h
    cases hr : finishParent see p (fun i => a + i) with
    | fail c e => rw [hr] at h; cases h
    | ok e =>
      obtain ⟨k, _, hk, _, st, hs, _, hi⟩ := poll_ok hr
      have := hf (a + k)
      split at this
      · obtain ⟨st', hs', _, hi'⟩ := this
        rw [hs] at hs'; injection hs' with hs'; subst hs'; exact absurd hi hi'
      · rename_i m hm
        refine ⟨m, hm, ?_⟩
        rcases Nat.lt_or_ge (a + k) m with hlt | hge
        · obtain ⟨st', hs', _, hi'⟩ := this.1 hlt
          rw [hs] at hs'; injection hs' with hs'; subst hs'; exact absurd hi hi'
        · omega
  · rintro ⟨m, hm, hle⟩
    have hf' : ∀ t, (t < m → PlainDir (see t) p) ∧ (m ≤ t → ShowsRoot (see t) p) := by
      intro t; have := hf t; rw [hm] at this; exact this
    have : pollLoop see p (fun i => a + i) 20 0 = .ok (a + (m - a)) :=
      poll_finds (k := m - a) (Nat.zero_le _) (by omega) (fun j _ hj => (hf' _).1 (by omega))
        ((hf' _).2 (by omega))
    unfold finishParent
    rw [this]
    rfl

/-- A daemon which finds the lock free, opens and mounts in no more than nineteen seconds. -/
theorem C76_mount_prompt {see : Nat → World} {p : Path} {d : Daemon} {a : Nat} (hf : Follows see p d a)
    (hl : d.held a = false) (h1 : d.openFails = false) (h2 : d.mountFails = false)
    (h3 : d.openSecs + d.mountSecs ≤ 19) : (finishParent see p (fun i => a + i)).isOk = true := by
  rw [C76_mount_iff hf]
  refine ⟨a + d.openSecs + d.mountSecs, ?_, by omega⟩
  unfold Daemon.mountedAt
  have : waitLock d.held 10 a = some a := by
    unfold waitLock; rw [hl]; rfl
  rw [this]
  simp [h1, h2]

/-- If the file-system can not be opened or mounted by the daemon, "mount" ends with failure. -/
theorem C76_mount_not {see : Nat → World} {p : Path} {d : Daemon} {a : Nat} (hf : Follows see p d a)
    (h : d.openFails = true ∨ d.mountFails = true ∨ ∀ k, k < 10 → d.held (a + 2 * k) = true) :
    (finishParent see p (fun i => a + i)).isOk = false := by
  rcases Bool.eq_false_or_eq_true (finishParent see p (fun i => a + i)).isOk with hb | hb
  · rw [C76_mount_iff hf] at hb
    obtain ⟨m, hm, _⟩ := hb
    exfalso
    unfold Daemon.mountedAt at hm
    split at hm
    · cases hm
    rename_i u hu
    rcases h with h | h | h
    · simp [h] at hm
    · simp [h] at hm
    · clear hm
      simp only [waitLock] at hu
      have := fun k hk => h k hk
      simp [show d.held a = true from h 0 (by omega), show d.held (a + 2) = true from h 1 (by omega),
        show d.held (a + 2 + 2) = true from h 2 (by omega), show d.held (a + 2 + 2 + 2) = true from h 3 (by omega),
        show d.held (a + 2 + 2 + 2 + 2) = true from h 4 (by omega),
        show d.held (a + 2 + 2 + 2 + 2 + 2) = true from h 5 (by omega),
        show d.held (a + 2 + 2 + 2 + 2 + 2 + 2) = true from h 6 (by omega),
        show d.held (a + 2 + 2 + 2 + 2 + 2 + 2 + 2) = true from h 7 (by omega),
        show d.held (a + 2 + 2 + 2 + 2 + 2 + 2 + 2 + 2) = true from h 8 (by omega),
        show d.held (a + 2 + 2 + 2 + 2 + 2 + 2 + 2 + 2 + 2) = true from h 9 (by omega)] at hu
  · exact hb

/-! ### umount -/

theorem checkUmount_ne {w : Nat → World} (hn : Numbered w) {s : Svc} {t : Nat} {m : Params} {e : Nat}
    (h : Mnt.checkUmount s w t m = .error e) : e ≠ 0 := by
  unfold Mnt.checkUmount at h
  split at h
  · injection h with h; subst h; decide
  split at h
  · injection h with h; subst h; decide
  split at h
  · injection h with h; subst h; decide
  split at h
  · injection h with h; subst h; decide
  split at h
  · rename_i e' hc
    injection h with h; subst h
    unfold Mnt.checkUmountPath at hc
    split at hc
    · rename_i e'' hp
      have := checkMntpoint_ne hn hp
      split at hc
      · injection hc with hc; subst hc; exact this
      split at hc
      · injection hc with hc; subst hc; exact this
      · cases hc
    · cases hc
  · unfold Mnt.checkUmountRule at h
    split at h
    · cases h
    · cases h
    split at h
    · injection h with h; subst h; decide
    split at h
    · injection h with h; subst h; decide
    · cases h

theorem execUmount_zero {s : Svc} {e : Env} {w : Nat → World} (hn : Numbered w) {t : Nat} {m : Params} {p : Path}
    (hp : m.path = some p) (h : (Mnt.execUmount s e w t m).status = 0) :
    e.umountErr.getD 0 = 0 ∧ ∃ u, (Mnt.execUmount s e w t m).sys = some (u, .umount p (m.flags % 4294967296)) := by
  unfold Mnt.execUmount at h ⊢
  rw [hp] at h ⊢
  cases hc : Mnt.checkUmount s w t m with
  | error x =>
    rw [hc] at h
    dsimp only at h ⊢
    split at h
    · exact absurd h (checkUmount_ne hn hc)
    · rename_i hx
      rw [if_neg hx]
      exact ⟨h, t + 1, rfl⟩
  | ok _ =>
    rw [hc] at h
    exact ⟨h, t + 1, rfl⟩

theorem execUmount_sys {s : Svc} {e : Env} {w : Nat → World} {t : Nat} {m : Params} {y : Nat × Mnt.Sys}
    (h : (Mnt.execUmount s e w t m).sys = some y) : (Mnt.execUmount s e w t m).status = e.umountErr.getD 0 := by
  unfold Mnt.execUmount at h ⊢
  cases hc : Mnt.checkUmount s w t m with
  | error x =>
    rw [hc] at h
    dsimp only at h ⊢
    split at h
    · cases h
    · rename_i hx
      rw [if_neg hx]
      split at h
      · cases h
      · rfl
  | ok _ =>
    rw [hc] at h
    dsimp only at h ⊢
    split at h
    · cases h
    · rfl

theorem umountFlags_lt (o : Uopt) : umountFlags o % 4294967296 = umountFlags o := by
  obtain ⟨a, b⟩ := o
  cases a <;> cases b <;> rfl

/-- **C76 (f)** "umount" asks the service only for a directory which is the root of a file-system whose
server answers, or, with "force", for a path at which there is no server any more. -/
theorem C76_umount_target {x : Site} {t : Nat} {o : Uopt} {arg : Path} {g : Target}
    (h : prepareUmount x t o arg = some g) :
    (g.notconn = false ∧ (x.see t).canon arg = .ok g.path ∧ (x.see t).fstype g.path = .ok 0x65735546 ∧
      (∃ st, (x.see t).stat g.path = .ok st ∧ Mnt.isDir st.mode = true ∧ st.ino = 1) ∧
      x.pidOf t g.path = .ok g.pid) ∨
    (g.notconn = true ∧ g.path = arg ∧ o.force = true ∧ (x.see t).fstype arg = .error 107) := by
  unfold prepareUmount at h
  split at h
  · cases h
  split at h
  · rename_i hc
    injection h with h
    subst h
    refine Or.inr ⟨rfl, rfl, hc.2, ?_⟩
    have := hc.1
    cases hq : (x.see t).fstype arg with
    | error e => rw [hq] at this; rw [beq_iff_eq.mp this]
    | ok ty => rw [hq] at this; cases this
  split at h
  · cases h
  rename_i p hp
  split at h
  · rename_i hc
    split at h
    · cases h
    rename_i pid hpid
    injection h with h
    subst h
    simp only [Bool.and_eq_true] at hc
    refine Or.inl ⟨rfl, hp, ?_, ?_, hpid⟩
    · have hf := hc.1
      unfold fusefsOk at hf
      split at hf
      · cases hf
      rename_i ty hty
      unfold statfsOk at hty
      split at hty
      · cases hty
      split at hty
      · cases hty
      rename_i hs
      injection hty with hty
      subst hty
      rw [hs, beq_iff_eq.mp hf]
    · have hm := hc.2
      unfold mntdirForUmount at hm
      simp only [Bool.and_eq_true] at hm
      obtain ⟨⟨_, hd⟩, hm⟩ := hm
      split at hm
      · cases hm
      split at hm
      · cases hm
      simp only [Bool.and_eq_true] at hm
      have hm := hm.2
      split at hm
      · cases hm
      rename_i st hs
      refine ⟨st, hs, ?_, beq_iff_eq.mp hm⟩
      unfold isdirOk at hd
      rw [hs] at hd
      simp only [Bool.and_eq_true] at hd
      exact hd.1
  · cases h

/-- **C76 (g)** When "umount" ends with success, the file-system was detached from the path it was asked
for, with the flags of its options. -/
theorem C76_umount_done {x : Site} (hn : Numbered x.svc) {t : Nat} {o : Uopt} {arg : Path} {out : Option Out}
    {e : Nat} (h : umountCmd x t o arg = (out, .ok e)) :
    ∃ g, prepareUmount x t o arg = some g ∧ Detached x out g.path (umountFlags o) := by
  unfold umountCmd at h
  split at h
  · cases h
  rename_i g hg
  refine ⟨g, hg, ?_⟩
  split at h
  · cases h
  rename_i hz
  have hz := Classical.not_not.mp hz
  injection h with h1 h2
  subst h1
  unfold askUmount at hz ⊢
  by_cases hs : x.sock (t + 1) ≠ 0
  · rw [if_pos hs] at hz; exact absurd hz hs
  rw [if_neg hs] at hz ⊢
  dsimp only at hz ⊢
  by_cases hb : x.bye (t + 1) ≠ 0
  · rw [if_pos hb] at hz; exact absurd hz hb
  rw [if_neg hb] at hz
  obtain ⟨h3, u, h4⟩ := execUmount_zero hn (p := g.path) rfl hz
  refine ⟨h3, _, u, rfl, ?_⟩
  rw [h4]
  dsimp only
  rw [umountFlags_lt]

/-- **C76 (h), partial** When "umount" ends with failure, nothing was detached, unless the connection to
the service broke after the request was served (`C76_lost_answer_violated`). -/
theorem C76_umount_fail_partial {x : Site} {t : Nat} {o : Uopt} {arg : Path} {out : Option Out}
    {c e : Nat} (hb : x.bye (t + 1) = 0) (h : umountCmd x t o arg = (out, .fail c e)) :
    ∀ p f, ¬ Detached x out p f := by
  rintro p f ⟨hz, r, u, rfl, hsys⟩
  unfold umountCmd at h
  split at h
  · injection h with h; cases h
  rename_i g hg
  split at h
  · rename_i hne
    injection h with h1 h2
    injection h1 with h1
    subst h1
    unfold askUmount at hne hsys
    by_cases hs : x.sock (t + 1) ≠ 0
    · rw [if_pos hs] at hsys; cases hsys
    rw [if_neg hs] at hsys hne
    dsimp only at hsys hne
    rw [if_neg (by omega)] at hne
    rw [execUmount_sys hsys] at hne
    exact hne hz
  · injection h with _ h; cases h

theorem waitNopid_end {x : Site} {pid : Nat} : ∀ {n t : Nat},
    x.alive (waitNopid x pid n t) pid = false ∨
    (waitNopid x pid n t = t + n ∧ ∀ k, k < n → x.alive (t + k) pid = true) := by
  intro n
  induction n with
  | zero => intro t; exact Or.inr ⟨rfl, fun k hk => by omega⟩
  | succ n ih =>
    intro t
    unfold waitNopid
    by_cases ha : x.alive t pid = false
    · rw [if_pos ha]; exact Or.inl ha
    · rw [if_neg ha]
      rcases ih (t := t + 1) with h | ⟨h1, h2⟩
      · exact Or.inl h
      · refine Or.inr ⟨by rw [h1]; omega, fun k hk => ?_⟩
        cases k with
        | zero =>
          rcases Bool.eq_false_or_eq_true (x.alive t pid) with hq | hq
          · exact hq
          · exact absurd hq ha
        | succ k =>
          have := h2 k (by omega)
          have e : t + (k + 1) = t + 1 + k := by omega
          rw [e]; exact this

theorem probePost_ge {x : Site} {p : Path} : ∀ {n t : Nat}, t ≤ probePost x p n t ∧ probePost x p n t ≤ t + 2 * n := by
  intro n
  induction n with
  | zero => intro t; exact ⟨Nat.le_refl _, Nat.le_refl _⟩
  | succ n ih =>
    intro t
    unfold probePost
    split
    · exact ⟨Nat.le_refl _, by omega⟩
    · split
      · exact ⟨Nat.le_refl _, by omega⟩
      · have := ih (t := t + 2)
        exact ⟨by omega, by omega⟩

theorem waitNopid_le {x : Site} {pid : Nat} : ∀ {n t : Nat}, t ≤ waitNopid x pid n t ∧ waitNopid x pid n t ≤ t + n := by
  intro n
  induction n with
  | zero => intro t; exact ⟨Nat.le_refl _, Nat.le_refl _⟩
  | succ n ih =>
    intro t
    unfold waitNopid
    split
    · exact ⟨Nat.le_refl _, by omega⟩
    · have := ih (t := t + 1)
      exact ⟨by omega, by omega⟩

/-- **C76 (i), partial** When "umount" without "lazy" ends with success, the server is gone, or it was there
for all of the last 120 seconds: after `n` seconds in which it ended it is known to be gone.  Thus if the
server leaves only after it has stored everything, and does so in two minutes, everything is stored when
"umount" ends.  For a longer time see `C76_slow_server_violated`. -/
theorem C76_umount_stored_partial {x : Site} {t : Nat} {o : Uopt} {arg : Path} {out : Option Out} {e : Nat}
    {g : Target} (hl : o.lazy = false) (hg : prepareUmount x t o arg = some g) (hc : g.notconn = false)
    (hp : g.pid ≠ 0) (h : umountCmd x t o arg = (out, .ok e)) {stored : Nat → Prop}
    (hst : ∀ u, x.alive u g.pid = false → stored u) :
    stored e ∨ ∀ k, k < 120 → x.alive (e - 120 + k) g.pid = true := by
  unfold umountCmd at h
  rw [hg] at h
  dsimp only at h
  split at h
  · injection h with _ h; cases h
  injection h with _ h
  injection h with h
  subst h
  unfold waitServer
  rw [if_neg (by rw [hc]; simpa using hp), hl, if_neg (by decide)]
  rcases waitNopid_end (x := x) (pid := g.pid) (n := 120) (t := probePost x g.path 5 (t + 3)) with h | ⟨h1, h2⟩
  · exact Or.inl (hst _ h)
  · refine Or.inr fun k hk => ?_
    rw [h1, Nat.add_sub_cancel]
    exact h2 k hk

/-- **C76 (i')** If the server is gone for good two minutes after the request, "umount" ends when it is. -/
theorem C76_umount_gone {x : Site} {t : Nat} {o : Uopt} {arg : Path} {out : Option Out} {e u : Nat}
    {g : Target} (hl : o.lazy = false) (hg : prepareUmount x t o arg = some g) (hc : g.notconn = false)
    (hp : g.pid ≠ 0) (h : umountCmd x t o arg = (out, .ok e)) (hu : u ≤ t + 123)
    (hgone : ∀ v, u ≤ v → x.alive v g.pid = false) : x.alive e g.pid = false := by
  unfold umountCmd at h
  rw [hg] at h
  dsimp only at h
  split at h
  · injection h with _ h; cases h
  injection h with _ h
  injection h with h
  subst h
  unfold waitServer
  rw [if_neg (by rw [hc]; simpa using hp), hl, if_neg (by decide)]
  rcases waitNopid_end (x := x) (pid := g.pid) (n := 120) (t := probePost x g.path 5 (t + 3)) with h | ⟨h1, h2⟩
  · exact h
  · rw [h1]
    have := probePost_ge (x := x) (p := g.path) (n := 5) (t := t + 3)
    exact hgone _ (by omega)

/-- **C76 (j)** Both commands end: "mount" no later than after twenty looks, "umount" after 133 seconds. -/
theorem C76_umount_ends (x : Site) (t : Nat) (o : Uopt) (arg : Path) :
    (umountCmd x t o arg).2.at ≤ t + 133 := by
  unfold umountCmd
  split
  · exact Nat.le_add_right _ _
  rename_i g hg
  split
  · show t + 2 ≤ t + 133; omega
  · show waitServer x o g (probePost x g.path 5 (t + 3)) ≤ t + 133
    have h1 := probePost_ge (x := x) (p := g.path) (n := 5) (t := t + 3)
    unfold waitServer
    split
    · omega
    · have h2 := waitNopid_le (x := x) (pid := g.pid) (n := if o.lazy then 2 else 120)
        (t := probePost x g.path 5 (t + 3))
      split at h2 <;> simp_all <;> omega

end Silofs.Mc
