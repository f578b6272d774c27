import Verif.Model.Mntsvc
/-
C46: what an unprivileged user can make the privileged mount service do.
-/
set_option linter.unusedSimpArgs false
set_option linter.unusedVariables false
namespace Silofs.Mnt

/-! ### Specification -/

/-- The rule lets the user. -/
def Rule.Lets (r : Rule) (uid : Nat) : Prop := r.uid = 4294967295 ∨ r.uid = uid

/-- Types of file-systems below a mount point that are fine. -/
def goodTypes : List Nat :=
  [0x58465342, 0xEF53, 0x2FC12FC1, 0x9123683E, 0x00C36400, 0xFF534D42, 0xF2F52010, 0x6969, 0x5346544E]

/-- Everything that must have been seen, between times `t` and `tm`, for a mount
at `p` on behalf of `uid`. -/
structure Authorized (rules : Option (List Rule)) (w : Nat → World) (t tm uid : Nat) (p : Path) : Prop where
  rule : ∃ rs r st sr t1 t2, rules = some rs ∧ r ∈ rs ∧ r.Lets uid ∧ t ≤ t1 ∧ t1 < tm ∧ t ≤ t2 ∧ t2 < tm ∧
    (w t1).stat p = .ok st ∧ (w t2).stat r.path = .ok sr ∧ sr.ino = st.ino ∧ sr.dev = st.dev ∧ sr.mode = st.mode
  canon : ∃ t1, t ≤ t1 ∧ t1 < tm ∧ p ≠ [] ∧ (w t1).canon p = .ok p
  owned : ∃ st t1, t ≤ t1 ∧ t1 < tm ∧ (w t1).stat p = .ok st ∧ st.mode &&& 0xF000 = 0x4000 ∧ st.uid = uid ∧
    st.nlink ≤ 2 ∧ st.ino ≠ 1
  fstype : ∃ ty t1, t ≤ t1 ∧ t1 < tm ∧ (w t1).fstype p = .ok ty ∧ ty ∈ goodTypes

/-- Flags are only among read-only, nosuid, nodev, noexec and lazytime. -/
def FlagsFine (fl : Nat) : Prop := ∀ i, fl.testBit i = true → i = 0 ∨ i = 1 ∨ i = 2 ∨ i = 3 ∨ i = 25

/-! ### Decisions -/

theorem fstype_good {ty : Nat} (h : checkMntdirFstype ty = .ok ()) : ty ∈ goodTypes := by
  unfold checkMntdirFstype at h
  cases hf : fsinfoAllowed.find? (fun i => i.1 == ty) with
  | none => rw [hf] at h; exact nomatch h
  | some x =>
    rw [hf] at h
    have hm := List.mem_of_find?_eq_some hf
    have he := List.find?_some hf
    obtain ⟨a, b, c⟩ := x
    simp only [beq_iff_eq] at he
    simp only at h
    by_cases hc : (c || !b) = true
    · rw [if_pos hc] at h; exact nomatch h
    · subst he
      have : ∀ y ∈ fsinfoAllowed, ¬((y.2.2 || !y.2.1) = true) → y.1 ∈ goodTypes := by decide
      exact this _ hm hc

theorem mntpoint_mounting {w : Nat → World} {t : Nat} {p : Path} {uid : Nat}
    (h : checkMntpoint w t p uid true = .ok ()) :
    ∃ st ty, (w t).stat p = .ok st ∧ st.mode &&& 0xF000 = 0x4000 ∧ st.uid = uid ∧ st.nlink ≤ 2 ∧ st.ino ≠ 1 ∧
      (w (t + 1)).fstype p = .ok ty ∧ ty ∈ goodTypes := by
  unfold checkMntpoint at h
  cases hs : (w t).stat p with
  | error e =>
    rw [hs] at h
    simp only at h
    by_cases hc : e = 13 ∧ true = false
    · exact nomatch hc.2
    · rw [if_neg hc] at h; exact nomatch h
  | ok st =>
    rw [hs] at h
    simp only at h
    by_cases h1 : isDir st.mode = false
    · rw [if_pos h1] at h; exact nomatch h
    rw [if_neg h1, if_pos trivial] at h
    by_cases h2 : 2 < st.nlink
    · rw [if_pos h2] at h; exact nomatch h
    rw [if_neg h2] at h
    by_cases h3 : st.ino = 1
    · rw [if_pos h3] at h; exact nomatch h
    rw [if_neg h3] at h
    by_cases h4 : uid ≠ st.uid
    · rw [if_pos h4] at h; exact nomatch h
    rw [if_neg h4] at h
    cases hf : (w (t + 1)).fstype p with
    | error e => rw [hf] at h; exact nomatch h
    | ok ty =>
      rw [hf] at h
      refine ⟨st, ty, rfl, ?_, ?_, by omega, h3, rfl, fstype_good h⟩
      · simpa [isDir] using h1
      · exact (Classical.not_not.mp h4).symm

theorem matchMount_some {w : Nat → World} {st : Stat} {l : List Rule} {t : Nat} {r : Rule}
    (h : matchMount w st t l = some r) :
    r ∈ l ∧ ∃ sr t2, t ≤ t2 ∧ t2 < t + l.length ∧ (w t2).stat r.path = .ok sr ∧
      sr.ino = st.ino ∧ sr.dev = st.dev ∧ sr.mode = st.mode := by
  induction l generalizing t with
  | nil => exact nomatch h
  | cons x l ih =>
    unfold matchMount at h
    by_cases hc : equalPathByStat (w t) x.path st = true
    · rw [if_pos hc] at h
      obtain rfl := Option.some.inj h
      unfold equalPathByStat at hc
      cases hs : (w t).stat x.path with
      | error e => rw [hs] at hc; exact nomatch hc
      | ok sr =>
        rw [hs] at hc
        simp only [Bool.and_eq_true, beq_iff_eq] at hc
        exact ⟨by simp, sr, t, Nat.le_refl _, by simp, hs, hc.1.1, hc.1.2, hc.2⟩
    · rw [if_neg hc] at h
      obtain ⟨hm, sr, t2, h1, h2, h3⟩ := ih h
      exact ⟨by simp [hm], sr, t2, by omega, by simp only [List.length_cons]; omega, h3⟩

theorem checkMountRule_ok {s : Svc} {w : Nat → World} {t : Nat} {p : Path}
    (h : checkMountRule s w t p = .ok ()) :
    ∃ rs r st sr t2, s.rules = some rs ∧ r ∈ rs ∧ r.Lets s.peerUid ∧ t ≤ t2 ∧ t2 < t + 1 + rs.length ∧
      (w t).stat p = .ok st ∧ (w t2).stat r.path = .ok sr ∧ sr.ino = st.ino ∧ sr.dev = st.dev ∧
      sr.mode = st.mode := by
  unfold checkMountRule at h
  cases hr : s.rules with
  | none => rw [hr] at h; exact nomatch h
  | some rs =>
    rw [hr] at h
    simp only at h
    cases hs : (w t).stat p with
    | error e => rw [hs] at h; exact nomatch h
    | ok st =>
      rw [hs] at h
      simp only at h
      cases hm : matchMount w st (t + 1) rs with
      | none => rw [hm] at h; exact nomatch h
      | some r =>
        rw [hm] at h
        simp only at h
        by_cases hu : r.uid ≠ uidNone ∧ r.uid ≠ s.peerUid
        · rw [if_pos hu] at h; exact nomatch h
        obtain ⟨h1, sr, t2, h2, h3, h4, h5⟩ := matchMount_some hm
        refine ⟨rs, r, st, sr, t2, rfl, h1, ?_, by omega, by omega, rfl, h4, h5⟩
        unfold Rule.Lets
        unfold uidNone at hu
        omega

theorem checkMount_ok {s : Svc} {w : Nat → World} {t : Nat} {m : Params}
    (h : checkMount s w t m = .ok ()) :
    ∃ p, m.path = some p ∧ m.flags &&& unsupMask = 0 ∧ m.rootMode &&& 0x1C0 ≠ 0 ∧ m.rootMode &&& 0x4000 ≠ 0 ∧
      m.userId = s.peerUid ∧ m.groupId = s.peerGid ∧ 2 * s.pageSize ≤ m.maxRead ∧ m.maxRead ≤ 512 * s.pageSize ∧
      Authorized s.rules w t (t + 4 + (s.rules.getD []).length) s.peerUid p := by
  unfold checkMount at h
  by_cases h1 : m.flags &&& unsupMask ≠ 0
  · rw [if_pos h1] at h; exact nomatch h
  rw [if_neg h1] at h
  by_cases h2 : m.rootMode &&& 0x1C0 = 0
  · rw [if_pos h2] at h; exact nomatch h
  rw [if_neg h2] at h
  by_cases h3 : m.rootMode &&& 0x4000 = 0
  · rw [if_pos h3] at h; exact nomatch h
  rw [if_neg h3] at h
  by_cases h4 : m.userId ≠ s.peerUid ∨ m.groupId ≠ s.peerGid
  · rw [if_pos h4] at h; exact nomatch h
  rw [if_neg h4] at h
  by_cases h5 : m.maxRead < 2 * s.pageSize
  · rw [if_pos h5] at h; exact nomatch h
  rw [if_neg h5] at h
  by_cases h6 : 512 * s.pageSize < m.maxRead
  · rw [if_pos h6] at h; exact nomatch h
  rw [if_neg h6] at h
  cases hp : m.path with
  | none => rw [hp] at h; exact nomatch h
  | some p =>
    rw [hp] at h
    simp only at h
    cases hr : checkMountRule s w t p with
    | error e => rw [hr] at h; exact nomatch h
    | ok u =>
      rw [hr] at h
      simp only at h
      obtain ⟨rs, r, st, sr, t2, a1, a2, a3, a4, a5, a6⟩ := checkMountRule_ok hr
      have hl : (s.rules.getD []).length = rs.length := by rw [a1]; rfl
      unfold checkMountPath at h
      cases hc : checkCanonicalPath (w (t + 1 + (s.rules.getD []).length)) p with
      | error e => rw [hc] at h; exact nomatch h
      | ok u2 =>
        rw [hc] at h
        simp only at h
        obtain ⟨std, ty, b1, b2, b3, b4, b5, b6, b7⟩ := mntpoint_mounting h
        refine ⟨p, rfl, by omega, h2, h3, by omega, by omega, by omega, by omega, ?_, ?_, ?_, ?_⟩
        · exact ⟨rs, r, st, sr, t, t2, a1, a2, a3, Nat.le_refl _, by omega, a4, by omega, a6⟩
        · refine ⟨t + 1 + (s.rules.getD []).length, ?_, ?_, ?_, ?_⟩
          · omega
          · omega
          · intro hz
            unfold checkCanonicalPath at hc
            rw [if_pos hz] at hc; exact nomatch hc
          · unfold checkCanonicalPath at hc
            by_cases hz : p = []
            · rw [if_pos hz] at hc; exact nomatch hc
            rw [if_neg hz] at hc
            cases hq : (w (t + 1 + (s.rules.getD []).length)).canon p with
            | error e => rw [hq] at hc; exact nomatch hc
            | ok c =>
              rw [hq] at hc
              simp only at hc
              by_cases hpc : p = c
              · rw [hpc]
              · rw [if_neg hpc] at hc; exact nomatch hc
        · exact ⟨std, _, by omega, by omega, b1, b2, b3, b4, b5⟩
        · exact ⟨ty, _, by omega, by omega, b6, b7⟩

theorem fld_lt (b : List Nat) (hb : ∀ x ∈ b, x < 256) (o n : Nat) : fld b o n < 256 ^ n := by
  unfold fld
  have h1 := leVal_lt ((b.drop o).take n) (fun x hx => hb x (List.mem_of_mem_drop (List.mem_of_mem_take hx)))
  have h2 : ((b.drop o).take n).length ≤ n := by simp; omega
  exact Nat.lt_of_lt_of_le h1 (Nat.pow_le_pow_right (by decide) h2)

theorem flags_fine {fl : Nat} (hl : fl < 256 ^ 8) (h : fl &&& unsupMask = 0) : FlagsFine fl := by
  intro i hi
  have hlt : i < 64 := by
    by_cases hc : i < 64
    · exact hc
    · have : fl < 2 ^ i := Nat.lt_of_lt_of_le hl (by
        rw [show (256 ^ 8 : Nat) = 2 ^ 64 by decide]; exact Nat.pow_le_pow_right (by decide) (by omega))
      rw [Nat.testBit_lt_two_pow this] at hi
      exact nomatch hi
  have h2 : (fl &&& unsupMask).testBit i = false := by rw [h]; simp
  rw [Nat.testBit_and, hi, Bool.true_and] at h2
  have : ∀ j : Fin 64, unsupMask.testBit j = false → j.val = 0 ∨ j.val = 1 ∨ j.val = 2 ∨ j.val = 3 ∨ j.val = 25 := by
    decide +kernel
  exact this ⟨i, hlt⟩ h2

/-! ### The message -/

theorem encMsg_bytes (v : Ver) (c st fl u g m x : Nat) (a k : Bool) (p : Path) (hp : ∀ b ∈ p, b < 256) :
    ∀ b ∈ encMsg v c st fl u g m x a k p, b < 256 := by
  intro b hb
  unfold encMsg at hb
  simp only [List.mem_append, List.mem_singleton, List.mem_replicate] at hb
  rcases hb with ((((((((((((h | h) | h) | h) | h) | h) | h) | h) | h) | h) | h) | h) | h) | (h | h)
  all_goals first
    | exact leBytes_lt _ _ _ h
    | exact hp _ h
    | (cases a <;> simp at h <;> omega)
    | (cases k <;> simp at h <;> omega)
    | omega

theorem recv_bytes {v : Ver} {rx b : List Nat} (hrx : ∀ x ∈ rx, x < 256) (h : recvRequest v rx = .ok b) :
    ∀ x ∈ b, x < 256 := by
  unfold recvRequest at h
  by_cases h1 : (rx.take 2048).length < 56
  · rw [if_pos h1] at h; exact nomatch h
  rw [if_neg h1] at h
  cases hc : checkMsg v (rx.take 2048 ++ (resetMsg v 0).drop (rx.take 2048).length) with
  | error e => rw [hc] at h; exact nomatch h
  | ok u =>
    rw [hc] at h
    injection h with h
    subst h
    intro x hx
    rcases List.mem_append.1 hx with hx | hx
    · exact hrx x (List.mem_of_mem_take hx)
    · exact encMsg_bytes v 0 0 0 0 0 0 0 false false [] (by simp) x (List.mem_of_mem_drop hx)

theorem serve_sys {v : Ver} {s : Svc} {e : Env} {w : Nat → World} {t : Nat} {rx : List Nat} {x : Nat × Sys}
    {resp : Option Resp} (h : serve v s e w t rx = (some x, resp)) :
    ∃ b, recvRequest v rx = .ok b ∧ (execRequest s e w t (fld b 8 4) (toParams b)).sys = some x := by
  unfold serve at h
  cases hr : recvRequest v rx with
  | error e => rw [hr] at h; exact nomatch h
  | ok b =>
    rw [hr] at h
    exact ⟨b, rfl, (Prod.mk.inj h).1⟩

theorem execUmount_not_mount {s : Svc} {e : Env} {w : Nat → World} {t : Nat} {m : Params} {tm : Nat} {p : Path}
    {fl : Nat} {d : MountData} (h : (execUmount s e w t m).sys = some (tm, .mount p fl d)) : False := by
  unfold execUmount doUmount at h
  cases hc : checkUmount s w t m with
  | error x =>
    rw [hc] at h
    simp only at h
    by_cases hx : x ≠ 107
    · rw [if_pos hx] at h; exact nomatch h
    · rw [if_neg hx] at h
      cases hp : m.path <;> rw [hp] at h <;> simp at h
  | ok u =>
    rw [hc] at h
    cases hp : m.path <;> rw [hp] at h <;> simp at h

/-- **C46**, mounting: whatever bytes a peer sends, whatever the rules and
however the file-system changes meanwhile, a mount is made only at a path for
which, just before, a rule that lets the peer named the same directory, the path
was canonical and a directory of the peer's own without sub-directories on a
file-system of an allowed type; it is made for the peer's own user and group, and
with no flags other than ro, nosuid, nodev, noexec, lazytime. -/
theorem C46_mount_authorized (v : Ver) (s : Svc) (e : Env) (w : Nat → World) (t : Nat) (rx : List Nat)
    (hrx : ∀ b ∈ rx, b < 256) (tm : Nat) (p : Path) (fl : Nat) (d : MountData) (resp : Option Resp)
    (h : serve v s e w t rx = (some (tm, .mount p fl d), resp)) :
    Authorized s.rules w t tm s.peerUid p ∧ FlagsFine fl ∧ d.userId = asInt s.peerUid ∧
      d.groupId = asInt s.peerGid := by
  obtain ⟨b, hb, hs⟩ := serve_sys h
  have hbytes := recv_bytes hrx hb
  unfold execRequest at hs
  by_cases h1 : fld b 8 4 = 1
  · rw [if_pos h1] at hs; exact nomatch hs
  rw [if_neg h1] at hs
  by_cases h2 : fld b 8 4 = 2
  · rw [if_pos h2] at hs
    unfold execMount at hs
    cases hc : checkMount s w t (toParams b) with
    | error x => rw [hc] at hs; exact nomatch hs
    | ok u =>
      rw [hc] at hs
      simp only at hs
      obtain ⟨q, c1, c2, c3, c4, c5, c6, c7, c8, c9⟩ := checkMount_ok hc
      by_cases hk : (toParams b).checkOnly = true
      · rw [if_pos hk] at hs; exact nomatch hs
      rw [if_neg hk, c1] at hs
      simp only at hs
      unfold doMount at hs
      cases hd : e.dev with
      | error x => rw [hd] at hs; exact nomatch hs
      | ok fd =>
        rw [hd] at hs
        simp only at hs
        have key : (some (t + 4 + (s.rules.getD []).length, Sys.mount q (toParams b).flags (mountData (toParams b) fd))) =
            some (tm, Sys.mount p fl d) := by
          cases he : e.mountErr <;> rw [he] at hs <;> exact hs
        simp only [Option.some.injEq, Prod.mk.injEq, Sys.mount.injEq] at key
        obtain ⟨k1, k2, k3, k4⟩ := key
        subst k1; subst k2; subst k3; subst k4
        refine ⟨c9, flags_fine (fld_lt b hbytes 16 8) c2, ?_, ?_⟩
        · show asInt (toParams b).userId = _
          rw [c5]
        · show asInt (toParams b).groupId = _
          rw [c6]
  · rw [if_neg h2] at hs
    by_cases h3 : fld b 8 4 = 3
    · rw [if_pos h3] at hs; exact (execUmount_not_mount hs).elim
    · rw [if_neg h3] at hs; exact nomatch hs

/-- **C46**, mounting, when nothing changes meanwhile: the directory mounted
over is the peer's own and a rule for that very directory lets the peer. -/
theorem C46_mount_static (v : Ver) (s : Svc) (e : Env) (w : World) (t : Nat) (rx : List Nat)
    (hrx : ∀ b ∈ rx, b < 256) (tm : Nat) (p : Path) (fl : Nat) (d : MountData) (resp : Option Resp)
    (h : serve v s e (fun _ => w) t rx = (some (tm, .mount p fl d), resp)) :
    ∃ rs r st sr, s.rules = some rs ∧ r ∈ rs ∧ r.Lets s.peerUid ∧ w.stat p = .ok st ∧
      w.stat r.path = .ok sr ∧ sr.ino = st.ino ∧ sr.dev = st.dev ∧ w.canon p = .ok p ∧
      st.mode &&& 0xF000 = 0x4000 ∧ st.uid = s.peerUid ∧ st.nlink ≤ 2 := by
  obtain ⟨a, _⟩ := C46_mount_authorized v s e _ t rx hrx tm p fl d resp h
  obtain ⟨rs, r, st, sr, t1, t2, h1, h2, h3, _, _, _, _, h4, h5, h6, h7, _⟩ := a.rule
  obtain ⟨t3, _, _, _, h8⟩ := a.canon
  obtain ⟨st', t4, _, _, h9, h10, h11, h12, _⟩ := a.owned
  have : st = st' := by
    have := h4.symm.trans h9
    exact Except.ok.inj this
  subst this
  exact ⟨rs, r, st, sr, h1, h2, h3, h4, h5, h6, h7, h8, h10, h11, h12⟩

/-- One connection: the peer, failures of system calls, and the bytes sent. -/
structure Conn where
  uid : Nat
  gid : Nat
  env : Env
  rx : List Nat

/-- Connections served one after the other, each at its own time; the changing
system calls with the peer that caused them. -/
def serveAll (v : Ver) (page : Nat) (rules : Option (List Rule)) (w : Nat → World) :
    Nat → List Conn → List (Nat × Nat × Sys)
  | _, [] => []
  | t, c :: l =>
    (match (serve v ⟨c.uid, c.gid, page, rules⟩ c.env w t c.rx).1 with
     | none => []
     | some (tm, x) => [(c.uid, tm, x)]) ++
    serveAll v page rules w (t + 5 + (rules.getD []).length) l

/-- **C46**, any history: of all mounts ever made, each was authorised for the
user who asked. -/
theorem C46_history (v : Ver) (page : Nat) (rules : Option (List Rule)) (w : Nat → World) (t : Nat)
    (l : List Conn) (hl : ∀ c ∈ l, ∀ b ∈ c.rx, b < 256) (uid tm : Nat) (p : Path) (fl : Nat) (d : MountData)
    (h : (uid, tm, Sys.mount p fl d) ∈ serveAll v page rules w t l) :
    Authorized rules w t tm uid p ∧ FlagsFine fl ∧ d.userId = asInt uid := by
  induction l generalizing t with
  | nil => simp [serveAll] at h
  | cons c l ih =>
    unfold serveAll at h
    rcases List.mem_append.1 h with h | h
    · cases hs : serve v ⟨c.uid, c.gid, page, rules⟩ c.env w t c.rx with
      | mk x resp =>
        rw [hs] at h
        cases x with
        | none => simp at h
        | some y =>
          obtain ⟨tm', y⟩ := y
          simp only [List.mem_singleton, Prod.mk.injEq] at h
          obtain ⟨rfl, rfl, rfl⟩ := h
          obtain ⟨a, b, c', _⟩ := C46_mount_authorized v _ c.env w t c.rx (hl c (by simp)) _ p fl d resp hs
          exact ⟨a, b, c'⟩
    · obtain ⟨a, b⟩ := ih _ (fun c hc => hl c (by simp [hc])) h
      refine ⟨⟨?_, ?_, ?_, ?_⟩, b⟩
      · obtain ⟨rs, r, st, sr, t1, t2, x1, x2, x3, x4, x5, x6, x7⟩ := a.rule
        exact ⟨rs, r, st, sr, t1, t2, x1, x2, x3, by omega, x5, by omega, x7⟩
      · obtain ⟨t1, x1, x2⟩ := a.canon
        exact ⟨t1, by omega, x2⟩
      · obtain ⟨st, t1, x1, x2⟩ := a.owned
        exact ⟨st, t1, by omega, x2⟩
      · obtain ⟨ty, t1, x1, x2⟩ := a.fstype
        exact ⟨ty, t1, by omega, x2⟩

end Silofs.Mnt
