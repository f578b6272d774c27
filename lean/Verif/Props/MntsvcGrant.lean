import Verif.Props.MntsvcCases
/-
C46: requests that must be granted are.
-/
set_option linter.unusedSimpArgs false
set_option linter.unusedVariables false
namespace Silofs.Mnt

/-- Both paths lead to one directory. -/
def SameDir (w : World) (p q : Path) : Prop :=
  ∃ a b, w.stat p = .ok a ∧ w.stat q = .ok b ∧ a.ino = b.ino ∧ a.dev = b.dev ∧ a.mode = b.mode

/-- What a request for a mount at `p` by a user must be like. -/
structure Entitled (s : Svc) (w : World) (m : Params) (p : Path) : Prop where
  path : m.path = some p
  flags : FlagsFine m.flags
  mode : m.rootMode &&& 0xF000 = 0x4000 ∧ m.rootMode &&& 0x1C0 ≠ 0
  ids : m.userId = s.peerUid ∧ m.groupId = s.peerGid
  read : 2 * s.pageSize ≤ m.maxRead ∧ m.maxRead ≤ 512 * s.pageSize
  rule : ∃ pre r post, s.rules = some (pre ++ r :: post) ∧ r.Lets s.peerUid ∧ SameDir w r.path p ∧
    ∀ x ∈ pre, ¬ SameDir w x.path p
  canon : w.canon p = .ok p
  dir : ∃ st, w.stat p = .ok st ∧ st.mode &&& 0xF000 = 0x4000 ∧ st.uid = s.peerUid ∧ st.nlink ≤ 2 ∧ st.ino ≠ 1
  fstype : ∃ ty, w.fstype p = .ok ty ∧ ty ∈ goodTypes

theorem matchMount_first (w : World) (p : Path) (st : Stat) (hst : w.stat p = .ok st) (r : Rule) (post : List Rule)
    (hr : SameDir w r.path p) (pre : List Rule) (hpre : ∀ x ∈ pre, ¬ SameDir w x.path p) (t : Nat) :
    matchMount (fun _ => w) st t (pre ++ r :: post) = some r := by
  induction pre generalizing t with
  | nil =>
    obtain ⟨a, b, h1, h2, h3, h4, h5⟩ := hr
    rw [hst] at h2
    obtain rfl := Except.ok.inj h2
    simp only [List.nil_append, matchMount]
    rw [if_pos]
    unfold equalPathByStat
    rw [h1]
    simp [h3, h4, h5]
  | cons x pre ih =>
    simp only [List.cons_append, matchMount]
    rw [if_neg, ih (fun y hy => hpre y (by simp [hy]))]
    intro he
    apply hpre x (by simp)
    unfold equalPathByStat at he
    cases hx : w.stat x.path with
    | error e => rw [hx] at he; simp at he
    | ok a =>
      rw [hx] at he
      simp only [Bool.and_eq_true, beq_iff_eq] at he
      exact ⟨a, st, hx, hst, he.1.1, he.1.2, he.2⟩

theorem flags_mask {fl : Nat} (h : FlagsFine fl) : fl &&& unsupMask = 0 := by
  apply Nat.eq_of_testBit_eq
  intro i
  rw [Nat.testBit_and, Nat.zero_testBit]
  by_cases hf : fl.testBit i = true
  · have hu : unsupMask.testBit i = false := by
      rcases h i hf with rfl | rfl | rfl | rfl | rfl <;> decide
    rw [hu, Bool.and_false]
  · simp [hf]

theorem mode_bit {m : Nat} (h : m &&& 0xF000 = 0x4000) : m &&& 0x4000 ≠ 0 := by
  intro h0
  have h1 := congrArg (fun x => x.testBit 14) h
  have h2 := congrArg (fun x => x.testBit 14) h0
  simp only [Nat.testBit_and] at h1 h2
  have e1 : (0xF000 : Nat).testBit 14 = true := by decide
  have e2 : (0x4000 : Nat).testBit 14 = true := by decide
  rw [e1, e2] at h1
  rw [e2] at h2
  simp at h1 h2
  rw [h1] at h2
  exact absurd h2 (by decide)

theorem good_fstype {ty : Nat} (h : ty ∈ goodTypes) : checkMntdirFstype ty = .ok () := by
  unfold goodTypes at h
  simp only [List.mem_cons, List.not_mem_nil, or_false] at h
  rcases h with rfl | rfl | rfl | rfl | rfl | rfl | rfl | rfl | rfl <;> rfl

/-- **C46**, mounting, the converse: a request by a user who is entitled, sent by
a client of the same version to a system where nothing changes meanwhile, leads
to the mount at that path with those flags. -/
theorem C46_mount_granted (v : Ver) (hv : v.major < 65536 ∧ v.minor < 65536) (s : Svc) (e : Env) (fd : Nat)
    (hd : e.dev = .ok fd) (w : World) (t : Nat) (m : Params) (hm : m.Fits) (hc : m.checkOnly = false) (p : Path)
    (h : Entitled s w m p) :
    ∃ rx tm d, clientMsg v 2 m = some rx ∧ (serve v s e (fun _ => w) t rx).1 = some (tm, .mount p m.flags d) ∧
      d.fd = fd ∧ d.rootMode = m.rootMode := by
  obtain ⟨rx, b, h1, h2, h3, h4⟩ := C46_message_roundtrip v hv 2 (by decide) m hm
  obtain ⟨pre, r, post, hrs, hl, hsame, hpre⟩ := h.rule
  obtain ⟨st, hst, hdir, huid, hnl, hino⟩ := h.dir
  obtain ⟨ty, hty, hgood⟩ := h.fstype
  have hpne : p ≠ [] := (hm.path p h.path).1
  have hrule : checkMountRule s (fun _ => w) t p = .ok () := by
    unfold checkMountRule
    rw [hrs]
    simp only
    rw [hst]
    simp only
    rw [matchMount_first w p st hst r post hsame pre hpre]
    simp only
    rw [if_neg]
    rintro ⟨ha, hb⟩
    rcases hl with hl | hl
    · exact ha hl
    · exact hb hl
  have hpath : ∀ t, checkMountPath (fun _ => w) t p s.peerUid = .ok () := by
    intro t
    unfold checkMountPath checkCanonicalPath
    rw [if_neg hpne, h.canon]
    simp only [if_true]
    unfold checkMntpoint
    rw [hst]
    simp only
    rw [if_neg (by unfold isDir; rw [hdir]; decide), if_pos trivial, if_neg (by omega), if_neg hino,
      if_neg (by intro hh; exact hh huid.symm), hty]
    exact good_fstype hgood
  have hck : checkMount s (fun _ => w) t m = .ok () := by
    unfold checkMount
    rw [if_neg (by intro hh; exact hh (flags_mask h.flags)), if_neg h.mode.2, if_neg (mode_bit h.mode.1),
      if_neg (by rintro (hh | hh); exact hh h.ids.1; exact hh h.ids.2), if_neg (by have := h.read; omega),
      if_neg (by have := h.read; omega), h.path]
    simp only
    rw [hrule]
    exact hpath _
  have hex : (execMount s e (fun _ => w) t m).sys =
      some (t + 4 + (s.rules.getD []).length, .mount p m.flags (mountData m fd)) := by
    unfold execMount
    rw [hck]
    simp only
    rw [if_neg (by rw [hc]; decide), h.path]
    simp only
    unfold doMount
    rw [hd]
    simp only
    cases e.mountErr <;> rfl
  refine ⟨rx, t + 4 + (s.rules.getD []).length, mountData m fd, h1, ?_, rfl, rfl⟩
  unfold serve
  rw [h2]
  simp only
  rw [h3, h4]
  unfold execRequest
  rw [if_neg (by decide), if_pos rfl]
  exact hex

namespace Case

/-- The user of the cases is entitled. -/
theorem entitled : Entitled (svc 1000 (some [rule1])) plain (mnt hm 6 1000 0x41C0) hm := by
  refine ⟨rfl, ?_, ⟨by decide, by decide⟩, ⟨rfl, rfl⟩, ⟨by decide, by decide⟩,
    ⟨[], rule1, [], rfl, Or.inr rfl, ⟨home, home, rfl, rfl, rfl, rfl, rfl⟩, by simp⟩, rfl,
    ⟨home, rfl, by decide, rfl, by decide, by decide⟩, ⟨0xEF53, rfl, by decide⟩⟩
  intro i hi
  by_cases h : i < 3
  · have : i = 0 ∨ i = 1 ∨ i = 2 := by omega
    rcases this with rfl | rfl | rfl
    · exact Or.inl rfl
    · exact Or.inr (Or.inl rfl)
    · exact Or.inr (Or.inr (Or.inl rfl))
  · exfalso
    have h2 : (6 : Nat) < 2 ^ i := Nat.lt_of_lt_of_le (by decide : 6 < 2 ^ 3) (Nat.pow_le_pow_right (by decide) (by omega))
    rw [show (mnt hm 6 1000 0x41C0).flags = 6 from rfl, Nat.testBit_lt_two_pow h2] at hi
    exact absurd hi (by decide)

/-- False: "a rule that lets a user makes the mount possible": only the first
rule for a directory counts, a second one for another user has no effect
(lib/mntsvc.c:817-823), so that no directory can be given to two users. -/
theorem C46_second_rule_violated : ∃ (s : Svc) (e : Env) (w : World) (r : Rule) (m : Params) (rs : List Rule),
    s.rules = some rs ∧ r ∈ rs ∧ r.Lets s.peerUid ∧ m.path = some r.path ∧
      (serve ver s e (fun _ => w) 0 (msg 2 m)).1 = none ∧
      (serve ver ⟨s.peerUid, s.peerGid, s.pageSize, some [r]⟩ e (fun _ => w) 0 (msg 2 m)).1 ≠ none :=
  ⟨svc 1000 (some [⟨hm, 2000, false⟩, rule1]), env, plain, rule1, mnt hm 6 1000 0x41C0, _, rfl, by simp,
    Or.inr rfl, rfl, by decide +kernel, by decide +kernel⟩

end Case
end Silofs.Mnt
