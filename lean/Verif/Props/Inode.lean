import Verif.Model.Inode
import Verif.Props.Access
/-
C33: who may change mode and owner, which bits come out; C40: time stamps, and setattr as one request.
Bits are named by number: 0-8 are the rights (3 group execute), 10 set-group-id, 11 set-user-id, 12-15 the type.
-/
set_option linter.unusedSimpArgs false
set_option linter.unusedVariables false
namespace Silofs.Attr
open Silofs.Ns (Cred hasBit hasBit_pow hasBit_or)

/-! ### Bits -/

theorem testBit_clr (m b k : Nat) : (clr m b).testBit k = (m.testBit k && !b.testBit k) := by
  simp only [clr, Nat.testBit_xor, Nat.testBit_and]
  cases m.testBit k <;> cases b.testBit k <;> rfl

theorem ifmt_testBit (k : Nat) : sIFMT.testBit k = decide (12 ≤ k ∧ k < 16) := by
  have h : sIFMT = (2 ^ 4 - 1) <<< 12 := by decide
  rw [h, Nat.testBit_shiftLeft, Nat.testBit_two_pow_sub_one]
  by_cases h1 : 12 ≤ k <;> by_cases h2 : k < 16 <;> simp [h1, h2] <;> omega

theorem suid_testBit (k : Nat) : sISUID.testBit k = decide (k = 11) := by
  rw [show sISUID = 2 ^ 11 from rfl, Nat.testBit_two_pow]
  simp only [eq_comm]

theorem sgid_testBit (k : Nat) : sISGID.testBit k = decide (k = 10) := by
  rw [show sISGID = 2 ^ 10 from rfl, Nat.testBit_two_pow]
  simp only [eq_comm]

theorem ixgrp_testBit (k : Nat) : sIXGRP.testBit k = decide (k = 3) := by
  rw [show sIXGRP = 2 ^ 3 from rfl, Nat.testBit_two_pow]
  simp only [eq_comm]

theorem both_bits (m : Nat) : ((m &&& (sISGID ||| sIXGRP)) == (sISGID ||| sIXGRP)) =
    (m.testBit 10 && m.testBit 3) := by
  rw [Bool.eq_iff_iff, beq_iff_eq, Bool.and_eq_true]
  constructor
  · intro h
    have h10 := congrArg (·.testBit 10) h
    have h3 := congrArg (·.testBit 3) h
    simp only [Nat.testBit_and, Nat.testBit_or, sgid_testBit, ixgrp_testBit] at h10 h3
    simp at h10 h3
    exact ⟨h10, h3⟩
  · rintro ⟨h10, h3⟩
    apply Nat.eq_of_testBit_eq
    intro k
    simp only [Nat.testBit_and, Nat.testBit_or, sgid_testBit, ixgrp_testBit]
    by_cases a : k = 10
    · subst a; simp [h10]
    · by_cases b : k = 3
      · subst b; simp [h3]
      · simp [a, b]

/-- The bits left by `kill`. -/
theorem testBit_kill (su sg : Bool) (m k : Nat) : (kill su sg m).testBit k =
    (m.testBit k && !(su && decide (k = 11)) && !(sg && decide (k = 10) && m.testBit 3)) := by
  unfold kill
  rw [both_bits, show sISUID = 2 ^ 11 from rfl, hasBit_pow]
  have e : ∀ m, (clr m (2 ^ 11)).testBit k = (m.testBit k && !decide (k = 11)) := fun m => by
    rw [testBit_clr, show (2 : Nat) ^ 11 = sISUID from rfl, suid_testBit]
  have e2 : ∀ m, (clr m sISGID).testBit k = (m.testBit k && !decide (k = 10)) := fun m => by
    rw [testBit_clr, sgid_testBit]
  by_cases a : k = 10
  · subst a
    cases su <;> cases sg <;> cases h : m.testBit 11 <;> cases h' : m.testBit 10 <;> cases h'' : m.testBit 3 <;>
      simp [e, e2, h, h', h'']
  · by_cases b : k = 11
    · subst b
      cases su <;> cases sg <;> cases h : m.testBit 11 <;> cases h' : m.testBit 10 <;> cases h'' : m.testBit 3 <;>
        simp [e, e2, h, h', h'']
    · cases su <;> cases sg <;> cases h : m.testBit 11 <;> cases h' : m.testBit 10 <;> cases h'' : m.testBit 3 <;>
        simp [e, e2, h, h', h'', a, b]

theorem and_ifmt_eq (m n : Nat) : m &&& sIFMT = n &&& sIFMT ↔
    ∀ k, 12 ≤ k → k < 16 → m.testBit k = n.testBit k := by
  constructor
  · intro h k h1 h2
    have := congrArg (·.testBit k) h
    simpa [Nat.testBit_and, ifmt_testBit, h1, h2] using this
  · intro h
    apply Nat.eq_of_testBit_eq
    intro k
    simp only [Nat.testBit_and, ifmt_testBit]
    by_cases hk : 12 ≤ k ∧ k < 16
    · rw [h k hk.1 hk.2]
    · simp [hk]

theorem and_ifmt_zero (m : Nat) : m &&& sIFMT = 0 ↔ ∀ k, 12 ≤ k → k < 16 → m.testBit k = false := by
  have := and_ifmt_eq m 0
  simpa using this

/-! ### C33: chmod -/

/-- The type in the request is absent or that of the file. -/
def TypeOk (req mode : Nat) : Prop :=
  (∀ k, 12 ≤ k → k < 16 → req.testBit k = false) ∨ (∀ k, 12 ≤ k → k < 16 → mode.testBit k = req.testBit k)

/-- C33. chmod is allowed exactly to the owner and to the privileged, and cannot ask for another type. -/
theorem C33_chmod_allowed (cr : Cred) (now : Nat) (px : Bool) (mode : Nat) (tms : Times) (a : I) :
    (chmod cr now px mode tms a).isSome = true ↔
      px = true ∧ TypeOk mode a.mode ∧ (cr.uid = a.uid ∨ cr.host = 0) := by
  have hc : checkChmod cr a mode = true ↔ TypeOk mode a.mode ∧ (cr.uid = a.uid ∨ cr.host = 0) := by
    unfold checkChmod TypeOk
    rw [← and_ifmt_zero, ← and_ifmt_eq]
    split
    · rename_i h
      simp [h]
    · rename_i h
      simp [h]
  unfold chmod
  split
  · rename_i h
    rw [Bool.and_eq_true, hc] at h
    exact iff_of_true rfl ⟨h.2, h.1⟩
  · rename_i h
    rw [Bool.and_eq_true, hc] at h
    exact iff_of_false (by simp) (fun h' => h ⟨h'.2, h'.1⟩)

/-- What chmod leaves: type bits are kept, the other bits are those asked for, except that set-group-id of a
group-executable file is dropped for a caller outside of the group; owner, size and the two other times are kept
and the time of change is the one in the request. -/
def ChmodPost (cr : Cred) (now mode : Nat) (tms : Times) (a r : I) : Prop :=
  (∀ k, 12 ≤ k → k < 16 → r.mode.testBit k = a.mode.testBit k) ∧
  (∀ k, ¬ (12 ≤ k ∧ k < 16) → k ≠ 10 → r.mode.testBit k = mode.testBit k) ∧
  (r.mode.testBit 10 = true ↔
    mode.testBit 10 = true ∧ ¬ (mode.testBit 3 = true ∧ cr.gid ≠ a.gid ∧ cr.uid ≠ 0)) ∧
  r.uid = a.uid ∧ r.gid = a.gid ∧ r.size = a.size ∧ r.atime = a.atime ∧ r.mtime = a.mtime ∧
  r.ctime = (tms.ctime.of now).getD a.ctime

theorem newMode_testBit (a : I) (mode k : Nat) : (newMode a mode).testBit k =
    if 12 ≤ k ∧ k < 16 then a.mode.testBit k else mode.testBit k := by
  simp only [newMode, Nat.testBit_or, Nat.testBit_and, testBit_clr, ifmt_testBit]
  by_cases h : 12 ≤ k ∧ k < 16 <;> simp [h]

/-- C33. -/
theorem C33_chmod (cr : Cred) (now : Nat) (px : Bool) (mode : Nat) (tms : Times) (a r : I)
    (h : chmod cr now px mode tms a = some r) : ChmodPost cr now mode tms a r := by
  simp only [chmod] at h
  split at h
  · have e := (Option.some.inj h).symm
    subst e
    refine ⟨fun k h1 h2 => ?_, fun k h1 h2 => ?_, ?_, ?_, ?_, ?_, ?_, ?_, ?_⟩ <;>
      simp [update, Upd.some, testBit_kill, newMode_testBit]
    · have : k ≠ 10 := by omega
      simp [h1, h2, this]
    · rw [if_neg h1]
      simp [h2]
    · cases mode.testBit 10 <;> cases mode.testBit 3 <;> simp
      by_cases hg : a.gid = cr.gid <;> by_cases hu : cr.uid = 0 <;> simp [hg, hu, eq_comm]
      · intro he; exact absurd he.symm hg
  · cases h

/-- POSIX chmod: for a caller that is neither privileged nor in the group of the file the set-group-id bit is off
afterwards. -/
def ChmodSgid (cr : Cred) (a r : I) : Prop := cr.uid ≠ 0 → cr.gid ≠ a.gid → r.mode.testBit 10 = false

/-- C33 (partial). It is, if the file ends up executable by its group. -/
theorem C33_chmod_sgid_partial (cr : Cred) (now : Nat) (px : Bool) (mode : Nat) (tms : Times) (a r : I)
    (h : chmod cr now px mode tms a = some r) (hx : mode.testBit 3 = true) : ChmodSgid cr a r := by
  intro hu hg
  have := (C33_chmod cr now px mode tms a r h).2.2.1
  cases hb : r.mode.testBit 10 with
  | false => rfl
  | true => exact absurd ⟨hx, hg, hu⟩ (this.1 hb).2

def user (uid gid : Nat) : Cred := { uid := uid, gid := gid, umask := 0, host := uid }
def plain (mode uid gid : Nat) : I := ⟨mode, uid, gid, 10, 1, 1, 1, 1⟩
def noTimes : Times := ⟨.omit, .omit, .now⟩

/-- C33 (violated). Without group-execute the bit stays: user 5 of group 6 gives `02644` to its file of group 9. -/
theorem C33_chmod_sgid_violated :
    ∃ (cr : Cred) (now : Nat) (px : Bool) (mode : Nat) (tms : Times) (a r : I),
      chmod cr now px mode tms a = some r ∧ ¬ ChmodSgid cr a r := by
  refine ⟨user 5 6, 7, true, 0o2644, noTimes, plain 0o100644 5 9, _, rfl, ?_⟩
  intro h
  exact absurd (h (by decide) (by decide)) (by decide)

example : (chmod (user 5 6) 7 true 0o4755 noTimes (plain 0o100644 5 6)).map (·.mode) = some 0o104755 := by decide
example : (chmod (user 5 6) 7 true 0o2755 noTimes (plain 0o100644 5 9)).map (·.mode) = some 0o100755 := by decide
example : chmod (user 5 6) 7 true 0o40755 noTimes (plain 0o100644 5 9) = none := by decide
example : chmod (user 4 6) 7 true 0o755 noTimes (plain 0o100644 5 9) = none := by decide

/-! ### C33: chown -/

/-- C33. chown is allowed exactly if a new owner is asked for by the privileged only and a new group by the owner
or the privileged. -/
theorem C33_chown_allowed (cr : Cred) (now : Nat) (uid gid : Option Nat) (tms : Times) (a : I) :
    (chown cr now uid gid tms a).isSome = true ↔
      (∀ u, uid = some u → u ≠ a.uid → cr.host = 0) ∧
      (∀ g, gid = some g → g ≠ a.gid → cr.uid = a.uid ∨ cr.host = 0) := by
  have hc : checkChown cr a uid gid = true ↔
      (∀ u, uid = some u → u ≠ a.uid → cr.host = 0) ∧
      (∀ g, gid = some g → g ≠ a.gid → cr.uid = a.uid ∨ cr.host = 0) := by
    have h1 : (match uid with
        | none => true
        | some u => u == a.uid || cr.host == 0) = true ↔ ∀ u, uid = some u → u ≠ a.uid → cr.host = 0 := by
      cases uid with
      | none => simp
      | some u =>
        by_cases hu : u = a.uid <;> simp [hu]
    have h2 : (match gid with
        | none => true
        | some g => g == a.gid || cr.uid == a.uid || cr.host == 0) = true ↔
        ∀ g, gid = some g → g ≠ a.gid → cr.uid = a.uid ∨ cr.host = 0 := by
      cases gid with
      | none => simp
      | some g =>
        by_cases hg : g = a.gid <;> simp [hg]
    unfold checkChown
    rw [Bool.and_eq_true]
    exact and_congr h1 h2
  unfold chown
  split
  · rename_i h
    simp only [Bool.and_eq_true, Option.isNone_iff_eq_none] at h
    rw [h.1, h.2]
    simp
  · split
    · rename_i h
      exact iff_of_true rfl (hc.1 h)
    · rename_i h
      exact iff_of_false (by simp) (fun h' => h (hc.2 h'))

/-- POSIX chown with a restriction to own groups: an unprivileged caller may give a file only the group of the
caller. -/
def ChgrpOk (cr : Cred) (a r : I) : Prop := cr.host ≠ 0 → r.gid = a.gid ∨ r.gid = cr.gid

/-- C33 (violated). The owner of a file may give it to any group. -/
theorem C33_chgrp_violated :
    ∃ (cr : Cred) (now : Nat) (gid : Nat) (tms : Times) (a r : I),
      chown cr now none (some gid) tms a = some r ∧ ¬ ChgrpOk cr a r := by
  refine ⟨user 5 6, 7, 0, noTimes, plain 0o100644 5 6, _, rfl, ?_⟩
  intro h
  exact absurd (h (by decide)) (by decide)

/-- Some execute bit is on. -/
def Exec (m : Nat) : Prop := m.testBit 6 = true ∨ m.testBit 3 = true ∨ m.testBit 0 = true

theorem exec_iff (m : Nat) : hasBit m (sIXUSR ||| sIXGRP ||| sIXOTH) = true ↔ Exec m := by
  rw [hasBit_or, hasBit_or, show sIXUSR = 2 ^ 6 from rfl, show sIXGRP = 2 ^ 3 from rfl, show sIXOTH = 2 ^ 0 from rfl,
    hasBit_pow, hasBit_pow, hasBit_pow, Bool.or_eq_true, Bool.or_eq_true, or_assoc, Exec]

/-- What chown leaves. -/
def ChownPost (now : Nat) (uid gid : Option Nat) (tms : Times) (a r : I) : Prop :=
  r.uid = uid.getD a.uid ∧ r.gid = gid.getD a.gid ∧
  (∀ k, k ≠ 10 → k ≠ 11 → r.mode.testBit k = a.mode.testBit k) ∧
  (r.mode.testBit 11 = true ↔ a.mode.testBit 11 = true ∧ ¬ Exec a.mode) ∧
  (r.mode.testBit 10 = true ↔ a.mode.testBit 10 = true ∧ a.mode.testBit 3 = false) ∧
  r.size = a.size ∧ r.atime = a.atime ∧ r.mtime = a.mtime ∧ r.ctime = (tms.ctime.of now).getD a.ctime

/-- C33. A chown with something to change sets what is asked for and takes the set-id rights of executables away. -/
theorem C33_chown (cr : Cred) (now : Nat) (uid gid : Option Nat) (tms : Times) (a r : I)
    (h : chown cr now uid gid tms a = some r) (hne : uid.isSome = true ∨ gid.isSome = true) :
    ChownPost now uid gid tms a r := by
  simp only [chown] at h
  split at h
  · rename_i hn
    simp only [Bool.and_eq_true, Option.isNone_iff_eq_none] at hn
    rw [hn.1, hn.2] at hne
    simp at hne
  · split at h
    · have e := (Option.some.inj h).symm
      subst e
      have hx := exec_iff a.mode
      refine ⟨?_, ?_, fun k h1 h2 => ?_, ?_, ?_, ?_, ?_, ?_, ?_⟩ <;>
        simp [update, Upd.some, testBit_kill]
      · simp [h1, h2]
      · rw [← hx]
        cases a.mode.testBit 11 <;> simp
      · cases h10 : a.mode.testBit 10 <;> cases h3 : a.mode.testBit 3 <;> simp
        rw [hx]
        exact Or.inr (Or.inl h3)
    · cases h

/-- C33. A chown that asks for nothing changes nothing. -/
theorem C33_chown_none (cr : Cred) (now : Nat) (tms : Times) (a : I) : chown cr now none none tms a = some a := rfl

example : (chown (user 0 0) 7 (some 5) none noTimes (plain 0o106755 1 1)).map (fun r => (r.mode, r.uid)) =
    some (0o100755, 5) := by decide
example : chown (user 5 5) 7 (some 6) none noTimes (plain 0o106755 5 1) = none := by decide

/-! ### C33: I/O -/

/-- After a change of the content no set-user-id is left, and no set-group-id on a group-executable file. -/
def NoSetId (r : I) : Prop := r.mode.testBit 11 = false ∧ ¬ (r.mode.testBit 10 = true ∧ r.mode.testBit 3 = true)

/-- The request is one that changes the content of a file of the given size. -/
def Changes (size : Nat) : Io → Prop
  | .read => False
  | .write beg off _ => beg < off
  | .copy _ => True
  | .falloc _ _ => True
  | .trunc z => z ≠ size

/-- The requests for which the bits are taken: writes without error, truncates. -/
def Cleared : Io → Prop
  | .write _ _ err => err = false
  | .trunc _ => True
  | _ => False

/-- C33 (partial). Missing: `copy_file_range`, `fallocate` and writes that end in an error. -/
theorem C33_io_partial (now : Nat) (io : Io) (a : I) (hc : Changes a.size io) (ht : Cleared io) :
    NoSetId (postIo now io a) := by
  cases io with
  | read => exact absurd hc id
  | copy off => exact absurd ht id
  | falloc f k => exact absurd ht id
  | write beg off err =>
    have he : err = false := ht
    have hb : beg < off := hc
    subst he
    simp [NoSetId, postIo, update, Upd.some, testBit_kill, hb]
  | trunc z =>
    have hz : a.size ≠ z := fun e => hc e.symm
    simp [NoSetId, postIo, update, Upd.some, testBit_kill, hz]

/-- C33 (violated). `copy_file_range` into a set-user-id program keeps the bit. -/
theorem C33_copy_violated : ∃ (now off : Nat) (a : I),
    Changes a.size (.copy off) ∧ ¬ NoSetId (postIo now (.copy off) a) := by
  refine ⟨7, 5, plain 0o104755 5 6, trivial, ?_⟩
  intro h
  exact absurd h.1 (by decide)

/-- C33 (violated). fallocate (here: punching a hole) does too. -/
theorem C33_falloc_violated : ∃ (now fin : Nat) (keep : Bool) (a : I),
    Changes a.size (.falloc fin keep) ∧ ¬ NoSetId (postIo now (.falloc fin keep) a) := by
  refine ⟨7, 5, true, plain 0o104755 5 6, trivial, ?_⟩
  intro h
  exact absurd h.1 (by decide)

/-- C33 (violated). A write of some of the bytes that then fails does too. -/
theorem C33_write_error_violated : ∃ (now beg off : Nat) (a : I),
    Changes a.size (.write beg off true) ∧ ¬ NoSetId (postIo now (.write beg off true) a) := by
  refine ⟨7, 0, 5, plain 0o104755 5 6, (by decide : 0 < 5), ?_⟩
  intro h
  exact absurd h.1 (by decide)

/-- I/O never adds a bit, nor changes any but the two. -/
theorem postIo_mode (now : Nat) (io : Io) (a : I) (k : Nat) :
    ((postIo now io a).mode.testBit k = true → a.mode.testBit k = true) ∧
    (k ≠ 10 → k ≠ 11 → (postIo now io a).mode.testBit k = a.mode.testBit k) := by
  have key : ∀ u : Upd, u.mode = none →
      ((update now u a).mode.testBit k = true → a.mode.testBit k = true) ∧
      (k ≠ 10 → k ≠ 11 → (update now u a).mode.testBit k = a.mode.testBit k) := by
    intro u hu
    simp only [update, hu]
    split
    · rw [testBit_kill]
      constructor
      · intro h
        simp only [Bool.and_eq_true] at h
        exact h.1.1
      · intro h1 h2
        simp [h1, h2]
    · exact ⟨id, fun _ _ => rfl⟩
  cases io <;> exact key _ rfl

/-! ### C33: histories -/

/-- Everything that happens to an inode, by whomever. -/
inductive Ev where
  | chmod (cr : Cred) (now : Nat) (px : Bool) (mode : Nat) (tms : Times)
  | chown (cr : Cred) (now : Nat) (uid gid : Option Nat) (tms : Times)
  | utimens (cr : Cred) (now : Nat) (w : Bool) (tms : Times)
  | io (now : Nat) (io : Io)
  | evict

/-- A request that fails leaves the inode as it is. -/
def apply (a : I) : Ev → I
  | .chmod cr now px mode tms => (chmod cr now px mode tms a).getD a
  | .chown cr now uid gid tms => (chown cr now uid gid tms a).getD a
  | .utimens cr now w tms => (utimens cr now w tms a).getD a
  | .io now io => postIo now io a
  | .evict => evict a

def run (a : I) (es : List Ev) : I := es.foldl apply a

theorem update_ids (now : Nat) (u : Upd) (a : I) (hu : u.uid = none) (hg : u.gid = none) :
    (update now u a).uid = a.uid ∧ (update now u a).gid = a.gid := by
  simp only [update, hu, hg]
  split <;> exact ⟨rfl, rfl⟩

theorem update_times_keep (now : Nat) (u : Upd) (a : I) (hm : u.mode = none) (hu : u.uid = none) (hg : u.gid = none)
    (hs : u.size = none) (hk : u.killSuid = false) (hk' : u.killSgid = false) :
    (update now u a).uid = a.uid ∧ (update now u a).gid = a.gid ∧ (update now u a).mode = a.mode ∧
      (update now u a).size = a.size := by
  simp only [update, hm, hu, hg, hs, hk, hk']
  split <;> exact ⟨rfl, rfl, by simp [kill], rfl⟩

theorem utimens_keep (cr : Cred) (now : Nat) (w : Bool) (tms : Times) (a r : I) (h : utimens cr now w tms a = some r) :
    r.uid = a.uid ∧ r.gid = a.gid ∧ r.mode = a.mode ∧ r.size = a.size := by
  have key : ∀ (u : Upd) (b : I), u.mode = none → u.uid = none → u.gid = none → u.size = none →
      u.killSuid = false → u.killSgid = false →
      (b.uid = a.uid ∧ b.gid = a.gid ∧ b.mode = a.mode ∧ b.size = a.size) →
      ((update now u b).uid = a.uid ∧ (update now u b).gid = a.gid ∧ (update now u b).mode = a.mode ∧
        (update now u b).size = a.size) := by
    intro u b h1 h2 h3 h4 h5 h6 ⟨e1, e2, e3, e4⟩
    obtain ⟨f1, f2, f3, f4⟩ := update_times_keep now u b h1 h2 h3 h4 h5 h6
    exact ⟨f1.trans e1, f2.trans e2, f3.trans e3, f4.trans e4⟩
  simp only [utimens] at h
  split at h
  · have e := (Option.some.inj h).symm
    subst e
    have k0 : a.uid = a.uid ∧ a.gid = a.gid ∧ a.mode = a.mode ∧ a.size = a.size := ⟨rfl, rfl, rfl, rfl⟩
    rcases tms with ⟨ta, tm, tc⟩
    cases ta <;> cases tm <;> cases tc <;>
      repeat first
        | exact k0
        | refine key _ _ rfl rfl rfl rfl rfl rfl ?_
  · cases h

/-- C33. In any history, by any callers: the type of the inode never changes. -/
theorem C33_type_history (a : I) (es : List Ev) (k : Nat) (h1 : 12 ≤ k) (h2 : k < 16) :
    (run a es).mode.testBit k = a.mode.testBit k := by
  induction es generalizing a with
  | nil => rfl
  | cons e es ih =>
    show (run (apply a e) es).mode.testBit k = _
    rw [ih]
    cases e with
    | chmod cr now px mode tms =>
      simp only [apply]
      cases hc : chmod cr now px mode tms a with
      | none => rfl
      | some r => exact (C33_chmod cr now px mode tms a r hc).1 k h1 h2
    | chown cr now uid gid tms =>
      simp only [apply]
      cases hc : chown cr now uid gid tms a with
      | none => rfl
      | some r =>
        by_cases hs : uid.isSome = true ∨ gid.isSome = true
        · exact (C33_chown cr now uid gid tms a r hc hs).2.2.1 k (by omega) (by omega)
        · have h1 : uid = none := by cases uid <;> simp_all
          have h2 : gid = none := by cases gid <;> simp_all
          subst h1; subst h2
          rw [C33_chown_none] at hc
          rw [← Option.some.inj hc]
          rfl
    | utimens cr now w tms =>
      simp only [apply]
      cases hc : utimens cr now w tms a with
      | none => rfl
      | some r => exact congrArg (·.testBit k) (utimens_keep cr now w tms a r hc).2.2.1
    | io now io => exact (postIo_mode now io a k).2 (by omega) (by omega)
    | evict => rfl

/-- A request made by somebody without privileges. -/
def Unpriv : Ev → Prop
  | .chmod cr _ _ _ _ => cr.host ≠ 0
  | .chown cr _ _ _ _ => cr.host ≠ 0
  | .utimens cr _ _ _ => cr.host ≠ 0
  | _ => True

/-- A request that is not by the given user. -/
def NotBy (uid : Nat) : Ev → Prop
  | .chmod cr _ _ _ _ => cr.uid ≠ uid
  | .chown cr _ _ _ _ => cr.uid ≠ uid
  | .utimens cr _ _ _ => cr.uid ≠ uid
  | _ => True

theorem postIo_ids (now : Nat) (io : Io) (a : I) :
    (postIo now io a).uid = a.uid ∧ (postIo now io a).gid = a.gid := by
  cases io <;> exact update_ids _ _ _ rfl rfl

/-- C33. In any history without a privileged caller the owner stays; and if the owner does not act either, so do the
group, and every bit that is off stays off: no other user can give the file rights it does not have. -/
theorem C33_owner_history (a : I) (es : List Ev) (hu : ∀ e ∈ es, Unpriv e) :
    (run a es).uid = a.uid ∧
    ((∀ e ∈ es, NotBy a.uid e) → (run a es).gid = a.gid ∧
      ∀ k, (run a es).mode.testBit k = true → a.mode.testBit k = true) := by
  induction es generalizing a with
  | nil => exact ⟨rfl, fun _ => ⟨rfl, fun _ h => h⟩⟩
  | cons e es ih =>
    have hue := hu e (List.mem_cons_self)
    have step : (apply a e).uid = a.uid ∧ (NotBy a.uid e → (apply a e).gid = a.gid ∧
        ∀ k, (apply a e).mode.testBit k = true → a.mode.testBit k = true) := by
      cases e with
      | chmod cr now px mode tms =>
        simp only [apply]
        cases hc : chmod cr now px mode tms a with
        | none => exact ⟨rfl, fun _ => ⟨rfl, fun _ h => h⟩⟩
        | some r =>
          have hp := C33_chmod cr now px mode tms a r hc
          refine ⟨hp.2.2.2.1, fun hn => ?_⟩
          have ha := (C33_chmod_allowed cr now px mode tms a).1 (by rw [hc]; rfl)
          rcases ha.2.2 with h | h
          · exact absurd h hn
          · exact absurd h hue
      | chown cr now uid gid tms =>
        simp only [apply]
        cases hc : chown cr now uid gid tms a with
        | none => exact ⟨rfl, fun _ => ⟨rfl, fun _ h => h⟩⟩
        | some r =>
          have ha := (C33_chown_allowed cr now uid gid tms a).1 (by rw [hc]; rfl)
          by_cases hs : uid.isSome = true ∨ gid.isSome = true
          · have hp := C33_chown cr now uid gid tms a r hc hs
            refine ⟨?_, fun hn => ⟨?_, fun k hk => ?_⟩⟩
            · show r.uid = a.uid
              rw [hp.1]
              cases uid with
              | none => rfl
              | some u =>
                by_cases he : u = a.uid
                · exact he
                · exact absurd (ha.1 u rfl he) hue
            · show r.gid = a.gid
              rw [hp.2.1]
              cases gid with
              | none => rfl
              | some g =>
                by_cases he : g = a.gid
                · exact he
                · rcases ha.2 g rfl he with h | h
                  · exact absurd h hn
                  · exact absurd h hue
            · replace hk : r.mode.testBit k = true := hk
              by_cases h10 : k = 10
              · subst h10; exact (hp.2.2.2.2.1.1 hk).1
              · by_cases h11 : k = 11
                · subst h11; exact (hp.2.2.2.1.1 hk).1
                · rw [← hp.2.2.1 k h10 h11]; exact hk
          · have h1 : uid = none := by cases uid <;> simp_all
            have h2 : gid = none := by cases gid <;> simp_all
            subst h1; subst h2
            rw [C33_chown_none] at hc
            rw [← Option.some.inj hc]
            exact ⟨rfl, fun _ => ⟨rfl, fun _ h => h⟩⟩
      | utimens cr now w tms =>
        simp only [apply]
        cases hc : utimens cr now w tms a with
        | none => exact ⟨rfl, fun _ => ⟨rfl, fun _ h => h⟩⟩
        | some r =>
          obtain ⟨e1, e2, e3, _⟩ := utimens_keep cr now w tms a r hc
          exact ⟨e1, fun _ => ⟨e2, fun k hk => by rw [← e3]; exact hk⟩⟩
      | io now io =>
        exact ⟨(postIo_ids now io a).1, fun _ => ⟨(postIo_ids now io a).2, fun k => (postIo_mode now io a k).1⟩⟩
      | evict => exact ⟨rfl, fun _ => ⟨rfl, fun _ h => h⟩⟩
    obtain ⟨i1, i2⟩ := ih (apply a e) (fun e' he => hu e' (List.mem_cons_of_mem _ he))
    refine ⟨i1.trans step.1, fun hn => ?_⟩
    obtain ⟨s1, s2⟩ := step.2 (hn e (List.mem_cons_self))
    obtain ⟨j1, j2⟩ := i2 (by
      rw [step.1]
      exact fun e' he => hn e' (List.mem_cons_of_mem _ he))
    exact ⟨j1.trans s1, fun k hk => s2 k (j2 k hk)⟩

example : ∀ e ∈ [Ev.chmod (user 6 6) 3 true 0o4777 noTimes, .chown (user 6 6) 4 none (some 6) noTimes], Unpriv e := by
  intro e he
  simp only [List.mem_cons, List.not_mem_nil, or_false] at he
  rcases he with h | h <;> subst h <;> exact (by decide : (6 : Nat) ≠ 0)

/-! ### C40: times -/

/-- What a successful utimens leaves: each time as asked for, everything else as it was. -/
def UtimensPost (now : Nat) (tms : Times) (a r : I) : Prop :=
  r.atime = (tms.atime.of now).getD a.atime ∧ r.mtime = (tms.mtime.of now).getD a.mtime ∧
  r.ctime = (tms.ctime.of now).getD a.ctime ∧
  r.mode = a.mode ∧ r.uid = a.uid ∧ r.gid = a.gid ∧ r.size = a.size

/-- C40. -/
theorem C40_utimens (cr : Cred) (now : Nat) (w : Bool) (tms : Times) (a r : I)
    (h : utimens cr now w tms a = some r) : UtimensPost now tms a r := by
  obtain ⟨e1, e2, e3, e4⟩ := utimens_keep cr now w tms a r h
  refine ⟨?_, ?_, ?_, e3, e1, e2, e4⟩ <;>
  · simp only [utimens] at h
    split at h
    · have e := (Option.some.inj h).symm
      subst e
      rcases tms with ⟨ta, tm, tc⟩
      cases ta <;> cases tm <;> cases tc <;> rfl
    · cases h

/-- utimensat(2): a time other than the current one may be set by the owner and the privileged only; the current one
also by those who may write. -/
def UtimensRule (cr : Cred) (w : Bool) (tms : Times) (a : I) : Prop :=
  cr.uid = a.uid ∨ cr.host = 0 ∨ (w = true ∧ tms.atime = .now ∧ tms.mtime = .now)

/-- C40. Allowed exactly to the owner and those who may write. -/
theorem C40_utimens_allowed (cr : Cred) (now : Nat) (w : Bool) (tms : Times) (a : I) :
    (utimens cr now w tms a).isSome = true ↔ cr.uid = a.uid ∨ w = true := by
  have hc : checkUtimens cr w a = true ↔ cr.uid = a.uid ∨ w = true := by simp [checkUtimens]
  rw [← hc]
  unfold utimens
  by_cases h : checkUtimens cr w a = true
  · rw [if_pos h]; exact iff_of_true rfl h
  · rw [if_neg h]; exact iff_of_false (by simp) h

/-- C40 (partial). Requests for the current time, and those of callers who may not write, follow the rule. -/
theorem C40_utimens_rule_partial (cr : Cred) (now : Nat) (w : Bool) (tms : Times) (a r : I)
    (h : utimens cr now w tms a = some r) (hw : w = false ∨ (tms.atime = .now ∧ tms.mtime = .now)) :
    UtimensRule cr w tms a := by
  have := (C40_utimens_allowed cr now w tms a).1 (by rw [h]; rfl)
  rcases this with h | h
  · exact Or.inl h
  · rcases hw with h' | h'
    · rw [h] at h'; cases h'
    · exact Or.inr (Or.inr ⟨h, h'⟩)

/-- C40 (violated). A user that may write a file of another user may set its times to any value. -/
theorem C40_utimens_violated : ∃ (cr : Cred) (now : Nat) (tms : Times) (a r : I),
    utimens cr now true tms a = some r ∧ ¬ UtimensRule cr true tms a := by
  refine ⟨user 5 6, 7, ⟨.at 3, .at 3, .now⟩, plain 0o100666 9 9, _, rfl, ?_⟩
  rintro (h | h | h)
  · exact absurd h (by decide)
  · exact absurd h (by decide)
  · exact absurd h.2.1 (by decide)

/-- The times after I/O by POSIX: reading marks access; a change of the content marks modification and change;
what changes nothing marks nothing. -/
def IoPost (now : Nat) (io : Io) (a r : I) : Prop :=
  (io = .read → r.atime = now ∧ r.mtime = a.mtime ∧ r.ctime = a.ctime) ∧
  (Changes a.size io → r.atime = a.atime ∧ r.mtime = now ∧ r.ctime = now) ∧
  (io ≠ .read → ¬ Changes a.size io → r.atime = a.atime ∧ r.mtime = a.mtime ∧ r.ctime = a.ctime)

/-- C40. -/
theorem C40_io (now : Nat) (io : Io) (a : I) : IoPost now io a (postIo now io a) := by
  cases io with
  | read => exact ⟨fun _ => ⟨rfl, rfl, rfl⟩, fun h => absurd h id, fun h => absurd rfl h⟩
  | write beg off err =>
    refine ⟨(nomatch ·), fun h => ?_, fun _ h => ?_⟩
    · have h : beg < off := h
      simp [postIo, update, Upd.some, h, Tm.of]
    · have h : ¬ beg < off := h
      simp [postIo, update, Upd.some, h, Tm.of]
  | copy off => exact ⟨(nomatch ·), fun _ => ⟨rfl, rfl, rfl⟩, fun _ h => absurd trivial h⟩
  | falloc fin keep =>
    refine ⟨(nomatch ·), fun _ => ?_, fun _ h => absurd trivial h⟩
    cases keep <;> exact ⟨rfl, rfl, rfl⟩
  | trunc z =>
    refine ⟨(nomatch ·), fun h => ?_, fun _ h => ?_⟩
    · have h : ¬ a.size = z := fun e => h e.symm
      simp [postIo, update, Upd.some, h, Tm.of]
    · have h : a.size = z := (Classical.not_not.1 h).symm
      simp [postIo, update, Upd.some, h, Tm.of]

/-- The size after I/O by POSIX: reading keeps it, what writes up to `e` makes the file reach `e` and no more, keeping the
size keeps it, truncation sets it. -/
def SizePost (io : Io) (z r : Nat) : Prop :=
  (∀ e, io = .read ∨ io = .falloc e true → r = z) ∧
  (∀ beg e err, io = .write beg e err ∨ io = .copy e ∨ io = .falloc e false → z ≤ r ∧ e ≤ r ∧ (r = z ∨ r = e)) ∧
  ∀ t, io = .trunc t → r = t

/-- C40. -/
theorem C40_io_size (now : Nat) (io : Io) (a : I) : SizePost io a.size (postIo now io a).size := by
  refine ⟨?_, ?_, ?_⟩
  · rintro e (rfl | rfl) <;> rfl
  · intro beg e err h
    have hz : (postIo now io a).size = max e a.size := by
      rcases h with rfl | rfl | rfl <;> simp [postIo, update, Upd.some]
    omega
  · rintro t rfl; rfl

/-! ### C40: times through write-back and eviction -/

/-- The marks of one event: new times of modification and change, if any. -/
def marks (a : I) : Ev → Option Nat × Option Nat
  | .chmod cr now px mode tms => (none, if (chmod cr now px mode tms a).isSome then tms.ctime.of now else none)
  | .chown cr now uid gid tms =>
    (none, if (uid.isSome || gid.isSome) && (chown cr now uid gid tms a).isSome then tms.ctime.of now else none)
  | .utimens cr now w tms =>
    if (utimens cr now w tms a).isSome then (tms.mtime.of now, tms.ctime.of now) else (none, none)
  | .io now io =>
    match io with
    | .read => (none, none)
    | .write beg off _ => if beg < off then (some now, some now) else (none, none)
    | .copy _ => (some now, some now)
    | .falloc _ _ => (some now, some now)
    | .trunc z => if z = a.size then (none, none) else (some now, some now)
  | .evict => (none, none)

/-- C40. Each event leaves exactly its marks; in particular eviction of the inode loses none. -/
theorem C40_marks (a : I) (e : Ev) :
    (apply a e).mtime = (marks a e).1.getD a.mtime ∧ (apply a e).ctime = (marks a e).2.getD a.ctime := by
  cases e with
  | chmod cr now px mode tms =>
    simp only [apply, marks]
    cases h : chmod cr now px mode tms a with
    | none => exact ⟨rfl, rfl⟩
    | some r =>
      have := C33_chmod cr now px mode tms a r h
      exact ⟨this.2.2.2.2.2.2.2.1, this.2.2.2.2.2.2.2.2⟩
  | chown cr now uid gid tms =>
    simp only [apply, marks]
    cases h : chown cr now uid gid tms a with
    | none => simp
    | some r =>
      by_cases hs : uid.isSome = true ∨ gid.isSome = true
      · have := C33_chown cr now uid gid tms a r h hs
        refine ⟨this.2.2.2.2.2.2.2.1, ?_⟩
        rw [← Bool.or_eq_true] at hs
        simpa [hs] using this.2.2.2.2.2.2.2.2
      · have h1 : uid = none := by cases uid <;> simp_all
        have h2 : gid = none := by cases gid <;> simp_all
        subst h1; subst h2
        rw [C33_chown_none] at h
        rw [← Option.some.inj h]
        exact ⟨rfl, rfl⟩
  | utimens cr now w tms =>
    simp only [apply, marks]
    cases h : utimens cr now w tms a with
    | none => exact ⟨rfl, rfl⟩
    | some r =>
      have := C40_utimens cr now w tms a r h
      exact ⟨this.2.1, this.2.2.1⟩
  | io now io =>
    have := C40_io now io a
    cases io with
    | read => exact (this.1 rfl).2
    | write beg off err =>
      simp only [apply, marks]
      split
      · rename_i h; exact (this.2.1 h).2
      · rename_i h; exact (this.2.2 (by simp) h).2
    | copy off => exact (this.2.1 trivial).2
    | falloc f k => exact (this.2.1 trivial).2
    | trunc z =>
      simp only [apply, marks]
      split
      · rename_i h; exact (this.2.2 (by simp) (fun h' => h' h)).2
      · rename_i h; exact (this.2.1 h).2
  | evict => exact ⟨rfl, rfl⟩

/-- The last mark of a list. -/
def lastMark (t : Nat) (l : List (Option Nat)) : Nat := l.foldl (fun t m => m.getD t) t

/-- The marks of all events of a history. -/
def marksOf (a : I) : List Ev → List (Option Nat × Option Nat)
  | [] => []
  | e :: es => marks a e :: marksOf (apply a e) es

/-- C40. After any history with evictions at any points, the times of modification and change are the last ones
marked. -/
theorem C40_history (a : I) (es : List Ev) :
    (run a es).mtime = lastMark a.mtime ((marksOf a es).map (·.1)) ∧
    (run a es).ctime = lastMark a.ctime ((marksOf a es).map (·.2)) := by
  induction es generalizing a with
  | nil => exact ⟨rfl, rfl⟩
  | cons e es ih =>
    obtain ⟨h1, h2⟩ := ih (apply a e)
    obtain ⟨m1, m2⟩ := C40_marks a e
    rw [m1] at h1
    rw [m2] at h2
    exact ⟨h1, h2⟩

/-- Access times marked by an event. -/
def amark (a : I) : Ev → Option Nat
  | .utimens cr now w tms => if (utimens cr now w tms a).isSome then tms.atime.of now else none
  | .io now .read => some now
  | _ => none

/-- The access times marked in a history. -/
def amarksOf (a : I) : List Ev → List Nat
  | [] => []
  | e :: es => (amark a e).toList ++ amarksOf (apply a e) es

theorem apply_atime (a : I) (e : Ev) (he : e ≠ .evict) : (apply a e).atime = (amark a e).getD a.atime := by
  cases e with
  | chmod cr now px mode tms =>
    simp only [apply, amark]
    cases h : chmod cr now px mode tms a with
    | none => rfl
    | some r => exact (C33_chmod cr now px mode tms a r h).2.2.2.2.2.2.1
  | chown cr now uid gid tms =>
    simp only [apply, amark]
    cases h : chown cr now uid gid tms a with
    | none => rfl
    | some r =>
      by_cases hs : uid.isSome = true ∨ gid.isSome = true
      · exact (C33_chown cr now uid gid tms a r h hs).2.2.2.2.2.2.1
      · have h1 : uid = none := by cases uid <;> simp_all
        have h2 : gid = none := by cases gid <;> simp_all
        subst h1; subst h2
        rw [C33_chown_none] at h
        rw [← Option.some.inj h]
        rfl
  | utimens cr now w tms =>
    simp only [apply, amark]
    cases h : utimens cr now w tms a with
    | none => rfl
    | some r => exact (C40_utimens cr now w tms a r h).1
  | io now io =>
    have := C40_io now io a
    cases io with
    | read => exact (this.1 rfl).1
    | write beg off err =>
      by_cases h : beg < off
      · exact (this.2.1 h).1
      · exact (this.2.2 (by simp) h).1
    | copy off => exact (this.2.1 trivial).1
    | falloc f k => exact (this.2.1 trivial).1
    | trunc z =>
      by_cases h : z = a.size
      · exact (this.2.2 (by simp) (fun h' => h' h)).1
      · exact (this.2.1 h).1
  | evict => exact absurd rfl he

theorem update_satime (now : Nat) (u : Upd) (a : I) :
    (update now u a).satime = a.satime ∨ (update now u a).satime = (update now u a).atime := by
  unfold update
  by_cases h : u.some = true
  · simp only [h, if_true]
    by_cases h' : (u.fM || u.fC) = true
    · right; rw [if_pos h']
    · left; rw [if_neg h']
  · simp only [h, if_false]
    exact Or.inl rfl

/-- C40. After any history the access time shown is the last one marked, or, if the inode was evicted, an earlier
one; it is never a value that was not marked. -/
theorem C40_atime_history (a : I) (es : List Ev) (T : Nat → Prop) (h0 : T a.atime) (h1 : T a.satime)
    (hm : ∀ t ∈ amarksOf a es, T t) : T (run a es).atime ∧ T (run a es).satime := by
  induction es generalizing a with
  | nil => exact ⟨h0, h1⟩
  | cons e es ih =>
    have hm2 : ∀ t ∈ amarksOf (apply a e) es, T t := fun t ht => hm t (List.mem_append_right _ ht)
    have hm1 : ∀ t, amark a e = some t → T t := fun t ht => hm t (List.mem_append_left _ (by rw [ht]; simp))
    have hA : T (apply a e).atime := by
      by_cases he : e = .evict
      · subst he; exact h1
      · rw [apply_atime a e he]
        cases h : amark a e with
        | none => exact h0
        | some t => exact hm1 t h
    refine ih _ hA ?_ hm2
    have key : ∀ now u b, T b.satime → T (update now u b).atime → T (update now u b).satime := by
      intro now u b hb hu
      rcases update_satime now u b with h | h
      · rw [h]; exact hb
      · rw [h]; exact hu
    have hA' := hA
    cases e with
    | chmod cr now px mode tms =>
      simp only [apply, chmod] at hA ⊢
      by_cases h : (checkChmod cr a mode && px) = true
      · simp only [h, if_true, Option.getD_some] at hA ⊢
        exact key _ _ _ h1 hA
      · simp only [h, if_false, Option.getD_none]
        exact h1
    | chown cr now uid gid tms =>
      simp only [apply, chown] at hA ⊢
      by_cases h : (uid.isNone && gid.isNone) = true
      · simp only [h, if_true, Option.getD_some]
        exact h1
      · by_cases h' : checkChown cr a uid gid = true
        · simp only [h, h', if_true, if_false, Option.getD_some] at hA ⊢
          exact key _ _ _ h1 hA
        · simp only [h, h', if_false, Option.getD_none]
          exact h1
    | utimens cr now w tms =>
      simp only [apply, utimens] at hA ⊢
      split
      · rename_i h
        rw [if_pos h] at hA
        rcases tms with ⟨ta, tm, tc⟩
        cases ta <;> cases tm <;> cases tc <;> first | exact h1 | exact hA
      · exact h1
    | io now io =>
      cases io <;> exact key _ _ _ h1 hA
    | evict => exact h1

/-- C40. An access time that was set by utimens together with the time of change is kept through eviction. -/
theorem C40_atime_durable (cr : Cred) (now : Nat) (w : Bool) (tms : Times) (a r : I)
    (h : utimens cr now w tms a = some r) (hc : tms.ctime ≠ .omit) : (evict r).atime = r.atime := by
  simp only [utimens] at h
  split at h
  · have e := (Option.some.inj h).symm
    subst e
    rcases tms with ⟨ta, tm, tc⟩
    cases tc with
    | «omit» => exact absurd rfl hc
    | now => rfl
    | «at» t => rfl
  · cases h

/-- The requests that come from setattr always set it. -/
theorem times_ctime (r : Set) (h : r.atime.isSome = true ∨ r.mtime.isSome = true ∨ r.ctime.isSome = true ∨
    r.nowA = true ∨ r.nowM = true) : r.times.ctime ≠ .omit := by
  simp only [Set.times]
  split
  · simp
  · rename_i hc
    rw [if_pos]
    · simp
    · rcases h with h | h | h | h | h
      · simp [h]
      · simp [h]
      · rw [hc] at h; cases h
      · simp [h]
      · simp [h]

/-! ### C40: setattr -/

/-- C40. A request for times only: as utimens; it leaves everything as it was if it fails. -/
theorem C40_setattr_times (cr : Cred) (now : Nat) (px w tr : Bool) (r : Set) (a a' : I)
    (hn : r.mode = none ∧ r.uid = none ∧ r.gid = none ∧ r.size = none) (ok : Bool)
    (h : setattr cr now px w tr r a = (a', ok)) :
    (ok = true → a'.atime = r.atime.getD a.atime ∧ a'.mtime = r.mtime.getD a.mtime ∧
      a'.mode = a.mode ∧ a'.uid = a.uid ∧ a'.gid = a.gid ∧ a'.size = a.size) ∧ (ok = false → a' = a) := by
  obtain ⟨h1, h2, h3, h4⟩ := hn
  have hta : ∀ b : Nat, (r.times.atime.of now).getD b = r.atime.getD b := by
    intro b; simp only [Set.times]; cases r.atime <;> rfl
  have htm : ∀ b : Nat, (r.times.mtime.of now).getD b = r.mtime.getD b := by
    intro b; simp only [Set.times]; cases r.mtime <;> rfl
  simp only [setattr, h1, h2, h3, h4, Option.isSome_none, Bool.or_false, Bool.false_eq_true, if_false,
    Bool.not_false, Bool.and_true] at h
  by_cases hN : (r.nowA || r.nowM) = true
  · rw [if_pos hN] at h
    cases hu : utimens cr now w r.times a with
    | none =>
      simp only [hu] at h
      have e1 := congrArg Prod.fst h
      have e2 := congrArg Prod.snd h
      simp only at e1 e2
      subst e1; subst e2
      exact ⟨fun h => (by cases h), fun _ => rfl⟩
    | some b =>
      simp only [hu] at h
      have p := C40_utimens cr now w r.times a b hu
      by_cases hT : (r.atime.isSome || r.mtime.isSome || r.ctime.isSome) = true
      · rw [if_pos hT] at h
        have hs : (utimens cr now w r.times b).isSome = true := by
          rw [C40_utimens_allowed, p.2.2.2.2.1]
          rw [← C40_utimens_allowed cr now w r.times a, hu]; rfl
        cases hu2 : utimens cr now w r.times b with
        | none => rw [hu2] at hs; cases hs
        | some c =>
          simp only [hu2] at h
          have e1 := congrArg Prod.fst h
          have e2 := congrArg Prod.snd h
          simp only at e1 e2
          subst e1; subst e2
          have q := C40_utimens cr now w r.times b c hu2
          refine ⟨fun _ => ?_, fun h => (by cases h)⟩
          refine ⟨?_, ?_, q.2.2.2.1.trans p.2.2.2.1, q.2.2.2.2.1.trans p.2.2.2.2.1,
            q.2.2.2.2.2.1.trans p.2.2.2.2.2.1, q.2.2.2.2.2.2.trans p.2.2.2.2.2.2⟩
          · rw [q.1, p.1, hta, hta]
            cases r.atime <;> rfl
          · rw [q.2.1, p.2.1, htm, htm]
            cases r.mtime <;> rfl
      · rw [if_neg hT] at h
        have e1 := congrArg Prod.fst h
        have e2 := congrArg Prod.snd h
        simp only at e1 e2
        subst e1; subst e2
        exact ⟨fun _ => ⟨p.1.trans (hta _), p.2.1.trans (htm _), p.2.2.2⟩, fun h => (by cases h)⟩
  · rw [if_neg hN] at h
    simp only at h
    by_cases hT : (r.atime.isSome || r.mtime.isSome || r.ctime.isSome) = true
    · rw [if_pos hT] at h
      cases hu2 : utimens cr now w r.times a with
      | none =>
        simp only [hu2] at h
        have e1 := congrArg Prod.fst h
        have e2 := congrArg Prod.snd h
        simp only at e1 e2
        subst e1; subst e2
        exact ⟨fun h => (by cases h), fun _ => rfl⟩
      | some c =>
        simp only [hu2] at h
        have e1 := congrArg Prod.fst h
        have e2 := congrArg Prod.snd h
        simp only at e1 e2
        subst e1; subst e2
        have q := C40_utimens cr now w r.times a c hu2
        exact ⟨fun _ => ⟨q.1.trans (hta _), q.2.1.trans (htm _), q.2.2.2⟩, fun h => (by cases h)⟩
    · rw [if_neg hT] at h
      have e1 := congrArg Prod.fst h
      have e2 := congrArg Prod.snd h
      simp only at e1 e2
      subst e1; subst e2
      simp only [Bool.or_eq_true, not_or, Option.isSome_iff_ne_none, Classical.not_not] at hT
      rw [hT.1.1, hT.1.2]
      exact ⟨fun _ => ⟨rfl, rfl, rfl, rfl, rfl, rfl⟩, fun h => (by cases h)⟩

/-- A setattr is one request: if it fails, nothing has changed. -/
def Atomic (a : I) (out : I × Bool) : Prop := out.2 = false → out.1 = a

/-- A setattr does what it is asked for: a time in a request that succeeds is the time afterwards. -/
def TimesSet (r : Set) (out : I × Bool) : Prop :=
  out.2 = true → (∀ t, r.mtime = some t → out.1.mtime = t) ∧ (∀ t, r.atime = some t → out.1.atime = t)

/-- C40 (violated). A request for a mode and an owner that is refused for the owner has changed the mode. -/
theorem C40_setattr_atomic_violated : ∃ (cr : Cred) (now : Nat) (px w tr : Bool) (r : Set) (a : I),
    ¬ Atomic a (setattr cr now px w tr r a) := by
  refine ⟨user 5 6, 7, true, true, true, { mode := some 0o777, uid := some 0 }, plain 0o100644 5 6, ?_⟩
  intro h
  exact absurd (h (by decide)) (by decide)

/-- C40 (violated). A request for a size and a time (as sent with `truncate` by a kernel that caches writes) does not
set the time. -/
theorem C40_setattr_times_violated : ∃ (cr : Cred) (now : Nat) (px w tr : Bool) (r : Set) (a : I),
    ¬ TimesSet r (setattr cr now px w tr r a) := by
  refine ⟨user 5 6, 7, true, true, true, { size := some 10, mtime := some 5 }, plain 0o100644 5 6, ?_⟩
  intro h
  exact absurd ((h (by decide)).1 5 rfl) (by decide)

/-- How many of the four kinds of changes a request asks for. -/
def Set.kinds (r : Set) : Nat :=
  (if r.mode.isSome then 1 else 0) + (if r.uid.isSome || r.gid.isSome then 1 else 0) +
  (if r.size.isSome then 1 else 0) +
  (if r.nowA || r.nowM || r.atime.isSome || r.mtime.isSome then 1 else 0)

/-- C40 (partial). A request for one kind of change is atomic.  (chmod(2), chown(2), truncate(2) and utimensat(2)
send such; missing are requests for more.) -/
theorem C40_setattr_atomic_partial (cr : Cred) (now : Nat) (px w tr : Bool) (r : Set) (a : I) (h : r.kinds ≤ 1) :
    Atomic a (setattr cr now px w tr r a) := by
  by_cases hn : r.mode = none ∧ r.uid = none ∧ r.gid = none ∧ r.size = none
  · intro hf
    exact (C40_setattr_times cr now px w tr r a _ hn _ rfl).2 hf
  · have hmore : r.mode.isSome = true ∨ (r.uid.isSome || r.gid.isSome) = true ∨ r.size.isSome = true := by
      cases h1 : r.mode <;> cases h2 : r.uid <;> cases h3 : r.gid <;> cases h4 : r.size <;> simp_all
    have hT : (r.nowA || r.nowM || r.atime.isSome || r.mtime.isSome) = false := by
      cases hT : (r.nowA || r.nowM || r.atime.isSome || r.mtime.isSome) with
      | false => rfl
      | true =>
        exfalso
        simp only [Set.kinds, hT, if_true] at h
        rcases hmore with h' | h' | h' <;> rw [if_pos h'] at h <;> omega
    simp only [Bool.or_eq_false_iff] at hT
    have hN : (r.nowA || r.nowM) = false := by simp [hT]
    have hnon : (r.mode.isSome || r.uid.isSome || r.gid.isSome || r.size.isSome) = true := by
      rcases hmore with h' | h' | h'
      · rw [h']; rfl
      · rw [Bool.or_assoc (r.mode.isSome), h']; simp
      · rw [h']; simp
    unfold Atomic
    simp only [setattr, hN, hnon, Bool.not_true, Bool.and_false, Bool.false_eq_true, if_false]
    rcases hmore with h' | h' | h'
    · obtain ⟨m, hm⟩ := Option.isSome_iff_exists.1 h'
      have hu : (r.uid.isSome || r.gid.isSome) = false := by
        cases hx : (r.uid.isSome || r.gid.isSome) with
        | false => rfl
        | true => simp only [Set.kinds, if_pos h', hx, if_true] at h; omega
      have hs : r.size = none := by
        cases hx : r.size with
        | none => rfl
        | some z => simp only [Set.kinds, if_pos h', hx, Option.isSome_some, if_true] at h; omega
      simp only [hm, hu, hs, Bool.false_eq_true, if_false]
      cases chmod cr now px m r.times a with
      | none => exact fun _ => rfl
      | some b => exact fun h => (by cases h)
    · have hm : r.mode = none := by
        cases hx : r.mode with
        | none => rfl
        | some z => simp only [Set.kinds, if_pos h', hx, Option.isSome_some, if_true] at h; omega
      have hs : r.size = none := by
        cases hx : r.size with
        | none => rfl
        | some z => simp only [Set.kinds, if_pos h', hx, Option.isSome_some, if_true] at h; omega
      simp only [hm, h', hs, if_true]
      cases chown cr now r.uid r.gid r.times a with
      | none => exact fun _ => rfl
      | some b => exact fun h => (by cases h)
    · obtain ⟨z, hz⟩ := Option.isSome_iff_exists.1 h'
      have hm : r.mode = none := by
        cases hx : r.mode with
        | none => rfl
        | some z => simp only [Set.kinds, if_pos h', hx, Option.isSome_some, if_true] at h; omega
      have hu : (r.uid.isSome || r.gid.isSome) = false := by
        cases hx : (r.uid.isSome || r.gid.isSome) with
        | false => rfl
        | true => simp only [Set.kinds, if_pos h', hx, if_true] at h; omega
      simp only [hm, hu, hz, Bool.false_eq_true, if_false]
      cases tr with
      | false => exact fun _ => rfl
      | true => exact fun h => (by cases h)

example : ({ mode := some 0o755 } : Set).kinds = 1 := by decide
example : setattr (user 5 6) 7 true true true { atime := some 3, nowM := true, mtime := some 9 } (plain 0o100644 5 6) =
    (⟨0o100644, 5, 6, 10, 3, 3, 9, 7⟩, true) := by decide

end Silofs.Attr
