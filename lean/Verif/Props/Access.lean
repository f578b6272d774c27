import Verif.Model.Access
/-
C17: the access decision, against a specification written in POSIX terms.
-/
set_option linter.unusedSimpArgs false
set_option linter.unusedVariables false
namespace Silofs.Ns

/-! ### Specification -/

/-- A single right. -/
inductive Right where
  | r | w | x
  deriving DecidableEq, Repr

/-- The file class a caller belongs to: the first that applies, exclusively. -/
inductive Class where
  | owner | group | other
  deriving DecidableEq, Repr

def classOf (cr : Cred) (a : Attr) : Class :=
  if cr.uid = a.uid then .owner else if cr.gid = a.gid then .group else .other

/-- Position of a right within a triple and of a triple within the mode. -/
def Right.idx : Right → Nat
  | .x => 0 | .w => 1 | .r => 2
def Class.idx : Class → Nat
  | .other => 0 | .group => 1 | .owner => 2

/-- POSIX file access permissions. Root may read and write anything, and execute
(search) anything but a regular file without any execute bit; anybody else has
exactly the rights in the triple of the first class that applies. -/
def Granted (cr : Cred) (a : Attr) (p : Right) : Prop :=
  if cr.uid = 0 then
    p = .x → a.kind = .reg → ∃ c : Class, a.perm.testBit (3 * c.idx + Right.x.idx) = true
  else
    a.perm.testBit (3 * (classOf cr a).idx + p.idx) = true

/-- Right `p` is asked for by the bit mask of access(2). -/
def Asks (mask : Nat) (p : Right) : Prop := mask.testBit p.idx = true

/-! ### Proof -/

theorem and_pow (n k : Nat) : n &&& 2 ^ k = (n.testBit k).toNat * 2 ^ k := by
  apply Nat.eq_of_testBit_eq
  intro j
  rw [Nat.testBit_and, Nat.testBit_two_pow]
  cases h : n.testBit k
  · by_cases hj : k = j
    · subst hj; simp [h]
    · simp [hj]
  · by_cases hj : k = j
    · subst hj; simp [h, Nat.testBit_two_pow]
    · simp [hj, Nat.testBit_two_pow]

theorem hasBit_pow (perm k : Nat) : hasBit perm (2 ^ k) = perm.testBit k := by
  simp only [hasBit, and_pow]
  cases perm.testBit k <;> simp

theorem hasBit_or (perm a b : Nat) : hasBit perm (a ||| b) = (hasBit perm a || hasBit perm b) := by
  rw [Bool.eq_iff_iff]
  simp only [hasBit, Nat.and_or_distrib_left, bne_iff_ne, Bool.or_eq_true, ne_eq]
  rw [Nat.or_eq_zero_iff]
  omega

theorem rwx_dec : ∀ r w x : Bool, ∀ m : Fin 8,
    ((rwxOf r w x &&& m.val) == m.val) =
      ((!m.val.testBit 2 || r) && (!m.val.testBit 1 || w) && (!m.val.testBit 0 || x)) := by
  decide

theorem rwx_lt : ∀ r w x : Bool, rwxOf r w x < 8 := by decide

theorem rwx_mask (r w x : Bool) (mask : Nat) :
    ((rwxOf r w x &&& mask) == mask) = true ↔
      mask < 8 ∧ (mask.testBit 2 = true → r = true) ∧ (mask.testBit 1 = true → w = true) ∧
        (mask.testBit 0 = true → x = true) := by
  by_cases h : mask < 8
  · have := rwx_dec r w x ⟨mask, h⟩
    simp only at this
    rw [this]
    cases r <;> cases w <;> cases x <;> simp [h]
    · constructor
      · rintro ⟨⟨h1, h2⟩, h3⟩; exact ⟨h1, h2, h3⟩
      · rintro ⟨h1, h2, h3⟩; exact ⟨⟨h1, h2⟩, h3⟩
  · constructor
    · intro h'
      have h2 : rwxOf r w x &&& mask = mask := by simpa using h'
      have h3 : rwxOf r w x &&& mask ≤ rwxOf r w x := Nat.and_le_left
      have := rwx_lt r w x
      omega
    · intro h'; exact absurd h'.1 h

theorem doAccessRwx_eq (cr : Cred) (a : Attr) :
    ∃ r w x : Bool, doAccessRwx cr a = rwxOf r w x ∧ (r = true ↔ Granted cr a .r) ∧
      (w = true ↔ Granted cr a .w) ∧ (x = true ↔ Granted cr a .x) := by
  have b0 := hasBit_pow a.perm 0
  have b1 := hasBit_pow a.perm 1
  have b2 := hasBit_pow a.perm 2
  have b3 := hasBit_pow a.perm 3
  have b4 := hasBit_pow a.perm 4
  have b5 := hasBit_pow a.perm 5
  have b6 := hasBit_pow a.perm 6
  have b7 := hasBit_pow a.perm 7
  have b8 := hasBit_pow a.perm 8
  simp only [Nat.reducePow] at b0 b1 b2 b3 b4 b5 b6 b7 b8
  by_cases h0 : cr.uid = 0
  · by_cases hk : a.kind = .reg
    · refine ⟨true, true, hasBit a.perm (0o100 ||| 0o10 ||| 0o1), ?_, ?_, ?_, ?_⟩
      · simp only [doAccessRwx, if_pos h0, if_pos hk]
      · simp [Granted, h0]
      · simp [Granted, h0]
      · rw [hasBit_or, hasBit_or, b6, b3, b0]
        simp only [Granted, h0, if_true, hk, true_implies, Right.idx]
        constructor
        · intro h
          rcases Bool.or_eq_true_iff.1 h with h | h
          · rcases Bool.or_eq_true_iff.1 h with h | h
            · exact ⟨.owner, h⟩
            · exact ⟨.group, h⟩
          · exact ⟨.other, h⟩
        · rintro ⟨c, h⟩
          cases c <;> simp [Class.idx] at h <;> simp [h]
    · refine ⟨true, true, true, ?_, ?_, ?_, ?_⟩
      · simp only [doAccessRwx, if_pos h0, if_neg hk]
      · simp [Granted, h0]
      · simp [Granted, h0]
      · simp [Granted, h0, hk]
  · by_cases hu : cr.uid = a.uid
    · refine ⟨_, _, _, by simp only [doAccessRwx, if_neg h0, if_pos hu]; rfl, ?_, ?_, ?_⟩ <;>
        simp [Granted, h0, classOf, hu, Class.idx, Right.idx, b6, b7, b8]
      all_goals
        have : ¬ a.uid = 0 := by omega
        simp [this]
    · by_cases hg : cr.gid = a.gid
      · refine ⟨_, _, _, by simp only [doAccessRwx, if_neg h0, if_neg hu, if_pos hg]; rfl, ?_, ?_, ?_⟩ <;>
          simp [Granted, h0, classOf, hu, hg, Class.idx, Right.idx, b3, b4, b5]
      · refine ⟨_, _, _, by simp only [doAccessRwx, if_neg h0, if_neg hu, if_neg hg]; rfl, ?_, ?_, ?_⟩ <;>
          simp [Granted, h0, classOf, hu, hg, Class.idx, Right.idx, b0, b1, b2]

/-- C17. For every caller, inode and request mask: access is given exactly if the
mask asks for nothing but rights (`mask < 8`) and every right asked for is granted
by the POSIX rules above. -/
theorem C17_access (cr : Cred) (a : Attr) (mask : Nat) :
    doAccess cr a mask = true ↔ mask < 8 ∧ ∀ p : Right, Asks mask p → Granted cr a p := by
  obtain ⟨r, w, x, he, hr, hw, hx⟩ := doAccessRwx_eq cr a
  unfold doAccess
  rw [he, rwx_mask]
  constructor
  · rintro ⟨h, h2, h1, h0⟩
    refine ⟨h, fun p hp => ?_⟩
    cases p
    · exact hr.1 (h2 hp)
    · exact hw.1 (h1 hp)
    · exact hx.1 (h0 hp)
  · rintro ⟨h, hall⟩
    exact ⟨h, fun h' => hr.2 (hall .r h'), fun h' => hw.2 (hall .w h'), fun h' => hx.2 (hall .x h')⟩

/-- The classes are exclusive: an owner that lacks a right is refused, whatever
group and others may do. -/
theorem C17_exclusive (cr : Cred) (a : Attr) (p : Right) (hne : cr.uid ≠ 0)
    (hu : cr.uid = a.uid) (hb : a.perm.testBit (6 + p.idx) = false) (mask : Nat)
    (hask : Asks mask p) : doAccess cr a mask = false := by
  cases h : doAccess cr a mask with
  | false => rfl
  | true =>
    have := ((C17_access cr a mask).1 h).2 p hask
    simp only [Granted, if_neg hne, classOf, if_pos hu, Class.idx] at this
    rw [show 3 * 2 + p.idx = 6 + p.idx from rfl, hb] at this
    exact absurd this (by decide)

example : doAccess ⟨7, 7, 0, 7⟩ ⟨.reg, 0o077, 7, 7⟩ R_OK = false ∧
    doAccess ⟨8, 7, 0, 8⟩ ⟨.reg, 0o070, 7, 7⟩ (R_OK ||| W_OK) = true ∧
    doAccess ⟨0, 0, 0, 0⟩ ⟨.reg, 0o666, 7, 7⟩ X_OK = false ∧
    doAccess ⟨0, 0, 0, 0⟩ ⟨.dir, 0, 7, 7⟩ X_OK = true := by decide

/-- What an open asks for: reading unless write-only, writing for write-only,
read-write, truncation and append; never execution. -/
theorem C17_open_mask (f : OFlags) :
    oflagsToRwx f < 8 ∧ ¬ Asks (oflagsToRwx f) .x ∧
    (Asks (oflagsToRwx f) .r ↔ f.rdwr = true ∨ f.wronly = false) ∧
    (Asks (oflagsToRwx f) .w ↔
      f.rdwr = true ∨ f.wronly = true ∨ f.trunc = true ∨ f.append = true) := by
  obtain ⟨a, b, c, d, _, _, _, _⟩ := f
  cases a <;> cases b <;> cases c <;> cases d <;>
    simp [oflagsToRwx, Asks, Right.idx, R_OK, W_OK, Nat.testBit]

/-- The sticky decision: refused exactly if the directory has the sticky bit and
the caller owns neither the directory nor the entry and is not privileged. -/
theorem C18_decision (cr : Cred) (dir c : Attr) :
    checkSticky cr dir (some c) = true ↔
      (dir.perm.testBit 9 = true → cr.uid = dir.uid ∨ cr.uid = c.uid ∨ cr.host = 0) := by
  have hs : hasSticky dir = dir.perm.testBit 9 := by
    have := and_pow dir.perm 9
    simp only [hasSticky]
    rw [show (0o1000 : Nat) = 2 ^ 9 by decide, this]
    cases dir.perm.testBit 9 <;> decide
  simp only [checkSticky, isOwner, hasCapFowner, hs]
  cases dir.perm.testBit 9
  · simp
  · simp only [Bool.not_true, Bool.false_eq_true, if_false, beq_iff_eq, true_implies]
    split
    · simp [*]
    · split
      · simp [*]
      · split
        · simp [*]
        · simp [*]

example : checkSticky ⟨7, 7, 0, 7⟩ ⟨.dir, 0o1777, 0, 0⟩ (some ⟨.reg, 0o644, 8, 8⟩) = false ∧
    checkSticky ⟨7, 7, 0, 7⟩ ⟨.dir, 0o1777, 0, 0⟩ (some ⟨.reg, 0o644, 7, 8⟩) = true := by decide

end Silofs.Ns
