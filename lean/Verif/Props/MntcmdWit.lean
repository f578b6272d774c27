import Verif.Props.Mntcmd
/-
Cases of C76: what the theorems of Verif.Props.Mntcmd speak of happens, and what they leave out as well.
-/
set_option linter.unusedSimpArgs false
set_option linter.unusedVariables false
namespace Silofs.Mc

open Silofs.Mnt (Path World Svc Env Params Out)

namespace Wit

/-- "/m", and "m" as seen from "/" of the command. -/
def m : Path := [47, 109]
def rel : Path := [109]

/-- The directory itself, and the root of a file-system on it. -/
def under : Mnt.Stat := ⟨50, 1, 0x41C0, 2, 1000⟩
def root : Mnt.Stat := ⟨1, 7, 0x41C0, 2, 1000⟩

/-- What is at "/m": nothing, a live mount, a mount without server. -/
inductive Place
  | bare
  | live
  | dead
  deriving DecidableEq

def statOf : Place → Except Nat Mnt.Stat
  | .bare => .ok under
  | .live => .ok root
  | .dead => .error 107

def fsOf : Place → Except Nat Nat
  | .bare => .ok 0xEF53
  | .live => .ok 0x65735546
  | .dead => .error 107

/-- The tree of a process whose working directory is "/" (`here`) or elsewhere. -/
def tree (pl : Nat → Place) (here : Bool) (t : Nat) : World where
  stat := fun p => if p = m ∨ (here = true ∧ p = rel) then statOf (pl t) else .error 2
  canon := fun p => if p = m ∨ (here = true ∧ p = rel) then
      (if pl t = .dead then .error 107 else .ok m) else .error 2
  fstype := fun p => if p = m ∨ (here = true ∧ p = rel) then fsOf (pl t) else .error 2
  top := fun _ => none

def site (pl : Nat → Place) (last : Nat) : Site where
  see := tree pl true
  svc := tree pl false
  acc := fun _ _ => 0
  ents := fun _ _ => .ok [2]
  pidOf := fun _ _ => .ok 77
  alive := fun t _ => decide (t < last)
  sock := fun _ => 0
  bye := fun _ => 0
  uid := 1000
  gid := 1000
  s := ⟨1000, 1000, 4096, some [⟨m, 1000, false⟩]⟩
  e := ⟨.ok 5, none, none⟩

theorem same (pl : Nat → Place) (last : Nat) : SameTree (site pl last) := by
  constructor
  · intro t p hp
    show (if p = m ∨ (false = true ∧ p = rel) then statOf (pl t) else .error 2) =
      (if p = m ∨ (true = true ∧ p = rel) then statOf (pl t) else .error 2)
    by_cases h : p = m
    · rw [if_pos (Or.inl h), if_pos (Or.inl h)]
    · rw [if_neg (by rintro (h' | ⟨h', _⟩); exact h h'; cases h'),
        if_neg (by rintro (h' | ⟨_, h'⟩); exact h h'; subst h'; revert hp; decide)]
  · intro t arg p h
    have h : (if arg = m ∨ (true = true ∧ arg = rel) then
      (if pl t = .dead then Except.error 107 else .ok m) else .error 2) = .ok p := h
    split at h
    · split at h
      · cases h
      · injection h with h; subst h; rfl
    · cases h

theorem numbered (pl : Nat → Place) (last : Nat) : Numbered (site pl last).svc := by
  have hs : ∀ q e, statOf q = .error e → e ≠ 0 := by
    intro q e h; cases q <;> first | (cases h; done) | (injection h with h; subst h; decide)
  have hf : ∀ q e, fsOf q = .error e → e ≠ 0 := by
    intro q e h; cases q <;> first | (cases h; done) | (injection h with h; subst h; decide)
  constructor
  · intro t p e h
    have h : (if p = m ∨ (false = true ∧ p = rel) then statOf (pl t) else .error 2) = .error e := h
    split at h
    · exact hs _ _ h
    · injection h with h; subst h; decide
  · intro t p e h
    have h : (if p = m ∨ (false = true ∧ p = rel) then
      (if pl t = .dead then Except.error 107 else .ok m) else .error 2) = .error e := h
    split at h
    · split at h
      · injection h with h; subst h; decide
      · cases h
    · injection h with h; subst h; decide
  · intro t p e h
    have h : (if p = m ∨ (false = true ∧ p = rel) then fsOf (pl t) else .error 2) = .error e := h
    split at h
    · exact hf _ _ h
    · injection h with h; subst h; decide

/-- Live from moment `n` on. -/
def from' (n : Nat) (t : Nat) : Place := if n ≤ t then .live else .bare

/-- Live up to moment `n`. -/
def upto (n : Nat) (t : Nat) : Place := if t ≤ n then .live else .bare

theorem follows (n : Nat) (d : Daemon) (a last : Nat) (h : d.mountedAt a = some n) :
    Follows (site (from' n) last).see m d a := by
  intro t
  rw [h]
  constructor
  · intro ht
    refine ⟨under, ?_, by decide, by decide⟩
    show statOf (from' n t) = _
    unfold from'
    rw [if_neg (by omega)]; rfl
  · intro ht
    refine ⟨root, ?_, by decide, rfl⟩
    show statOf (from' n t) = _
    unfold from'
    rw [if_pos ht]; rfl

/-- A daemon which has the lock at once, and takes three seconds. -/
def quick : Daemon := ⟨fun _ => false, 2, false, 1, false⟩

/-- One which has to wait for the lock of another command: eighteen seconds. -/
def late : Daemon := ⟨fun t => decide (t < 10 + 17), 2, false, 1, false⟩

/-- One whose mount is refused, as another has mounted there. -/
def refused : Daemon := ⟨fun _ => false, 2, false, 1, true⟩

end Wit

open Wit

/-- A "mount" as it should be: the hypotheses of `C76_mount_true_partial`, `C76_mount_found`,
`C76_mount_iff` and `C76_mount_prompt` hold, and it ends at once when the daemon has mounted. -/
example : prepareMount (site (from' 13) 0) 0 m = some m ∧ quick.mountedAt 10 = some 13 ∧
    mountCmd (site (from' 13) 0) 0 m true (.exited 0) (fun i => 10 + i) = .ok 13 ∧
    Alone (site (from' 13) 0) m (fun t => decide (13 ≤ t)) 0 := by
  refine ⟨by decide +kernel, by decide +kernel, by decide +kernel, ?_⟩
  intro u v _ _ hu hv
  show statOf (from' 13 u) = statOf (from' 13 v)
  unfold from'
  rw [if_neg (of_decide_eq_false hu), if_neg (of_decide_eq_false hv)]

example : (finishParent (site (from' 13) 0).see m (fun i => 10 + i)).isOk = true :=
  C76_mount_prompt (follows 13 quick 10 0 (by decide +kernel)) rfl rfl rfl (by decide)

/-- A refusal: the directory is already the root of a mounted file-system. -/
example : mountCmd (site (from' 0) 0) 0 m true (.exited 0) (fun i => 10 + i) = .fail 1 0 :=
  C76_mount_refused (Or.inl (by decide +kernel))

/-- **C76, violated** "mount" reports failure, and the file-system comes up all the same: the daemon waits for
the lock of another command for eighteen seconds, and then has one second left. -/
theorem C76_late_violated :
    SameTree (site (from' 31) 0) ∧ Numbered (site (from' 31) 0).svc ∧
    late.mountedAt 10 = some 31 ∧
    mountCmd (site (from' 31) 0) 0 m true (.exited 0) (fun i => 10 + i) = .fail 1 30 ∧
    ∀ t, 31 ≤ t → ShowsRoot ((site (from' 31) 0).see t) m := by
  refine ⟨same _ _, numbered _ _, by decide +kernel, by decide +kernel, fun t ht => ?_⟩
  have := follows 31 late 10 0 (by decide +kernel) t
  rw [show late.mountedAt 10 = some 31 by decide +kernel] at this
  exact this.2 ht

/-- **C76, violated** Two commands mount at one directory at the same time.  Both find it bare; the daemon
of the second is refused, as the first has mounted there; the second reports success. -/
theorem C76_two_mounts_violated :
    SameTree (site (from' 13) 0) ∧ Numbered (site (from' 13) 0).svc ∧
    quick.mountedAt 10 = some 13 ∧ refused.mountedAt 10 = none ∧
    mountCmd (site (from' 13) 0) 0 m true (.exited 0) (fun i => 10 + i) = .ok 13 :=
  ⟨same _ _, numbered _ _, by decide +kernel, by decide +kernel, by decide +kernel⟩

/-- An "umount" as it should be: it ends when the server has gone. -/
example : prepareUmount (site (upto 1) 9) 0 ⟨false, false⟩ m = some ⟨m, false, 77⟩ ∧
    umountCmd (site (upto 1) 9) 0 ⟨false, false⟩ m =
      (some ⟨some (2, .umount m 0), 0, none⟩, .ok 9) := by
  constructor <;> decide +kernel

example : ∀ u, 9 ≤ u → (site (upto 1) 9).alive u 77 = false :=
  fun u hu => decide_eq_false (by omega)

/-- An "umount" of what is no mount. -/
example : umountCmd (site (fun _ => .bare) 9) 0 ⟨false, true⟩ m = (none, .fail 1 0) := by decide +kernel

/-- **C76, violated** "umount" reports success after two minutes, though the server still runs and has not
stored everything yet. -/
theorem C76_slow_server_violated :
    (umountCmd (site (upto 1) 500) 0 ⟨false, false⟩ m).2 = .ok 123 ∧
    (site (upto 1) 500).alive 123 77 = true := by
  constructor <;> decide +kernel

/-- **C76, violated** With "lazy" it does so after two seconds. -/
theorem C76_lazy_violated :
    (umountCmd (site (upto 1) 60) 0 ⟨true, false⟩ m).2 = .ok 5 ∧ (site (upto 1) 60).alive 5 77 = true := by
  constructor <;> decide +kernel

/-- **C76, violated** A mount without server can be removed with "force" by its full path, and can not by
the same path from the current directory: that text is sent as it is, and means another path, or none, to
the service. -/
theorem C76_relative_violated :
    noServer (((site (fun _ => .dead) 0).see 0).fstype rel) = true ∧
    umountCmd (site (fun _ => .dead) 0) 0 ⟨false, true⟩ m =
      (some ⟨some (2, .umount m 1), 0, none⟩, .ok 3) ∧
    umountCmd (site (fun _ => .dead) 0) 0 ⟨false, true⟩ rel = (some ⟨none, 2, none⟩, .fail 1 2) := by
  refine ⟨by decide +kernel, by decide +kernel, by decide +kernel⟩

/-- **C76, violated** The connection breaks after the service has detached the file-system: "umount"
reports failure. -/
theorem C76_lost_answer_violated :
    (umountCmd { site (upto 1) 9 with bye := fun t => if t = 1 then 104 else 0 } 0 ⟨false, false⟩ m) =
      (some ⟨some (2, .umount m 0), 0, none⟩, .fail 1 2) := by
  decide +kernel

/-- **C76, violated** Emptiness of the directory is judged by the first entries the system gives: with a
file-system which gives "." and ".." by themselves, files in it go unnoticed and are hidden by the mount. -/
theorem C76_first_entries_violated :
    prepareMount { site (from' 13) 0 with ents := fun _ _ => .ok [2, 3] } 0 m = some m := by
  decide +kernel

end Silofs.Mc
