import Verif.Props.Ident
/-
C80: what a crash does to it, and concrete lives.
-/
set_option linter.unusedSimpArgs false
set_option linter.unusedVariables false
namespace Silofs.Idn.Case
open Silofs Silofs.Rep Silofs.Fuse Silofs.Addr

def st0 : St := ⟨0, 0, 0, 0, 0, 0, 0, 0, 0, 0, 0, 0, 0, 0, 0, 0⟩

/-- A world after a file was made. -/
def after (w : World) (ino : Nat) : World :=
  { w with
    fs := ⟨{ w.fs.sb with curr := { w.fs.sb.curr with generation := w.fs.gen + 1 } },
      fun k => if k = ino then some ⟨w.fs.gen + 1, w.n⟩ else w.fs.inodes k⟩
    n := w.n + 1, made := (w.n, ino, w.fs.gen + 1) :: w.made
    told := (w.n, leBytes 8 ino ++ leBytes 8 (w.fs.gen + 1)) :: w.told }

theorem create_ok {w : World} {ino : Nat} (h0 : 0 < ino) (h1 : ino < 2 ^ 56) (h2 : w.fs.inodes ino = none)
    (h3 : w.fs.gen + 1 < 2 ^ 64) : Step w (.create ino st0) (after w ino) := by
  have hs : spawn w.fs ino w.n = some (after w ino).fs := by
    unfold spawn
    rw [if_neg (by rw [h2]; rintro (h | h | h); all_goals first | omega | cases h)]
    have : (w.fs.sb.curr.generation + 1) % 2 ^ 64 = w.fs.gen + 1 := Nat.mod_eq_of_lt h3
    simp only [incGen, this]
    rfl
  have := Step.create (st := st0) hs (i := ⟨w.fs.gen + 1, w.n⟩) (if_pos rfl)
  rw [key_eq] at this
  exact this

theorem told_after (w : World) (ino : Nat) : (w.n, leBytes 8 ino ++ leBytes 8 (w.fs.gen + 1)) ∈ (after w ino).told :=
  List.mem_cons_self

/-- The root directory is made and stored. -/
def w1 : World := (after (fresh 0 0 0) 1).store (after (fresh 0 0 0) 1).fs

theorem run1 : Runs (fresh 0 0 0) [.create 1 st0, .sync] w1 :=
  .cons (create_ok (by decide) (by decide) rfl (by decide)) (.cons .sync .nil)

/-- The hypotheses of `C80_once` are met by a life in which an inode number is used twice, with a snapshot: two answers, which differ
in the generation. -/
example : ∃ l w, Runs (fresh 0 0 0) l w ∧ w.n < 2 ^ 64 ∧ (∀ b t, Op.crash b t ∉ l) ∧
    (1, leBytes 8 10 ++ leBytes 8 2) ∈ w.told ∧ (2, leBytes 8 10 ++ leBytes 8 3) ∈ w.told := by
  refine ⟨[.create 1 st0, .create 10 st0, .remove 10, .snapshot, .create 10 st0], _,
    .cons (create_ok (by decide) (by decide) rfl (by decide)) (.cons (create_ok (by decide) (by decide) rfl (by decide))
      (.cons .remove (.cons .snapshot (.cons (create_ok (by decide) (by decide) rfl (by decide)) .nil)))), by decide, ?_, ?_, ?_⟩
  · intro b t h
    simp at h
  · exact List.mem_cons_of_mem _ List.mem_cons_self
  · exact List.mem_cons_self

/-- Those of `C80_synced_partial`: a file made and synced, a crash, another file of the same number. -/
example : ∃ l w, Runs (fresh 0 0 0) l w ∧ w.n < 2 ^ 64 ∧ (0, leBytes 8 1 ++ leBytes 8 1) ∈ w.told ∧ 0 ∈ w.kept ∧
    (1, leBytes 8 10 ++ leBytes 8 2) ∈ w.told ∧ ∃ b t, Op.crash b t ∈ l := by
  refine ⟨[.create 1 st0, .sync, .crash w1.disk.sb w1.disk.inodes, .create 10 st0], _,
    .cons (create_ok (by decide) (by decide) rfl (by decide)) (.cons .sync (.cons (.crash ⟨Nat.le_refl _, Nat.le_refl _,
      fun k i h => .inl h⟩) (.cons (create_ok (by decide) (by decide) rfl (by decide)) .nil))), by decide, ?_, ?_, ?_,
      _, _, List.mem_cons_of_mem _ (List.mem_cons_of_mem _ List.mem_cons_self)⟩
  · exact List.mem_cons_of_mem _ List.mem_cons_self
  · decide
  · exact List.mem_cons_self

/-- **C80** is violated by crashes: a file is made, and the kernel is told of it; the machine fails before a sync; the next file is given the
same number and the same generation, and who held on to the first (an NFS client) gets the second for it. -/
theorem C80_crash_violated : ∃ l w o o' b, Runs (fresh 0 0 0) l w ∧ w.n < 2 ^ 64 ∧ (o, b) ∈ w.told ∧ (o', b) ∈ w.told ∧
    o ≠ o' := by
  refine ⟨[.create 1 st0, .sync, .create 10 st0, .crash w1.disk.sb w1.disk.inodes, .create 10 st0], _, 1, 2,
    leBytes 8 10 ++ leBytes 8 2,
    .cons (create_ok (by decide) (by decide) rfl (by decide)) (.cons .sync
      (.cons (create_ok (by decide) (by decide) rfl (by decide)) (.cons (.crash ⟨Nat.le_refl _, by decide,
      fun k i h => .inl h⟩) (.cons (create_ok (by decide) (by decide) rfl (by decide)) .nil)))), by decide, ?_, ?_, by decide⟩
  · exact List.mem_cons_of_mem _ List.mem_cons_self
  · exact List.mem_cons_self

/-- The inode was stored, the super block was not. -/
def t2 (k : Nat) : Option Inode := if k = 10 then some ⟨2, 1⟩ else w1.disk.inodes k

/-- A crash which keeps a file made after the sync, but not the counter. -/
def w2 : World :=
  { after w1 10 with fs := ⟨w1.disk.sb, t2⟩, disk := ⟨w1.disk.sb, t2⟩, start := (after w1 10).n }

theorem run2 : Runs (fresh 0 0 0) [.create 1 st0, .sync, .create 10 st0, .crash w1.disk.sb t2] w2 := by
  refine .cons (create_ok (by decide) (by decide) rfl (by decide)) (.cons .sync
      (.cons (create_ok (w := w1) (by decide) (by decide) rfl (by decide)) (.cons (.crash ⟨Nat.le_refl _, by decide, ?_⟩) .nil)))
  intro k i h
  unfold t2 at h
  split at h
  · next hk =>
    cases h
    subst hk
    exact .inr ⟨by decide, by decide⟩
  · exact .inl h

/-- **C80** is violated after a crash for good, even for what is told from then on, with no crash any more: the counter is not set right
when the file-system is mounted, so a file which came through the crash can have a generation that is still to be given out. -/
theorem C80_survivor_violated : ∃ l w l' w' o o' b, Runs (fresh 0 0 0) l w ∧ Runs { w with told := [] } l' w' ∧
    (∀ c t, Op.crash c t ∉ l') ∧ w'.n < 2 ^ 64 ∧ (o, b) ∈ w'.told ∧ (o', b) ∈ w'.told ∧ o ≠ o' := by
  have hl : (w2.fs.inodes 10) = some ⟨2, 1⟩ := rfl
  have s2 := @Step.lookup { w2 with told := [] } 10 st0 ⟨2, 1⟩ hl
  rw [key_eq] at s2
  refine ⟨_, w2, [.lookup 10 st0, .remove 10, .sync, .remount, .create 10 st0], _, 1, 2, leBytes 8 10 ++ leBytes 8 2, run2,
    .cons s2 (.cons .remove (.cons .sync (.cons .remount (.cons (create_ok (by decide) (by decide) rfl (by decide)) .nil)))),
    ?_, by decide, ?_, ?_, by decide⟩
  · intro c t h
    simp at h
  · exact List.mem_cons_of_mem _ List.mem_cons_self
  · exact List.mem_cons_self

end Silofs.Idn.Case
