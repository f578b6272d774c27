/-
C35: what a successful call of the name-space implies about its arguments and
about the state it was made in.
-/
import Verif.Props.NameiEff

set_option linter.unusedSimpArgs false
set_option linter.unusedVariables false
namespace Silofs.Ns

/-- The directory exists and has room for one more entry. -/
def Room (s : Fs) (d : Nat) : Prop :=
  ∃ dx, s.ino d = some dx ∧ dx.isDir = true ∧ s.ndents d < 8053063680

/-- What must hold before a call for it to be allowed to succeed.  Numbers are
those told to users: 480 * 2^24 entries in a directory, 32767 links, 4096 bytes
in a symbolic link; at most half of the limit of open files are handles of one
file. -/
def Op.Legal (s : Fs) : Op → Prop
  | .create _ d _ k _ => Room s d ∧ (k = .reg ∨ k = .fifo ∨ k = .sock)
  | .mknodReg _ d _ _ => Room s d
  | .mknodSpecial _ d _ k _ _ => Room s d ∧ (k = .fifo ∨ k = .sock ∨ k = .chr ∨ k = .blk)
  | .mkdir _ d _ _ => Room s d ∧ ∃ dx, s.ino d = some dx ∧ dx.nlink < 32767
  | .symlink _ d _ v => Room s d ∧ 1 ≤ v ∧ v ≤ 4096
  | .link _ d _ i => ∃ x, s.ino i = some x ∧ x.isDir = false ∧ x.nlink < 32767
  | .unlink .. => True
  | .rmdir .. => True
  | .rename _ _ _ d2 n2 _ => s.look d2 n2 = none → Room s d2
  | .openReg _ i _ => ∃ x, s.ino i = some x ∧ (x.attr.kind = .reg ∨ x.attr.kind = .fifo) ∧
      x.nopen < s.iopenMax / 2
  | .openDir _ i _ => ∃ x, s.ino i = some x ∧ x.isDir = true ∧ x.nopen < s.iopenMax / 2
  | .release i dir _ => ∃ x, s.ino i = some x ∧ x.isDir = dir ∧ 0 < x.nopen
  | .forget _ => True

theorem finish_ok {o : Orc} {r : Option Err × Fs} (h : (Fs.finish o r).1 = .ok) : r.1 = none := by
  unfold Fs.finish at h
  split at h
  · cases h
  · cases hr : r.1 with
    | none => rfl
    | some e => simp [hr] at h

theorem room_of_canAdd {s : Fs} {lk : Bool} {cr : Cred} {d : Nat} {dx : Ino} {n : Name}
    (hd : s.ino d = some dx) (h : s.checkDirCanAdd lk cr d dx n = none) : Room s d := by
  unfold Fs.checkDirCanAdd at h
  simp only [firstErr_cons_none, firstErr_nil_none, and_true] at h
  have h3 := h.2.2
  unfold Fs.checkAddDentry at h3
  simp only [firstErr_cons_none, firstErr_nil_none, and_true, ite_none_some, ite_some_none] at h3
  exact ⟨dx, hd, h3.1, h3.2.2.1⟩

theorem create_legal {s : Fs} {o : Orc} {cr : Cred} {d : Nat} {n : Name} {k : Kind} {m : Nat}
    (h : (s.create o cr d n k m).1 = none) :
    Room s d ∧ (k = .reg ∨ k = .fifo ∨ k = .sock) := by
  unfold Fs.create at h
  split at h
  · cases h
  · next dx hd =>
    split at h
    · cases h
    · next hc =>
      simp only [firstErr_cons_none, firstErr_nil_none, and_true] at hc
      refine ⟨room_of_canAdd hd hc.2.1, ?_⟩
      have := hc.2.2.1
      cases k <;> simp [checkCreateMode] at this ⊢

theorem openLimit_half {s : Fs} {x : Ino} (h : s.checkOpenLimit x = none) :
    x.nopen < s.iopenMax / 2 := by
  unfold Fs.checkOpenLimit at h
  split at h
  · cases h
  · split at h
    · cases h
    · omega

/-- **C35.** Whatever the state and whatever happens outside, a call succeeds only
when it is legal: no kind of file is made by the wrong call, no directory gets
more entries than it may have, no link count is raised beyond its limit, no
symbolic link is empty or too long, and no file is opened more often than allowed
or released by the wrong call. -/
theorem C35_legal (s : Fs) (o : Orc) (op : Op) (h : (s.step o op).1 = .ok) : op.Legal s := by
  have h := finish_ok h
  cases op with
  | create cr d n k m => exact create_legal h
  | mknodReg cr d n m =>
    simp only [Op.body, Fs.mknodReg] at h
    split at h
    · cases h
    · next s1 hc => exact (create_legal (by rw [hc])).1
  | mknodSpecial cr d n k m dv =>
    simp only [Op.body, Fs.mknodSpecial] at h
    split at h
    · cases h
    · next dx hd =>
      split at h
      · cases h
      · next hc =>
        simp only [firstErr_cons_none, firstErr_nil_none, and_true] at hc
        refine ⟨room_of_canAdd hd hc.2.1, ?_⟩
        have := hc.2.2
        cases k <;> simp [checkMknodKind] at this ⊢
  | mkdir cr d n m =>
    simp only [Op.body, Fs.mkdir] at h
    split at h
    · cases h
    · next dx hd =>
      split at h
      · cases h
      · next hc =>
        simp only [firstErr_cons_none, firstErr_nil_none, and_true] at hc
        refine ⟨room_of_canAdd hd hc.2.1, dx, hd, ?_⟩
        have := hc.2.2
        unfold checkNomlink at this; exact ite_none_some.1 this
  | symlink cr d n v =>
    simp only [Op.body, Fs.symlink] at h
    split at h
    · cases h
    · next dx hd =>
      split at h
      · cases h
      · next hc =>
        simp only [firstErr_cons_none, firstErr_nil_none, and_true, ite_some_none, ite_none_some] at hc
        have h1 := hc.2.2.1
        have h2 := hc.2.2.2
        unfold SYMLNK_MAX at h2
        exact ⟨room_of_canAdd hd hc.2.1, by omega, by omega⟩
  | link cr d n i =>
    simp only [Op.body, Fs.link] at h
    split at h
    · next dx x hd hx =>
      split at h
      · cases h
      · next hc =>
        simp only [firstErr_cons_none, firstErr_nil_none, and_true, ite_some_none, ite_none_some] at hc
        refine ⟨x, hx, by simpa using hc.2.2.1, ?_⟩
        have := hc.2.2.2.2
        unfold checkNomlink at this; exact ite_none_some.1 this
    · cases h
  | unlink => trivial
  | rmdir => trivial
  | rename cr d n d2 n2 f =>
    intro hl
    simp only [Op.body, Fs.rename] at h
    split at h
    · next dx dx2 hd hd2 =>
      split at h
      · cases h
      · cases h
      · next c x _ =>
        split at h
        · cases h
        · next old ho =>
          have hold : old = none := by
            unfold Fs.stageRename at ho
            simp only [hd2] at ho
            split at ho
            · cases ho
            · simp only [Fs.stageByName, hl] at ho
              split at ho
              · split at ho <;> first | (cases ho; rfl) | cases ho
              · next q _ =>
                exfalso
                revert q
                split <;> simp
          subst hold
          split at h
          · cases h
          · simp only [Fs.renameSpecific, Fs.renameMove] at h
            split at h
            · cases h
            · next hc =>
              unfold Fs.checkAddDentry at hc
              simp only [firstErr_cons_none, firstErr_nil_none, and_true, ite_none_some,
                ite_some_none] at hc
              exact ⟨dx2, hd2, hc.1, hc.2.2.1⟩
    · cases h
  | openReg cr i f =>
    simp only [Op.body, Fs.openReg] at h
    split at h
    · cases h
    · next x hx =>
      split at h
      · cases h
      · next hc =>
        simp only [firstErr_cons_none, firstErr_nil_none, and_true, ite_some_none, ite_none_some] at hc
        exact ⟨x, hx, hc.2.1, openLimit_half hc.2.2.2.2⟩
  | openDir cr i f =>
    simp only [Op.body, Fs.openDir] at h
    split at h
    · cases h
    · next x hx =>
      split at h
      · cases h
      · next hc =>
        simp only [firstErr_cons_none, firstErr_nil_none, and_true, ite_some_none, ite_none_some] at hc
        exact ⟨x, hx, hc.1, openLimit_half hc.2.2.1⟩
  | release i dir f =>
    simp only [Op.body, Fs.release] at h
    split at h
    · cases h
    · next x hx =>
      split at h
      · cases h
      · next hc =>
        simp only [firstErr_cons_none, firstErr_nil_none, and_true, ite_some_none, ite_none_some] at hc
        refine ⟨x, hx, ?_, by have := hc.2.1; omega⟩
        have := hc.1
        split at this
        · next e => simpa using e
        · split at this <;> cases this
  | forget i => trivial

-- Calls that succeed, so that the theorem says something about them.
example :
    let a : Attr := { kind := .dir, perm := 0o755, uid := 0, gid := 0 }
    let cr : Cred := { uid := 0, gid := 0, umask := 0o22, host := 0 }
    let s := Fs.init a 100
    (s.step { spawn := some 7 } (.mkdir cr 1 [97] 0o755)).1 = .ok ∧
    (s.step { spawn := some 7 } (.symlink cr 1 [97] 4096)).1 = .ok ∧
    (s.step { spawn := some 7 } (.symlink cr 1 [97] 4097)).1 = .err .enametoolong ∧
    (s.step { spawn := some 7 } (.create cr 1 [97] .chr 0o600)).1 = .err .eopnotsupp := by
  decide +kernel

end Silofs.Ns
