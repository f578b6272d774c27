import Verif.Props.NameiBase
/-
Every API call has one of a small number of effects, each under checks that were
made before. (Case analysis of Op.body, used by all theorems about the name-space.)
-/
set_option linter.unusedSimpArgs false
set_option linter.unusedVariables false
namespace Silofs.Ns

theorem firstErr_cons_none {a : Option Err} {l : List (Option Err)} :
    firstErr (a :: l) = none ↔ a = none ∧ firstErr l = none := by
  cases a <;> simp [firstErr]

theorem firstErr_nil_none : firstErr [] = none ↔ True := by simp [firstErr]

theorem ite_none_some {p : Prop} [Decidable p] {e : Err} :
    (if p then none else some e) = none ↔ p := by
  by_cases h : p <;> simp [h]

theorem ite_some_none {p : Prop} [Decidable p] {e : Err} :
    (if p then some e else none) = none ↔ ¬ p := by
  by_cases h : p <;> simp [h]

/-- The caller may change directory `d`. -/
structure DirW (s : Fs) (cr : Cred) (d : Nat) (dx : Ino) : Prop where
  ino : s.ino d = some dx
  isdir : dx.isDir = true
  writable : s.writable = true
  access : doAccess cr dx.attr W_OK = true

theorem checkDirWaccess_none {s : Fs} {cr : Cred} {d : Nat} {dx : Ino} (h : s.ino d = some dx) :
    s.checkDirWaccess cr dx = none ↔ DirW s cr d dx := by
  unfold Fs.checkDirWaccess
  simp only [firstErr_cons_none, ite_none_some, firstErr_nil_none, and_true]
  constructor
  · rintro ⟨a, b, c⟩; exact ⟨h, b, a, c⟩
  · rintro ⟨_, b, a, c⟩; exact ⟨a, b, c⟩

/-- A new inode as set up by a spawn. -/
structure NewOk (cr : Cred) (x : Ino) : Prop where
  nlink : x.nlink = if x.isDir then 1 else 0
  nopen : x.nopen = 0
  pinned : x.pinned = false
  loose : x.loose = false
  data : x.data = true
  uid : x.attr.uid = cr.uid
  gid : x.attr.gid = cr.gid

theorem newIno_ok (cr : Cred) (k : Kind) (m d : Nat) (p : Ino) :
    NewOk cr (newIno cr k m d p) ∧ (newIno cr k m d p).isDir = (k == .dir) := by
  unfold newIno
  by_cases h : k = .dir
  · subst h
    simp only [if_true]
    exact ⟨⟨by simp [Ino.isDir], rfl, rfl, rfl, rfl, rfl, rfl⟩, rfl⟩
  · simp only [if_neg h]
    refine ⟨⟨?_, rfl, rfl, rfl, rfl, rfl, rfl⟩, rfl⟩
    simp [Ino.isDir, h]

/-- What is done to the new inode after its entry was added. -/
inductive Mk where
  | plain | opened | closed | pin

def Mk.app (m : Mk) (s : Fs) (i : Nat) : Fs :=
  match m with
  | .plain => s
  | .opened => s.incOpen i
  | .closed => (s.incOpen i).decOpen i
  | .pin => s.modIno i (fun x => { x with pinned := true })

/-- The entry `(d, n)` names inode `c`, and `cr` may remove it. -/
structure Rm (s : Fs) (cr : Cred) (d : Nat) (dx : Ino) (n : Name) (c : Nat) (x : Ino) : Prop where
  dirw : DirW s cr d dx
  look : s.look d n = some c
  ino : s.ino c = some x
  sticky : checkSticky cr dx.attr (some x.attr) = true

/-- Operations that make a new inode. -/
def Op.makes (op : Op) (cr : Cred) (d : Nat) (n : Name) : Prop :=
  (∃ k m, op = .create cr d n k m) ∨ (∃ m, op = .mknodReg cr d n m) ∨
  (∃ k m b, op = .mknodSpecial cr d n k m b) ∨ (∃ m, op = .mkdir cr d n m) ∨
  (∃ v, op = .symlink cr d n v)

inductive Eff (s : Fs) (o : Orc) : Op → Option Err × Fs → Prop where
  | refuse (op : Op) (e : Err) : Eff s o op (some e, s)
  | nothing (i : Nat) : Eff s o (.forget i) (none, s)
  | undo (op : Op) (cr : Cred) (d : Nat) (n : Name) (i : Nat) (x : Ino) :
      op.makes cr d n → s.ino i = none → o.undo = false →
      Eff s o op (some .enospc, (s.setIno i (some x)).setIno i none)
  | leak (op : Op) (cr : Cred) (d : Nat) (n : Name) (i : Nat) (x : Ino) :
      op.makes cr d n → s.ino i = none → o.undo = true → NewOk cr x →
      Eff s o op (some .enospc, s.setIno i (some x))
  | made (op : Op) (m : Mk) (cr : Cred) (d : Nat) (dx : Ino) (n : Name) (i : Nat) (x : Ino) :
      op.makes cr d n → DirW s cr d dx → 2 ≤ dx.nlink → s.look d n = none →
      s.ino i = none → i ≠ 0 → NewOk cr x → o.add1 = false →
      Eff s o op (none, m.app ((s.setIno i (some x)).addDent d n i x.isDir) i)
  | linked (cr : Cred) (d : Nat) (dx : Ino) (n : Name) (i : Nat) (x : Ino) :
      DirW s cr d dx → s.look d n = none → s.ino i = some x → x.isDir = false →
      x.nlink < LINK_MAX → o.add1 = false →
      Eff s o (.link cr d n i) (none, s.addDent d n i x.isDir)
  | unlinked (cr : Cred) (d : Nat) (dx : Ino) (n : Name) (c : Nat) (x : Ino) :
      Rm s cr d dx n c x → x.isDir = false →
      Eff s o (.unlink cr d n) (s.remPrune o o.rem1 d n c x.isDir)
  | rmdired (cr : Cred) (d : Nat) (dx : Ino) (n : Name) (c : Nat) (x : Ino) :
      Rm s cr d dx n c x → x.isDir = true → s.isEmpty c x = true → c ≠ ROOT →
      Eff s o (.rmdir cr d n) (s.remPrune o o.rem1 d n c x.isDir)
  | moved (cr : Cred) (d : Nat) (dx : Ino) (n : Name) (d2 : Nat) (dx2 : Ino) (n2 : Name)
      (f : RFlags) (c : Nat) (x : Ino) :
      Rm s cr d dx n c x → DirW s cr d2 dx2 → s.look d2 n2 = none →
      2 ≤ dx2.nlink → f.exchange = false →
      s.checkAddDentry d2 dx2 n2 = none →
      Eff s o (.rename cr d n d2 n2 f) (s.renameMove o d n d2 n2 dx2 c x.isDir)
  | renSame (cr : Cred) (d : Nat) (dx : Ino) (n : Name) (d2 : Nat) (dx2 : Ino) (n2 : Name)
      (f : RFlags) (c : Nat) (x : Ino) :
      Rm s cr d dx n c x → DirW s cr d2 dx2 → s.look d2 n2 = some c → f.noreplace = false →
      Eff s o (.rename cr d n d2 n2 f) (s.remPrune o o.rem1 d n c x.isDir)
  | exchanged (cr : Cred) (d : Nat) (dx : Ino) (n : Name) (d2 : Nat) (dx2 : Ino) (n2 : Name)
      (f : RFlags) (c : Nat) (x : Ino) (c2 : Nat) (x2 : Ino) :
      Rm s cr d dx n c x → Rm s cr d2 dx2 n2 c2 x2 → c ≠ c2 → f.exchange = true →
      f.noreplace = false →
      Eff s o (.rename cr d n d2 n2 f) (s.renameExchange o d n d2 n2 c x.isDir c2 x2.isDir)
  | replaced (cr : Cred) (d : Nat) (dx : Ino) (n : Name) (d2 : Nat) (dx2 : Ino) (n2 : Name)
      (f : RFlags) (c : Nat) (x : Ino) (c2 : Nat) (x2 : Ino) :
      Rm s cr d dx n c x → Rm s cr d2 dx2 n2 c2 x2 → c ≠ c2 → f.exchange = false →
      f.noreplace = false →
      (x2.isDir = true → s.isEmpty c2 x2 = true ∧ c2 ≠ ROOT) →
      Eff s o (.rename cr d n d2 n2 f) (s.renameReplace o d n d2 n2 c x.isDir c2 x2.isDir)
  | openedReg (cr : Cred) (i : Nat) (f : OFlags) (x : Ino) :
      s.ino i = some x → x.isDir = false → doAccess cr x.attr (oflagsToRwx f) = true →
      Eff s o (.openReg cr i f) (none, s.incOpen i)
  | openedDir (cr : Cred) (i : Nat) (f : OFlags) (x : Ino) :
      s.ino i = some x → x.isDir = true → doAccess cr x.attr R_OK = true →
      Eff s o (.openDir cr i f) (none, s.incOpen i)
  | released (i : Nat) (dir : Bool) (f : OFlags) (x : Ino) :
      s.ino i = some x → 0 < x.nopen →
      Eff s o (.release i dir f) ((s.decOpen i).prune o i)
  | forgotten (i : Nat) (x : Ino) :
      s.ino i = some x → x.pinned = true →
      Eff s o (.forget i) ((s.setIno i (some { x with pinned := false })).prune o i)

theorem checkDirCanAdd_none {s : Fs} {lk : Bool} {cr : Cred} {d : Nat} {dx : Ino} {n : Name}
    (h : s.ino d = some dx) (hc : s.checkDirCanAdd lk cr d dx n = none) :
    DirW s cr d dx ∧ s.look d n = none ∧ 2 ≤ dx.nlink := by
  unfold Fs.checkDirCanAdd at hc
  simp only [firstErr_cons_none, firstErr_nil_none, and_true, checkDirWaccess_none h] at hc
  obtain ⟨h1, h2, h3⟩ := hc
  refine ⟨h1, ?_, ?_⟩
  · unfold Fs.checkNodent at h2
    split at h2
    · exact absurd h2 (by simp)
    · split at h2
      · exact absurd h2 (by simp)
      · assumption
  · unfold Fs.checkAddDentry at h3
    simp only [firstErr_cons_none, ite_some_none, firstErr_nil_none, and_true] at h3
    omega

theorem make_eff {s : Fs} {o : Orc} {cr : Cred} {d : Nat} {dx : Ino} {n : Name} {k : Kind} {m : Nat}
    (op : Op) (hop : op.makes cr d n) (hw : DirW s cr d dx) (hl : s.look d n = none)
    (hn : 2 ≤ dx.nlink) (mk : Mk) :
    Eff s o op (match s.make o cr d dx n k m with
      | .error (e, s1) => (some e, s1)
      | .ok (i, s1) => (none, mk.app s1 i)) := by
  unfold Fs.make Fs.spawnIno
  obtain ⟨hnew, hdir⟩ := newIno_ok cr k m d dx
  cases hs : o.spawn with
  | none => exact .refuse op _
  | some i =>
    simp only
    cases hi : s.ino i with
    | some y => exact .refuse op _
    | none =>
      simp only
      by_cases h0 : i = 0
      · simp only [if_pos h0]; exact .refuse op _
      · simp only [if_neg h0]
        split
        · next e s1 heq =>
          split at heq
          · simp only [Except.error.injEq, Prod.mk.injEq] at heq
            obtain ⟨rfl, rfl⟩ := heq
            unfold Fs.undoSpawn
            cases hu : o.undo
            · simp only [Bool.false_eq_true, if_false]
              exact .undo op cr d n i _ hop hi hu
            · simp only [if_true]
              exact .leak op cr d n i _ hop hi hu hnew
          · unfold Fs.add at heq
            split at heq
            · next ee s2 heq2 =>
              simp only [Except.error.injEq, Prod.mk.injEq] at heq
              obtain ⟨rfl, rfl⟩ := heq
              split at heq2
              · simp only [Prod.mk.injEq, Option.some.injEq] at heq2
                obtain ⟨rfl, rfl⟩ := heq2
                unfold Fs.undoSpawn
                cases hu : o.undo
                · simp only [Bool.false_eq_true, if_false]
                  exact .undo op cr d n i _ hop hi hu
                · simp only [if_true]
                  exact .leak op cr d n i _ hop hi hu hnew
              · exact absurd heq2 (by simp)
            · exact absurd heq (by simp)
        · next j s1 heq =>
          split at heq
          · exact absurd heq (by simp)
          · unfold Fs.add at heq
            split at heq
            · exact absurd heq (by simp)
            · next s2 heq2 =>
              simp only [Except.ok.injEq, Prod.mk.injEq] at heq
              obtain ⟨rfl, rfl⟩ := heq
              split at heq2
              · exact absurd heq2 (by simp)
              · next ha =>
                simp only [Prod.mk.injEq, true_and] at heq2
                subst heq2
                rw [← hdir]
                exact .made op mk cr d dx n i _ hop hw hn hl hi h0 hnew (by simpa using ha)

theorem stageByName_ok {s : Fs} {lk st : Bool} {d : Nat} {n : Name} {c : Nat} {x : Ino}
    (h : s.stageByName lk st d n = .ok (c, x)) : s.look d n = some c ∧ s.ino c = some x := by
  unfold Fs.stageByName at h
  split at h
  · exact absurd h (by simp)
  · split at h
    · exact absurd h (by simp)
    · next c' hc =>
      split at h
      · exact absurd h (by simp)
      · split at h
        · exact absurd h (by simp)
        · next x' hx =>
          simp only [Except.ok.injEq, Prod.mk.injEq] at h
          obtain ⟨rfl, rfl⟩ := h
          exact ⟨hc, hx⟩

theorem stageByName_enoent {s : Fs} {lk st : Bool} {d : Nat} {n : Name}
    (h : s.stageByName lk st d n = .error .enoent) : s.look d n = none := by
  unfold Fs.stageByName at h
  split at h
  · exact absurd h (by simp)
  · split at h
    · assumption
    · split at h
      · exact absurd h (by simp)
      · split at h <;> exact absurd h (by simp)

theorem stageRename_some {s : Fs} {lk st : Bool} {cr : Cred} {d : Nat} {dx : Ino} {n : Name}
    {nd : Bool} {c : Nat} {x : Ino} (hd : s.ino d = some dx)
    (h : s.stageRename lk st cr d n nd = .ok (some (c, x))) : Rm s cr d dx n c x := by
  unfold Fs.stageRename at h
  rw [hd] at h
  simp only at h
  split at h
  · exact absurd h (by simp)
  · next he =>
    simp only [firstErr_cons_none, firstErr_nil_none, and_true, checkDirWaccess_none hd] at he
    split at h
    · split at h <;> exact absurd h (by simp)
    · next c' x' hs =>
      split at h
      · next hst =>
        simp only [Except.ok.injEq, Option.some.injEq, Prod.mk.injEq] at h
        obtain ⟨rfl, rfl⟩ := h
        obtain ⟨h1, h2⟩ := stageByName_ok hs
        exact ⟨he.2, h1, h2, hst⟩
      · exact absurd h (by simp)

theorem stageRename_none {s : Fs} {lk st : Bool} {cr : Cred} {d : Nat} {dx : Ino} {n : Name}
    {nd : Bool} (hd : s.ino d = some dx)
    (h : s.stageRename lk st cr d n nd = .ok none) : DirW s cr d dx ∧ s.look d n = none ∧ nd = true := by
  unfold Fs.stageRename at h
  rw [hd] at h
  simp only at h
  split at h
  · exact absurd h (by simp)
  · next he =>
    simp only [firstErr_cons_none, firstErr_nil_none, and_true, checkDirWaccess_none hd] at he
    split at h
    · next e hs =>
      split at h
      · next hh =>
        obtain ⟨rfl, hnd⟩ := hh
        exact ⟨he.2, stageByName_enoent hs, hnd⟩
      · exact absurd h (by simp)
    · split at h <;> exact absurd h (by simp)

theorem checkRmdirChild_none {s : Fs} {cr : Cred} {px : Ino} {c : Nat} {x : Ino}
    (h : s.checkRmdirChild cr px c x = none) :
    x.isDir = true ∧ s.isEmpty c x = true ∧ c ≠ ROOT ∧ checkSticky cr px.attr (some x.attr) = true := by
  unfold Fs.checkRmdirChild at h
  simp only [firstErr_cons_none, firstErr_nil_none, and_true, ite_none_some, ite_some_none] at h
  obtain ⟨_, h2, h3, h4, h5⟩ := h
  refine ⟨h2, h3, ?_, h5⟩
  rintro rfl
  simp [h2] at h4

theorem body_eff (s : Fs) (o : Orc) (op : Op) : Eff s o op (op.body s o) := by
  cases op with
  | create cr d n k m =>
    show Eff s o _ (s.create o cr d n k m)
    unfold Fs.create
    split
    · exact .refuse _ _
    · next dx hd =>
      split
      · exact .refuse _ _
      · next he =>
        simp only [firstErr_cons_none] at he
        obtain ⟨h1, h2, h3⟩ := checkDirCanAdd_none hd he.2.1
        exact make_eff _ (.inl ⟨k, m, rfl⟩) h1 h2 h3 .opened
  | mknodReg cr d n m =>
    show Eff s o _ (s.mknodReg o cr d n m)
    unfold Fs.mknodReg Fs.create
    cases hd : s.ino d with
    | none => exact .refuse _ _
    | some dx =>
      simp only
      split
      · next e s1 heq =>
        split at heq
        · simp only [Prod.mk.injEq, Option.some.injEq] at heq
          obtain ⟨rfl, rfl⟩ := heq
          exact .refuse _ _
        · next he =>
          simp only [firstErr_cons_none] at he
          obtain ⟨h1, h2, h3⟩ := checkDirCanAdd_none hd he.2.1
          have := make_eff (o := o) (k := .reg) (m := m) (.mknodReg cr d n m) (.inr (.inl ⟨m, rfl⟩)) h1 h2 h3 .opened
          cases hmk : s.make o cr d dx n .reg m with
          | error p =>
            rw [hmk] at this heq
            simp only [Prod.mk.injEq, Option.some.injEq] at heq
            obtain ⟨h5, h6⟩ := heq
            rw [← h5, ← h6]
            exact this
          | ok p =>
            rw [hmk] at heq
            exact absurd heq (by simp)
      · next s1 heq =>
        split at heq
        · exact absurd heq (by simp)
        · next he =>
          simp only [firstErr_cons_none] at he
          obtain ⟨h1, h2, h3⟩ := checkDirCanAdd_none hd he.2.1
          have := make_eff (o := o) (k := .reg) (m := m) (.mknodReg cr d n m) (.inr (.inl ⟨m, rfl⟩)) h1 h2 h3 .closed
          split at heq
          · exact absurd heq (by simp)
          · next i s2 hm =>
            simp only [Prod.mk.injEq, true_and] at heq
            subst heq
            rw [hm] at this
            have hsp : o.spawn = some i := by
              unfold Fs.make Fs.spawnIno at hm
              cases hs : o.spawn with
              | none => rw [hs] at hm; exact absurd hm (by simp)
              | some j =>
                rw [hs] at hm
                simp only at hm
                cases hj : s.ino j with
                | some y => rw [hj] at hm; exact absurd hm (by simp)
                | none =>
                  rw [hj] at hm
                  simp only at hm
                  by_cases h0 : j = 0
                  · simp only [if_pos h0] at hm; exact absurd hm (by simp)
                  · simp only [if_neg h0] at hm
                    split at hm
                    · exact absurd hm (by simp)
                    · split at hm
                      · exact absurd hm (by simp)
                      · simp only [Except.ok.injEq, Prod.mk.injEq] at hm
                        rw [hm.1]
            rw [hsp]
            exact this
  | mknodSpecial cr d n k m b =>
    show Eff s o _ (s.mknodSpecial o cr d n k m b)
    unfold Fs.mknodSpecial
    split
    · exact .refuse _ _
    · next dx hd =>
      split
      · exact .refuse _ _
      · next he =>
        simp only [firstErr_cons_none] at he
        obtain ⟨h1, h2, h3⟩ := checkDirCanAdd_none hd he.2.1
        exact make_eff _ (.inr (.inr (.inl ⟨k, m, b, rfl⟩))) h1 h2 h3 .pin
  | mkdir cr d n m =>
    show Eff s o _ (s.mkdir o cr d n m)
    unfold Fs.mkdir
    split
    · exact .refuse _ _
    · next dx hd =>
      split
      · exact .refuse _ _
      · next he =>
        simp only [firstErr_cons_none] at he
        obtain ⟨h1, h2, h3⟩ := checkDirCanAdd_none hd he.2.1
        exact make_eff _ (.inr (.inr (.inr (.inl ⟨m, rfl⟩)))) h1 h2 h3 .plain
  | symlink cr d n v =>
    show Eff s o _ (s.symlink o cr d n v)
    unfold Fs.symlink
    split
    · exact .refuse _ _
    · next dx hd =>
      split
      · exact .refuse _ _
      · next he =>
        simp only [firstErr_cons_none] at he
        obtain ⟨h1, h2, h3⟩ := checkDirCanAdd_none hd he.2.1
        exact make_eff _ (.inr (.inr (.inr (.inr ⟨v, rfl⟩)))) h1 h2 h3 .plain
  | link cr d n i =>
    show Eff s o _ (s.link o cr d n i)
    unfold Fs.link
    split
    · next dx x hd hx =>
      split
      · exact .refuse _ _
      · next he =>
        simp only [firstErr_cons_none, firstErr_nil_none, and_true, checkDirWaccess_none hd,
          ite_some_none] at he
        obtain ⟨_, h1, h2, h3, h4⟩ := he
        have hl : s.look d n = none := by
          unfold Fs.checkNodent at h3
          split at h3
          · exact absurd h3 (by simp)
          · split at h3
            · exact absurd h3 (by simp)
            · assumption
        unfold Fs.add
        split
        · exact .refuse _ _
        · next ha =>
          refine .linked cr d dx n i x h1 hl hx (by simpa using h2) ?_ (by simpa using ha)
          unfold checkNomlink at h4
          rw [ite_none_some] at h4
          exact h4
    · exact .refuse _ _
  | unlink cr d n =>
    show Eff s o _ (s.unlink o cr d n)
    unfold Fs.unlink
    split
    · exact .refuse _ _
    · next dx hd =>
      split
      · exact .refuse _ _
      · next he =>
        simp only [firstErr_cons_none, firstErr_nil_none, and_true, checkDirWaccess_none hd] at he
        split
        · exact .refuse _ _
        · next c x hs =>
          obtain ⟨h1, h2⟩ := stageByName_ok hs
          split
          · exact .refuse _ _
          · next he2 =>
            simp only [firstErr_cons_none, firstErr_nil_none, and_true, ite_some_none, ite_none_some] at he2
            exact .unlinked cr d dx n c x ⟨he.2, h1, h2, he2.1⟩ (by simpa using he2.2)
  | rmdir cr d n =>
    show Eff s o _ (s.rmdir o cr d n)
    unfold Fs.rmdir
    split
    · exact .refuse _ _
    · next dx hd =>
      split
      · exact .refuse _ _
      · next he =>
        simp only [firstErr_cons_none, firstErr_nil_none, and_true, checkDirWaccess_none hd] at he
        split
        · exact .refuse _ _
        · next c x hs =>
          obtain ⟨h1, h2⟩ := stageByName_ok hs
          split
          · exact .refuse _ _
          · next he2 =>
            obtain ⟨h3, h4, h5, h6⟩ := checkRmdirChild_none he2
            exact .rmdired cr d dx n c x ⟨he.2, h1, h2, h6⟩ h3 h4 h5
  | rename cr d n d2 n2 f =>
    show Eff s o _ (s.rename o cr d n d2 n2 f)
    unfold Fs.rename
    split
    · next dx dx2 hd hd2 =>
      split
      · exact .refuse _ _
      · exact .refuse _ _
      · next c x hs1 =>
        have hrm := stageRename_some hd hs1
        split
        · exact .refuse _ _
        · next old hs2 =>
          split
          · exact .refuse _ _
          · next he =>
            unfold Fs.renameSpecific
            unfold Fs.checkRename at he
            split at he
            · exact absurd he (by simp)
            · split at he
              · exact absurd he (by simp)
              · next hnr =>
                split at he
                · exact absurd he (by simp)
                · next hex =>
                  cases old with
                  | none =>
                    obtain ⟨h1, h2, _⟩ := stageRename_none hd2 hs2
                    simp only
                    have hex' : f.exchange = false := by simpa using hex
                    cases hca : s.checkAddDentry d2 dx2 n2 with
                    | some e =>
                      unfold Fs.renameMove
                      rw [hca]
                      exact .refuse _ _
                    | none =>
                      have : 2 ≤ dx2.nlink := by
                        unfold Fs.checkAddDentry at hca
                        simp only [firstErr_cons_none, ite_some_none, firstErr_nil_none, and_true] at hca
                        omega
                      exact .moved cr d dx n d2 dx2 n2 f c x hrm h1 h2 this hex' hca
                  | some p =>
                    obtain ⟨c2, x2⟩ := p
                    have hrm2 := stageRename_some hd2 hs2
                    have hnr' : f.noreplace = false := by simpa using hnr
                    simp only at he ⊢
                    split
                    · next h =>
                      subst h
                      exact .renSame cr d dx n d2 dx2 n2 f c x hrm hrm2.dirw hrm2.look hnr'
                    · next hne =>
                      split
                      · next hx =>
                        exact .exchanged cr d dx n d2 dx2 n2 f c x c2 x2 hrm hrm2 hne hx hnr'
                      · next hx =>
                        refine .replaced cr d dx n d2 dx2 n2 f c x c2 x2 hrm hrm2 hne (by simpa using hx) hnr' ?_
                        intro hdir
                        rw [if_neg hx, if_pos ⟨hdir, fun h => hne h.symm⟩] at he
                        obtain ⟨_, h4, h5, _⟩ := checkRmdirChild_none he
                        exact ⟨h4, h5⟩
    · exact .refuse _ _
  | openReg cr i f =>
    show Eff s o _ (s.openReg o cr i f)
    unfold Fs.openReg
    split
    · exact .refuse _ _
    · next x hx =>
      split
      · exact .refuse _ _
      · next he =>
        simp only [firstErr_cons_none, firstErr_nil_none, and_true, ite_some_none, ite_none_some] at he
        split
        · exact .refuse _ _
        · exact .openedReg cr i f x hx (by simpa using he.1) he.2.2.2.1
  | openDir cr i f =>
    show Eff s o _ (s.openDir cr i f)
    unfold Fs.openDir
    split
    · exact .refuse _ _
    · next x hx =>
      split
      · exact .refuse _ _
      · next he =>
        simp only [firstErr_cons_none, firstErr_nil_none, and_true, ite_some_none, ite_none_some] at he
        exact .openedDir cr i f x hx he.1 he.2.1
  | release i dir f =>
    show Eff s o _ (s.release o i dir f)
    unfold Fs.release
    split
    · exact .refuse _ _
    · next x hx =>
      split
      · exact .refuse _ _
      · next he =>
        simp only [firstErr_cons_none, firstErr_nil_none, and_true, ite_some_none, ite_none_some] at he
        exact .released i dir f x hx (by omega)
  | forget i =>
    show Eff s o _ (s.forget o i)
    unfold Fs.forget
    split
    · exact .refuse _ _
    · next x hx =>
      split
      · next hp => exact .forgotten i x hx hp
      · exact .nothing i

end Silofs.Ns
