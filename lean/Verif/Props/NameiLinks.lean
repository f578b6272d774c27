import Verif.Props.NameiBody
import Verif.Props.Access
/-
C13: link counts. C17/C18 at the level of operations: who may change a directory.
-/
set_option linter.unusedSimpArgs false
set_option linter.unusedVariables false
namespace Silofs.Ns

theorem step_good {s : Fs} {o : Orc} {op : Op} (hg : Good s) (hv : Vfs s op) (ht : TearFree s o op)
    (hd : (s.step o op).1 ≠ .die) : Good (s.step o op).2 :=
  (finish_inv (body_res hg hv ht).inv hd).1

theorem step_ents {s : Fs} {o : Orc} {op : Op} (hg : Good s) (hv : Vfs s op) (ht : TearFree s o op)
    (hd : (s.step o op).1 ≠ .die) : (s.step o op).2.ents = (op.body s o).2.ents :=
  (finish_inv (body_res hg hv ht).inv hd).2.1

theorem step_ok {s : Fs} {o : Orc} {op : Op} (h : (s.step o op).1 = .ok) : (op.body s o).1 = none := by
  unfold Fs.step Fs.finish at h
  split at h
  · cases h
  · cases hb : (op.body s o).1 with
    | none => rfl
    | some e => rw [hb] at h; cases h

theorem init_good (a : Attr) (m : Nat) : Good (Fs.init a m) := by
  have hino : ∀ i x, (Fs.init a m).ino i = some x → i = ROOT ∧ x.isDir = true ∧ x.nlink = 2 ∧ x.loose = false := by
    intro i x hx
    simp only [Fs.init] at hx
    split at hx
    · next h =>
      simp only [Option.some.injEq] at hx
      subst hx
      exact ⟨h, rfl, rfl, rfl⟩
    · cases hx
  refine ⟨⟨by simp [Fs.init], by simp [Fs.init], by simp [Fs.init], ?_, ?_, ?_, ?_, by simp [Fs.init]⟩,
    by simp [Anch, Fs.init], ?_, rfl⟩
  · intro i x hx hf
    obtain ⟨_, h, _⟩ := hino i x hx
    rw [h] at hf; cases hf
  · intro i x hx _
    obtain ⟨h, _, h2, _⟩ := hino i x hx
    rw [if_pos h, h2]
    rfl
  · intro i _; show ([] : List Dent).countP _ ≤ 1; simp
  · exact ⟨rfl, rfl⟩
  · intro i x hx hl
    obtain ⟨_, _, _, h⟩ := hino i x hx
    rw [h] at hl; cases hl

/-- Histories from a freshly formatted file-system: any operations by any users with any outcome
(`o` decides every internal failure), as long as the kernel's guarantees hold, no rename fails
half-way with a directory in its hands, and the process is not aborted. -/
inductive Run (a : Attr) (m : Nat) : Fs → Prop where
  | init : Run a m (Fs.init a m)
  | step {s : Fs} (o : Orc) (op : Op) : Run a m s → Vfs s op → TearFree s o op →
      (s.step o op).1 ≠ .die → Run a m (s.step o op).2

theorem Run.good {a : Attr} {m : Nat} {s : Fs} (h : Run a m s) : Good s := by
  induction h with
  | init => exact init_good a m
  | step o op _ hv ht hd ih => exact step_good ih hv ht hd

/-! ### Specification of C13 -/

/-- Link counts are what a user that lists all directories would count; every directory has one
name at most, and its `..` is the directory with that name; every name leads to an inode, and a
name occurs once in a directory. -/
structure LinksExact (s : Fs) : Prop where
  file : ∀ i x, s.ino i = some x → x.isDir = false →
    x.nlink = (s.ents.filter (fun e => e.child == i)).length
  dir : ∀ i x, s.ino i = some x → x.isDir = true → (i = ROOT ∨ ∃ e ∈ s.ents, e.child = i) →
    x.nlink = 2 + (s.ents.filter (fun e => e.dir == i && s.isDirI e.child)).length
  removed : ∀ i x, s.ino i = some x → x.isDir = true → i ≠ ROOT → (¬ ∃ e ∈ s.ents, e.child = i) →
    x.nlink = 1 ∧ ∀ e ∈ s.ents, e.dir ≠ i
  single : ∀ e ∈ s.ents, ∀ e' ∈ s.ents, e.child = e'.child → s.isDirI e.child = true → e = e'
  parent : ∀ e ∈ s.ents, ∀ x, s.ino e.child = some x → x.isDir = true → x.parent = e.dir
  dangling : ∀ e ∈ s.ents, (∃ x, s.ino e.child = some x) ∧ s.isDirI e.dir = true
  unique : ∀ e ∈ s.ents, ∀ e' ∈ s.ents, e.dir = e'.dir → e.name = e'.name → e = e'
  root : ∃ x, s.ino ROOT = some x ∧ x.isDir = true

theorem keys_inj {l : List Dent} (hk : (l.map (fun e => (e.dir, e.name))).Nodup) {e e' : Dent}
    (he : e ∈ l) (he' : e' ∈ l) (h1 : e.dir = e'.dir) (h2 : e.name = e'.name) : e = e' := by
  induction l with
  | nil => exact absurd he List.not_mem_nil
  | cons a l ih =>
    simp only [List.map_cons, List.nodup_cons] at hk
    rcases List.mem_cons.1 he with ha | ha
    · rcases List.mem_cons.1 he' with hb | hb
      · rw [ha, hb]
      · subst ha
        exact absurd (List.mem_map.2 ⟨e', hb, by simp only [h1, h2]⟩) hk.1
    · rcases List.mem_cons.1 he' with hb | hb
      · subst hb
        exact absurd (List.mem_map.2 ⟨e, ha, by simp only [h1, h2]⟩) hk.1
      · exact ih hk.2 ha hb

theorem countP_two {l : List Dent} {p : Dent → Bool} {e e' : Dent} (he : e ∈ l) (he' : e' ∈ l)
    (hp : p e = true) (hp' : p e' = true) (h : l.countP p ≤ 1) : e = e' := by
  induction l with
  | nil => exact absurd he List.not_mem_nil
  | cons a l ih =>
    rw [List.countP_cons] at h
    rcases List.mem_cons.1 he with ha | ha
    · rcases List.mem_cons.1 he' with hb | hb
      · rw [ha, hb]
      · subst ha
        have : 0 < l.countP p := List.countP_pos_iff.2 ⟨e', hb, hp'⟩
        rw [if_pos hp] at h; omega
    · rcases List.mem_cons.1 he' with hb | hb
      · subst hb
        have : 0 < l.countP p := List.countP_pos_iff.2 ⟨e, ha, hp⟩
        rw [if_pos hp'] at h; omega
      · exact ih ha hb (by split at h <;> omega)

theorem Good.links {s : Fs} (hg : Good s) : LinksExact s where
  file := by
    intro i x hx hf
    rw [hg.core.file i x hx hf, ← List.countP_eq_length_filter]; rfl
  dir := by
    intro i x hx hd hn
    have h := hg.core.dir i x hx hd
    rw [← List.countP_eq_length_filter]
    show _ = 2 + s.subdirs i
    rcases hn with rfl | ⟨e, he, rfl⟩
    · rw [if_pos rfl, hg.core.root.2] at h; omega
    · have h1 := names_pos he
      have h2 := hg.core.once e.child (by rw [isDirI_of hx]; exact hd)
      have hr : e.child ≠ ROOT := by
        intro h; rw [h, hg.core.root.2] at h1; omega
      rw [if_neg hr] at h
      omega
  removed := by
    intro i x hx hd hr hn
    have h0 : s.names i = 0 := names_zero.2 (fun e he h => hn ⟨e, he, h⟩)
    have ho := (nlinkOrphan_iff hg.core hg.anch hx).2 ⟨h0, hr⟩
    obtain ⟨_, hb, _⟩ := orphan_bare hg.core hg.anch hx ho
    refine ⟨?_, ndents_zero.1 hb⟩
    have h := hg.core.dir i x hx hd
    unfold Ino.nlinkOrphan at ho
    rw [hd] at ho
    rw [if_neg hr] at h
    simp at ho
    omega
  single := by
    intro e he e' he' h hd
    exact countP_two he he' (p := fun a => a.child == e.child) (by simp) (by simp [h]) (hg.core.once _ hd)
  parent := hg.core.par
  dangling := fun e he => ⟨hg.core.childOk e he, hg.core.dirOk e he⟩
  unique := fun e he e' he' h1 h2 => keys_inj hg.core.keys he he' h1 h2
  root := by
    have := hg.core.root.1
    unfold Fs.isDirI at this
    split at this
    · next x hx => exact ⟨x, hx, this⟩
    · cases this

/-- C13, for histories in which callers behave as the Linux kernel does and no rename of a
directory fails half-way (see `Vfs`, `TearFree`); what happens otherwise is in NameiWit. -/
theorem C13_links_partial (a : Attr) (m : Nat) (s : Fs) (h : Run a m s) : LinksExact s :=
  h.good.links

/-! ### Who may change what: C17 and C18 for operations -/

/-- The caller of an operation that changes names. -/
def Op.cred : Op → Option Cred
  | .create cr .. => some cr
  | .mknodReg cr .. => some cr
  | .mknodSpecial cr .. => some cr
  | .mkdir cr .. => some cr
  | .symlink cr .. => some cr
  | .link cr .. => some cr
  | .unlink cr .. => some cr
  | .rmdir cr .. => some cr
  | .rename cr .. => some cr
  | .openReg cr .. => some cr
  | .openDir cr .. => some cr
  | .release .. => none
  | .forget .. => none

theorem makes_cred {op : Op} {cr : Cred} {d : Nat} {n : Name} (h : op.makes cr d n) : op.cred = some cr := by
  rcases h with ⟨_, _, rfl⟩ | ⟨_, rfl⟩ | ⟨_, _, _, rfl⟩ | ⟨_, rfl⟩ | ⟨_, rfl⟩ <;> rfl

/-- How an operation changes what names mean: which key, and who asked under which checks. -/
def Allowed (s : Fs) (op : Op) (d : Nat) (n : Name) : Prop :=
  ∃ cr dx, op.cred = some cr ∧ DirW s cr d dx ∧
    ∀ c, s.look d n = some c → ∃ x, s.ino c = some x ∧ checkSticky cr dx.attr (some x.attr) = true

theorem Rm.allowed {s : Fs} {op : Op} {cr : Cred} {d : Nat} {dx : Ino} {n : Name} {c : Nat} {x : Ino}
    (h : Rm s cr d dx n c x) (hc : op.cred = some cr) : Allowed s op d n :=
  ⟨cr, dx, hc, h.dirw, fun c' hc' => ⟨x, by rw [h.look] at hc'; cases hc'; exact h.ino, h.sticky⟩⟩

theorem allowed_new {s : Fs} {op : Op} {cr : Cred} {d : Nat} {dx : Ino} {n : Name}
    (h : DirW s cr d dx) (hl : s.look d n = none) (hc : op.cred = some cr) : Allowed s op d n :=
  ⟨cr, dx, hc, h, fun c' hc' => by rw [hl] at hc'; cases hc'⟩

theorem mk_ents (m : Mk) (s : Fs) (i : Nat) : (m.app s i).ents = s.ents := (mk_same m s i).ents

theorem body_allowed {s : Fs} {o : Orc} {op : Op} (hg : Good s) (hv : Vfs s op) (d : Nat) (n : Name)
    (hne : (op.body s o).2.look d n ≠ s.look d n) : Allowed s op d n := by
  have he := body_eff s o op
  have hi := hg.inv
  have hdel : ∀ (t : Fs) (d' : Nat) (n' : Name) (c' : Nat) (b : Bool),
      (t.delDent d' n' c' b).look d n ≠ t.look d n → d = d' ∧ n = n' := by
    intro t d' n' c' b h
    rw [delDent_look] at h
    by_cases hh : d = d' ∧ n = n'
    · exact hh
    · rw [if_neg hh] at h; exact absurd rfl h
  have hadd : ∀ (t : Fs) (d' : Nat) (n' : Name) (c' : Nat) (b : Bool),
      (t.addDent d' n' c' b).look d n ≠ t.look d n → d = d' ∧ n = n' := by
    intro t d' n' c' b h
    rw [addDent_look] at h
    by_cases hh : d = d' ∧ n = n'
    · exact hh
    · rw [if_neg hh] at h; exact absurd rfl h
  have hrem : ∀ {d' : Nat} {n' : Name} {c' : Nat} {b : Bool} {r : Option Err × Fs},
      RemRes s d' n' c' b r → r.2.look d n ≠ s.look d n → d = d' ∧ n = n' := by
    intro d' n' c' b r hr h
    rcases hr.ents with h1 | h1
    · rw [look_of_ents h1] at h; exact absurd rfl h
    · rw [look_of_ents h1] at h; exact hdel s d' n' c' b h
  generalize hr : op.body s o = r at he hne
  cases he with
  | refuse op e => exact absurd rfl hne
  | nothing i => exact absurd rfl hne
  | undo op cr d' n' i x hop hx hu => rw [setIno_undo hx] at hne; exact absurd rfl hne
  | leak op cr d' n' i x hop hx hu hnew => exact absurd (look_of_ents rfl d n) hne
  | made op m cr d' dx n' i x hop hd hn hl hx h0 hnew ha =>
    simp only at hne
    rw [look_of_ents (mk_ents m _ i)] at hne
    have hne' : ((s.setIno i (some x)).addDent d' n' i x.isDir).look d n ≠ (s.setIno i (some x)).look d n := by
      rw [look_of_ents (s := s) (t := s.setIno i (some x)) rfl]; exact hne
    obtain ⟨rfl, rfl⟩ := hadd _ _ _ _ _ hne'
    exact allowed_new hd hl (makes_cred hop)
  | linked cr d' dx n' i x hd hl hx hdir hlm ha =>
    obtain ⟨rfl, rfl⟩ := hadd _ _ _ _ _ hne
    exact allowed_new hd hl rfl
  | unlinked cr d' dx n' c x hrm hdir =>
    have := remPrune_res hi (o := o) (rr := o.rem1) hrm.ino hrm.look (by rw [hdir]; intro h; exact absurd h (by decide))
    obtain ⟨rfl, rfl⟩ := hrem this hne
    exact hrm.allowed rfl
  | rmdired cr d' dx n' c x hrm hdir hemp hroot =>
    have := remPrune_res hi (o := o) (rr := o.rem1) hrm.ino hrm.look (fun _ => isEmpty_ndents hemp)
    obtain ⟨rfl, rfl⟩ := hrem this hne
    exact hrm.allowed rfl
  | renSame cr d' dx n' d2 dx2 n2 f c x hrm hd2 hl2 hnr =>
    have hdir : x.isDir = false := by
      have : s.isDirI c = false := hv c hrm.look hl2
      rw [isDirI_of hrm.ino] at this; exact this
    have := remPrune_res hi (o := o) (rr := o.rem1) hrm.ino hrm.look (by rw [hdir]; intro h; exact absurd h (by decide))
    obtain ⟨rfl, rfl⟩ := hrem this hne
    exact hrm.allowed rfl
  | moved cr d' dx n' d2 dx2 n2 f c x hrm hd2 hl2 hn2 hex hca =>
    have key : (d = d' ∧ n = n') ∨ (d = d2 ∧ n = n2) := by
      rcases renameMove_cases (s := s) (o := o) (d := d') (n := n') (d2 := d2) (n2 := n2) (c := c) (b := x.isDir) hca with
        ⟨h, _⟩ | ⟨h, _⟩ | ⟨h, _⟩ | ⟨h, _⟩
      · rw [h] at hne; exact absurd rfl hne
      · rw [h] at hne; exact .inl (hdel _ _ _ _ _ hne)
      · rw [h] at hne; exact .inl (hdel _ _ _ _ _ hne)
      · rw [h] at hne
        by_cases h2 : (s.delDent d' n' c x.isDir).look d n = s.look d n
        · simp only at hne
          rw [← h2] at hne; exact .inr (hadd _ _ _ _ _ hne)
        · exact .inl (hdel _ _ _ _ _ h2)
    rcases key with ⟨rfl, rfl⟩ | ⟨rfl, rfl⟩
    · exact hrm.allowed rfl
    · exact allowed_new hd2 hl2 rfl
  | exchanged cr d' dx n' d2 dx2 n2 f c x c2 x2 hrm hrm2 hcc hex hnr =>
    have key : (d = d' ∧ n = n') ∨ (d = d2 ∧ n = n2) := by
      have step1 : ∀ (t u : Fs), u.look d n ≠ s.look d n → (t.look d n ≠ s.look d n ∨ u.look d n ≠ t.look d n) := by
        intro t u h
        by_cases h1 : t.look d n = s.look d n
        · exact .inr (by rw [h1]; exact h)
        · exact .inl h1
      have k1 : (s.delDent d' n' c x.isDir).look d n ≠ s.look d n → (d = d' ∧ n = n') ∨ (d = d2 ∧ n = n2) :=
        fun h => .inl (hdel _ _ _ _ _ h)
      have k2 : ((s.delDent d' n' c x.isDir).delDent d2 n2 c2 x2.isDir).look d n ≠ s.look d n →
          (d = d' ∧ n = n') ∨ (d = d2 ∧ n = n2) := by
        intro h
        rcases step1 (s.delDent d' n' c x.isDir) _ h with h | h
        · exact k1 h
        · exact .inr (hdel _ _ _ _ _ h)
      have k3 : (((s.delDent d' n' c x.isDir).delDent d2 n2 c2 x2.isDir).addDent d2 n2 c x.isDir).look d n ≠ s.look d n →
          (d = d' ∧ n = n') ∨ (d = d2 ∧ n = n2) := by
        intro h
        rcases step1 ((s.delDent d' n' c x.isDir).delDent d2 n2 c2 x2.isDir) _ h with h | h
        · exact k2 h
        · exact .inr (hadd _ _ _ _ _ h)
      rcases renameExchange_cases (s := s) (o := o) (d := d') (n := n') (d2 := d2) (n2 := n2) (c := c) (b := x.isDir)
        (c2 := c2) (b2 := x2.isDir) with
        ⟨h, hh⟩ | ⟨h, hh⟩ | ⟨h | h, hh, hh2⟩ | ⟨h, hh, hh2, hh3, hh4⟩ | ⟨h, hh, hh2, hh3, hh4⟩
      · rw [h] at hne; exact absurd rfl hne
      · rw [h] at hne; exact k1 hne
      · rw [h] at hne; exact k2 hne
      · rw [h] at hne; exact k2 hne
      · rw [h] at hne; exact k3 hne
      · rw [h] at hne
        rcases step1 (((s.delDent d' n' c x.isDir).delDent d2 n2 c2 x2.isDir).addDent d2 n2 c x.isDir) _ hne with h | h
        · exact k3 h
        · exact .inl (hadd _ _ _ _ _ h)
    rcases key with ⟨rfl, rfl⟩ | ⟨rfl, rfl⟩
    · exact hrm.allowed rfl
    · exact hrm2.allowed rfl
  | replaced cr d' dx n' d2 dx2 n2 f c x c2 x2 hrm hrm2 hcc hex hnr hemp =>
    have hb : s.ndents c2 = 0 := by
      cases h : x2.isDir with
      | true => exact isEmpty_ndents (hemp h).1
      | false => exact ndents_file hi.core (by rw [isDirI_of hrm2.ino]; exact h)
    have hp := remPrune_res hi (o := o) (rr := o.rem2) hrm2.ino hrm2.look (fun _ => hb)
    have hcases := renameReplace_cases (s := s) (o := o) (d := d') (n := n') (d2 := d2) (n2 := n2) (c := c) (b := x.isDir)
      (c2 := c2) (b2 := x2.isDir)
    simp only at hcases
    generalize s.remPrune o o.rem2 d2 n2 c2 x2.isDir = p at hp hcases
    have key : (d = d' ∧ n = n') ∨ (d = d2 ∧ n = n2) := by
      have k1 : p.2.look d n ≠ s.look d n → (d = d' ∧ n = n') ∨ (d = d2 ∧ n = n2) := fun h => .inr (hrem hp h)
      have k2 : (p.2.delDent d' n' c x.isDir).look d n ≠ s.look d n → (d = d' ∧ n = n') ∨ (d = d2 ∧ n = n2) := by
        intro h
        by_cases h1 : p.2.look d n = s.look d n
        · rw [← h1] at h; exact .inl (hdel _ _ _ _ _ h)
        · exact k1 h1
      rcases hcases with ⟨h, hh⟩ | ⟨hp0, h, hh⟩ | ⟨hp0, h, hh⟩ | ⟨hp0, h, hh, hh2⟩ | ⟨hp0, h, hh, hh2⟩
      · rw [h] at hne; exact k1 hne
      · rw [h] at hne; exact k1 hne
      · rw [h] at hne; exact k2 hne
      · rw [h] at hne; exact k2 hne
      · rw [h] at hne
        by_cases h1 : (p.2.delDent d' n' c x.isDir).look d n = s.look d n
        · simp only at hne
          rw [← h1] at hne; exact .inr (hadd _ _ _ _ _ hne)
        · exact k2 h1
    rcases key with ⟨rfl, rfl⟩ | ⟨rfl, rfl⟩
    · exact hrm.allowed rfl
    · exact hrm2.allowed rfl
  | openedReg cr i f x hx hdir hacc => exact absurd (look_of_ents (incOpen_ents s i) d n) hne
  | openedDir cr i f x hx hdir hacc => exact absurd (look_of_ents (incOpen_ents s i) d n) hne
  | released i b f x hx hop =>
    have hs := decOpen_same s i
    have hi1 : Inv No (s.decOpen i) := ⟨hi.core.same hs, hi.anch.same hs, hi.loose.decOpen i⟩
    have hp := prune_pruned (o := o) hi1 i (fun h => h)
    exact absurd (look_of_ents (hp.ents.trans hs.ents) d n) hne
  | forgotten i x hx hpin =>
    have hs : Same s (s.setIno i (some { x with pinned := false })) := same_setIno hx rfl rfl rfl
    have hi1 : Inv No (s.setIno i (some { x with pinned := false })) :=
      ⟨hi.core.same hs, hi.anch.same hs, hi.loose.set (fun h => hi.loose i x hx h)⟩
    have hp := prune_pruned (o := o) hi1 i (fun h => h)
    exact absurd (look_of_ents (hp.ents.trans hs.ents) d n) hne

/-- C17 for operations: whatever an API call does to the meaning of a name in a directory, the
file-system is writable and its caller has write permission on that directory. -/
theorem C17_change_needs_write (s : Fs) (o : Orc) (op : Op) (hg : Good s) (hv : Vfs s op)
    (ht : TearFree s o op) (hd : (s.step o op).1 ≠ .die) (d : Nat) (n : Name)
    (hne : (s.step o op).2.look d n ≠ s.look d n) :
    ∃ cr dx, op.cred = some cr ∧ s.ino d = some dx ∧ dx.isDir = true ∧ s.writable = true ∧
      Granted cr dx.attr .w := by
  rw [look_of_ents (step_ents hg hv ht hd)] at hne
  obtain ⟨cr, dx, h1, h2, _⟩ := body_allowed hg hv d n hne
  exact ⟨cr, dx, h1, h2.ino, h2.isdir, h2.writable, ((C17_access cr dx.attr W_OK).1 h2.access).2 .w (by show W_OK.testBit 1 = true; decide)⟩

/-- C18: if after an API call a name in a sticky directory no longer means the inode it meant,
then the caller owns the directory, or owns that inode, or is privileged. -/
theorem C18_sticky (s : Fs) (o : Orc) (op : Op) (hg : Good s) (hv : Vfs s op)
    (ht : TearFree s o op) (hd : (s.step o op).1 ≠ .die) (d : Nat) (n : Name) (c : Nat) (dx x : Ino)
    (hdx : s.ino d = some dx) (hx : s.ino c = some x)
    (hst : dx.attr.perm.testBit 9 = true) (hl : s.look d n = some c)
    (hne : (s.step o op).2.look d n ≠ some c) :
    ∃ cr, op.cred = some cr ∧ (cr.uid = dx.attr.uid ∨ cr.uid = x.attr.uid ∨ cr.host = 0) := by
  rw [look_of_ents (step_ents hg hv ht hd), ← hl] at hne
  obtain ⟨cr, dx', h1, h2, h3⟩ := body_allowed hg hv d n hne
  obtain ⟨x', hx', hs⟩ := h3 c hl
  rw [hx] at hx'; cases hx'
  have := h2.ino
  rw [hdx] at this; cases this
  exact ⟨cr, h1, (C18_decision cr dx.attr x.attr).1 hs hst⟩

end Silofs.Ns
