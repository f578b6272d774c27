import Verif.Props.NameiLinks
/-
C16: failed operations. C15: what a successful rename does, and its flags.
-/
set_option linter.unusedSimpArgs false
set_option linter.unusedVariables false
namespace Silofs.Ns

theorem finish_same {s : Fs} {o : Orc} (hq : s.looseq = []) (e : Err) :
    Fs.finish o (some e, s) = (.err e, s) := by
  unfold Fs.finish
  simp only [hq, Fs.purgeList]
  congr 1
  cases s
  simp only at hq
  subst hq
  rfl

theorem step_err {s : Fs} {o : Orc} {op : Op} {e : Err} (h : (s.step o op).1 = .err e) :
    (op.body s o).1 = some e := by
  unfold Fs.step Fs.finish at h
  split at h
  · cases h
  · cases hb : (op.body s o).1 with
    | none => rw [hb] at h; cases h
    | some e' => rw [hb] at h; simp only [Out.err.injEq] at h; rw [h]

theorem step_of_body {s : Fs} {o : Orc} {op : Op} {e : Err} (hq : s.looseq = [])
    (h : op.body s o = (some e, s)) : (s.step o op) = (.err e, s) := by
  unfold Fs.step; rw [h]; exact finish_same hq e

/-- Errors that are only reported before anything is changed. -/
theorem body_check_error {s : Fs} {o : Orc} {op : Op} (hg : Good s) (hv : Vfs s op) {e : Err}
    (he : (op.body s o).1 = some e) (h1 : e ≠ .enospc) (h2 : e ≠ .eio) : (op.body s o).2 = s := by
  have hf := body_eff s o op
  have hi := hg.inv
  generalize hr : op.body s o = r at hf he ⊢
  have hrem : ∀ {d' : Nat} {n' : Name} {c' : Nat} {b : Bool} {r : Option Err × Fs},
      RemRes s d' n' c' b r → r.1 = some e → False := by
    intro d' n' c' b r hr h
    rcases hr.err with h' | h' <;> rw [h'] at h
    · cases h
    · simp only [Option.some.injEq] at h; exact h2 h.symm
  cases hf with
  | refuse op e' => rfl
  | nothing i => rfl
  | undo op cr d n i x hop hx hu =>
    simp only [Option.some.injEq] at he; exact absurd he.symm h1
  | leak op cr d n i x hop hx hu hnew =>
    simp only [Option.some.injEq] at he; exact absurd he.symm h1
  | made op m cr d dx n i x hop hd hn hl hx h0 hnew hadd => cases he
  | linked cr d dx n i x hd hl hx hdir hlm hadd => cases he
  | unlinked cr d dx n c x hrm hdir =>
    exact (hrem (remPrune_res hi (o := o) (rr := o.rem1) hrm.ino hrm.look (by rw [hdir]; intro h; exact absurd h (by decide))) he).elim
  | rmdired cr d dx n c x hrm hdir hemp hroot =>
    exact (hrem (remPrune_res hi (o := o) (rr := o.rem1) hrm.ino hrm.look (fun _ => isEmpty_ndents hemp)) he).elim
  | renSame cr d dx n d2 dx2 n2 f c x hrm hd2 hl2 hnr =>
    have hdir : x.isDir = false := by
      have : s.isDirI c = false := hv c hrm.look hl2
      rw [isDirI_of hrm.ino] at this; exact this
    exact (hrem (remPrune_res hi (o := o) (rr := o.rem1) hrm.ino hrm.look (by rw [hdir]; intro h; exact absurd h (by decide))) he).elim
  | moved cr d dx n d2 dx2 n2 f c x hrm hd2 hl2 hn2 hex hca =>
    exfalso
    rcases renameMove_cases (s := s) (o := o) (d := d) (n := n) (d2 := d2) (n2 := n2) (c := c) (b := x.isDir) hca with
      ⟨h, _⟩ | ⟨h, _⟩ | ⟨h, _⟩ | ⟨h, _⟩ <;> rw [h] at he <;> simp only [Option.some.injEq] at he
    · exact h2 he.symm
    · exact h2 he.symm
    · exact h1 he.symm
    · cases he
  | exchanged cr d dx n d2 dx2 n2 f c x c2 x2 hrm hrm2 hne hex hnr =>
    exfalso
    rcases renameExchange_cases (s := s) (o := o) (d := d) (n := n) (d2 := d2) (n2 := n2) (c := c) (b := x.isDir)
      (c2 := c2) (b2 := x2.isDir) with
      ⟨h, _⟩ | ⟨h, _⟩ | ⟨h | h, _⟩ | ⟨h, _⟩ | ⟨h, _⟩ <;> rw [h] at he <;> simp only [Option.some.injEq] at he
    · exact h2 he.symm
    · exact h2 he.symm
    · exact h2 he.symm
    · exact h1 he.symm
    · exact h1 he.symm
    · cases he
  | replaced cr d dx n d2 dx2 n2 f c x c2 x2 hrm hrm2 hne hex hnr hemp =>
    exfalso
    have hb : s.ndents c2 = 0 := by
      cases h : x2.isDir with
      | true => exact isEmpty_ndents (hemp h).1
      | false => exact ndents_file hi.core (by rw [isDirI_of hrm2.ino]; exact h)
    have hp := remPrune_res hi (o := o) (rr := o.rem2) hrm2.ino hrm2.look (fun _ => hb)
    have hcases := renameReplace_cases (s := s) (o := o) (d := d) (n := n) (d2 := d2) (n2 := n2) (c := c) (b := x.isDir)
      (c2 := c2) (b2 := x2.isDir)
    simp only at hcases
    generalize s.remPrune o o.rem2 d2 n2 c2 x2.isDir = p at hp hcases
    rcases hcases with ⟨h, _⟩ | ⟨_, h, _⟩ | ⟨_, h, _⟩ | ⟨_, h, _⟩ | ⟨_, h, _⟩ <;> rw [h] at he
    · exact hrem hp he
    · simp only [Option.some.injEq] at he; exact h2 he.symm
    · simp only [Option.some.injEq] at he; exact h2 he.symm
    · simp only [Option.some.injEq] at he; exact h1 he.symm
    · cases he
  | openedReg cr i f x hx hdir hacc => cases he
  | openedDir cr i f x hx hdir hacc => cases he
  | released i b f x hx hop =>
    exfalso
    rcases prune_err o (s.decOpen i) i (hi.loose.decOpen i) with h | h <;> rw [h] at he
    · cases he
    · simp only [Option.some.injEq] at he; exact h2 he.symm
  | forgotten i x hx hpin =>
    exfalso
    rcases prune_err o (s.setIno i (some { x with pinned := false })) i (hi.loose.set (fun h => hi.loose i x hx h)) with h | h <;>
      rw [h] at he
    · cases he
    · simp only [Option.some.injEq] at he; exact h2 he.symm

/-- C16 for every error other than ENOSPC and EIO (no permission, exists, does not exist, not
empty, too many links, name too long, ...): the file-system is exactly as before. -/
theorem C16_refused (s : Fs) (o : Orc) (op : Op) (hg : Good s) (hv : Vfs s op) (e : Err)
    (he : (s.step o op).1 = .err e) (h1 : e ≠ .enospc) (h2 : e ≠ .eio) : (s.step o op).2 = s := by
  have hb := step_err he
  have := body_check_error hg hv hb h1 h2
  have hbody : op.body s o = (some e, s) := by
    exact Prod.ext hb this
  rw [step_of_body hg.looseq hbody]

/-- The failure, if any, strikes before or at the first change: no failure while undoing or
disposing, and only the first of the changes a rename makes may fail. -/
def Quiet (s : Fs) (o : Orc) (op : Op) : Prop :=
  o.undo = false ∧ o.drop = false ∧ o.rem1 ≠ .failAfter ∧ o.rem2 ≠ .failAfter ∧
  (match op with
   | .rename _ _ _ d2 n2 f => o.add1 = false ∧ o.add2 = false ∧ (f.exchange = true → o.rem2 = .ok) ∧
      (f.exchange = false → s.look d2 n2 ≠ none → o.rem1 = .ok)
   | _ => True)

/-- C16 for all errors, ENOSPC and EIO included, under `Quiet`; without it the claim is false
(see NameiWit). -/
theorem C16_no_effect_partial (s : Fs) (o : Orc) (op : Op) (hg : Good s) (hv : Vfs s op)
    (hq : Quiet s o op) (e : Err) (he : (s.step o op).1 = .err e) : (s.step o op).2 = s := by
  have hb := step_err he
  have hf := body_eff s o op
  have hi := hg.inv
  obtain ⟨q1, q2, q3, q4, q5⟩ := hq
  suffices h : (op.body s o).2 = s by
    have hbody : op.body s o = (some e, s) := Prod.ext hb h
    rw [step_of_body hg.looseq hbody]
  clear he
  generalize hr : op.body s o = r at hf hb ⊢
  have hrem : ∀ {rr : Rem} {d' : Nat} {n' : Name} {c' : Nat} {x : Ino},
      rr ≠ .failAfter → s.ino c' = some x → s.look d' n' = some c' → (x.isDir = true → s.ndents c' = 0) →
      (s.remPrune o rr d' n' c' x.isDir).1 = some e →
      (s.remPrune o rr d' n' c' x.isDir).2 = s := by
    intro rr d' n' c' x hrr hx hl hbare h
    have hb' : s.ndents c' = 0 := by
      cases h : x.isDir with
      | true => exact hbare h
      | false => exact ndents_file hi.core (by rw [isDirI_of hx, h])
    have h1 : Inv No (s.delDent d' n' c' x.isDir) := (hi.del hx hl).bare (delDent_ndents_zero hb')
    unfold Fs.remPrune Fs.rem at h ⊢
    cases rr with
    | fail => rfl
    | failAfter => exact absurd rfl hrr
    | ok => simp only at h; rw [prune_err_drop o _ c' h1.loose q2] at h; cases h
  cases hf with
  | refuse op e' => rfl
  | nothing i => rfl
  | undo op cr d n i x hop hx hu => exact setIno_undo hx
  | leak op cr d n i x hop hx hu hnew => rw [q1] at hu; cases hu
  | made op m cr d dx n i x hop hd hn hl hx h0 hnew hadd => cases hb
  | linked cr d dx n i x hd hl hx hdir hlm hadd => cases hb
  | unlinked cr d dx n c x hrm hdir =>
    exact hrem q3 hrm.ino hrm.look (by rw [hdir]; intro h; exact absurd h (by decide)) hb
  | rmdired cr d dx n c x hrm hdir hemp hroot =>
    exact hrem q3 hrm.ino hrm.look (fun _ => isEmpty_ndents hemp) hb
  | renSame cr d dx n d2 dx2 n2 f c x hrm hd2 hl2 hnr =>
    have hdir : x.isDir = false := by
      have : s.isDirI c = false := hv c hrm.look hl2
      rw [isDirI_of hrm.ino] at this; exact this
    exact hrem q3 hrm.ino hrm.look (by rw [hdir]; intro h; exact absurd h (by decide)) hb
  | moved cr d dx n d2 dx2 n2 f c x hrm hd2 hl2 hn2 hex hca =>
    rcases renameMove_cases (s := s) (o := o) (d := d) (n := n) (d2 := d2) (n2 := n2) (c := c) (b := x.isDir) hca with
      ⟨h, hh⟩ | ⟨h, hh⟩ | ⟨h, hh, hh2⟩ | ⟨h, hh⟩
    · rw [h]
    · exact absurd hh q3
    · rw [q5.1] at hh2; cases hh2
    · rw [h] at hb; cases hb
  | exchanged cr d dx n d2 dx2 n2 f c x c2 x2 hrm hrm2 hne hex hnr =>
    rcases renameExchange_cases (s := s) (o := o) (d := d) (n := n) (d2 := d2) (n2 := n2) (c := c) (b := x.isDir)
      (c2 := c2) (b2 := x2.isDir) with
      ⟨h, hh⟩ | ⟨h, hh⟩ | ⟨h, hh, hh2⟩ | ⟨h, hh, hh2, hh3, hh4⟩ | ⟨h, hh⟩
    · rw [h]
    · exfalso
      rcases hh with hh | ⟨_, hh⟩
      · exact q3 hh
      · rw [q5.2.2.1 hex] at hh; cases hh
    · exfalso
      rcases hh2 with hh2 | ⟨_, hh2⟩
      · exact q4 hh2
      · rw [q5.1] at hh2; cases hh2
    · rw [q5.2.1] at hh4; cases hh4
    · rw [h] at hb; cases hb
  | replaced cr d dx n d2 dx2 n2 f c x c2 x2 hrm hrm2 hne hex hnr hemp =>
    have hbare : s.ndents c2 = 0 := by
      cases h : x2.isDir with
      | true => exact isEmpty_ndents (hemp h).1
      | false => exact ndents_file hi.core (by rw [isDirI_of hrm2.ino]; exact h)
    have hr2 := hrem (rr := o.rem2) q4 hrm2.ino hrm2.look (fun _ => hbare)
    have hcases := renameReplace_cases (s := s) (o := o) (d := d) (n := n) (d2 := d2) (n2 := n2) (c := c) (b := x.isDir)
      (c2 := c2) (b2 := x2.isDir)
    simp only at hcases
    have hok : o.rem1 = .ok := q5.2.2.2 hex (by rw [hrm2.look]; simp)
    rcases hcases with ⟨h, hh⟩ | ⟨hp0, h, hh⟩ | ⟨hp0, h, hh⟩ | ⟨hp0, h, hh, hh2⟩ | ⟨hp0, h, hh, hh2⟩
    · rw [h] at hb ⊢; exact hr2 hb
    · rw [hok] at hh; cases hh
    · exact absurd hh q3
    · rw [q5.1] at hh2; cases hh2
    · rw [h] at hb; cases hb
  | openedReg cr i f x hx hdir hacc => cases hb
  | openedDir cr i f x hx hdir hacc => cases hb
  | released i b f x hx hop =>
    rw [prune_err_drop o (s.decOpen i) i (hi.loose.decOpen i) q2] at hb; cases hb
  | forgotten i x hx hpin =>
    rw [prune_err_drop o (s.setIno i (some { x with pinned := false })) i (hi.loose.set (fun h => hi.loose i x hx h)) q2] at hb
    cases hb

/-! ### rename -/

theorem body_rename_look {s : Fs} {o : Orc} {cr : Cred} {d : Nat} {n : Name} {d2 : Nat} {n2 : Name}
    {f : RFlags} (hg : Good s) (hv : Vfs s (.rename cr d n d2 n2 f))
    (h0 : ((Op.rename cr d n d2 n2 f).body s o).1 = none) :
    ∃ c, s.look d n = some c ∧ (f.noreplace = true → s.look d2 n2 = none) ∧
      (s.look d2 n2 = some c → ∀ d' n', ((Op.rename cr d n d2 n2 f).body s o).2.look d' n' =
        if d' = d ∧ n' = n then none else s.look d' n') ∧
      (s.look d2 n2 ≠ some c → f.exchange = false →
        ∀ d' n', ((Op.rename cr d n d2 n2 f).body s o).2.look d' n' =
          if d' = d2 ∧ n' = n2 then some c else if d' = d ∧ n' = n then none else s.look d' n') ∧
      (s.look d2 n2 ≠ some c → f.exchange = true →
        ∃ c2, s.look d2 n2 = some c2 ∧ ∀ d' n', ((Op.rename cr d n d2 n2 f).body s o).2.look d' n' =
          if d' = d2 ∧ n' = n2 then some c else if d' = d ∧ n' = n then some c2 else s.look d' n') := by
  have hf := body_eff s o (.rename cr d n d2 n2 f)
  have hi := hg.inv
  generalize hr : (Op.rename cr d n d2 n2 f).body s o = r at hf h0 ⊢
  cases hf with
  | refuse op e => cases h0
  | undo op cr' d' n' i x hop hx hu => cases h0
  | leak op cr' d' n' i x hop hx hu hnew => cases h0
  | made op m cr' d' dx n' i x hop hd hn hl hx h1 hnew hadd =>
    rcases hop with ⟨_, _, h⟩ | ⟨_, h⟩ | ⟨_, _, _, h⟩ | ⟨_, h⟩ | ⟨_, h⟩ <;> cases h
  | renSame cr d dx n d2 dx2 n2 f c x hrm hd2 hl2 hnr =>
    have hdir : x.isDir = false := by
      have : s.isDirI c = false := hv c hrm.look hl2
      rw [isDirI_of hrm.ino] at this; exact this
    have hp := remPrune_res hi (o := o) (rr := o.rem1) hrm.ino hrm.look (by rw [hdir]; intro h; exact absurd h (by decide))
    refine ⟨c, hrm.look, (by rw [hnr]; intro h; cases h), ?_, fun h => absurd hl2 h, fun h => absurd hl2 h⟩
    intro _ d' n'
    rw [look_of_ents (hp.done h0).1, delDent_look]
  | moved cr d dx n d2 dx2 n2 f c x hrm hd2 hl2 hn2 hex hca =>
    rcases renameMove_cases (s := s) (o := o) (d := d) (n := n) (d2 := d2) (n2 := n2) (c := c) (b := x.isDir) hca with
      ⟨h, hh⟩ | ⟨h, hh⟩ | ⟨h, hh, hh2⟩ | ⟨h, hh, hh2⟩
    · rw [h] at h0; cases h0
    · rw [h] at h0; cases h0
    · rw [h] at h0; cases h0
    · rw [h]
      refine ⟨c, hrm.look, fun _ => hl2, (by rw [hl2]; intro h; cases h), ?_, (by rw [hex]; intro _ h; cases h)⟩
      intro _ _ d' n'
      rw [addDent_look, delDent_look]
  | exchanged cr d dx n d2 dx2 n2 f c x c2 x2 hrm hrm2 hne hex hnr =>
    rcases renameExchange_cases (s := s) (o := o) (d := d) (n := n) (d2 := d2) (n2 := n2) (c := c) (b := x.isDir)
      (c2 := c2) (b2 := x2.isDir) with
      ⟨h, hh⟩ | ⟨h, hh⟩ | ⟨h | h, hh, hh2⟩ | ⟨h, hh, hh2, hh3, hh4⟩ | ⟨h, hh⟩
    · rw [h] at h0; cases h0
    · rw [h] at h0; cases h0
    · rw [h] at h0; cases h0
    · rw [h] at h0; cases h0
    · rw [h] at h0; cases h0
    · rw [h]
      have hkey : ¬ (d2 = d ∧ n2 = n) := by
        rintro ⟨rfl, rfl⟩
        have := hrm.look
        rw [hrm2.look] at this
        exact hne (by simpa using this.symm)
      refine ⟨c, hrm.look, (by rw [hnr]; intro h; cases h), ?_, (by rw [hex]; intro _ h; cases h), ?_⟩
      · rw [hrm2.look]; intro h; exact absurd (by simpa using h.symm) hne
      · intro _ _
        refine ⟨c2, hrm2.look, ?_⟩
        intro d' n'
        rw [addDent_look, addDent_look, delDent_look, delDent_look]
        by_cases h1 : d' = d2 ∧ n' = n2
        · have h2 : ¬ (d' = d ∧ n' = n) := by
            rintro ⟨rfl, rfl⟩; exact hkey ⟨h1.1.symm, h1.2.symm⟩
          simp [h1, h2, hkey]
        · simp [h1]
          split <;> rfl
  | replaced cr d dx n d2 dx2 n2 f c x c2 x2 hrm hrm2 hne hex hnr hemp =>
    have hbare : s.ndents c2 = 0 := by
      cases h : x2.isDir with
      | true => exact isEmpty_ndents (hemp h).1
      | false => exact ndents_file hi.core (by rw [isDirI_of hrm2.ino]; exact h)
    have hp := remPrune_res hi (o := o) (rr := o.rem2) hrm2.ino hrm2.look (fun _ => hbare)
    have hcases := renameReplace_cases (s := s) (o := o) (d := d) (n := n) (d2 := d2) (n2 := n2) (c := c) (b := x.isDir)
      (c2 := c2) (b2 := x2.isDir)
    simp only at hcases
    generalize s.remPrune o o.rem2 d2 n2 c2 x2.isDir = p at hp hcases
    rcases hcases with ⟨h, hh⟩ | ⟨hp0, h, hh⟩ | ⟨hp0, h, hh⟩ | ⟨hp0, h, hh, hh2⟩ | ⟨hp0, h, hh, hh2⟩
    · rw [h] at h0; exact absurd h0 hh
    · rw [h] at h0; cases h0
    · rw [h] at h0; cases h0
    · rw [h] at h0; cases h0
    · rw [h]
      refine ⟨c, hrm.look, (by rw [hnr]; intro h; cases h), ?_, ?_, (by rw [hex]; intro _ h; cases h)⟩
      · rw [hrm2.look]; intro h; exact absurd (by simpa using h.symm) hne
      · intro _ _ d' n'
        rw [addDent_look, delDent_look, look_of_ents (hp.done hp0).1, delDent_look]
        by_cases h1 : d' = d2 ∧ n' = n2
        · simp [h1]
        · simp [h1]

/-- C15. A successful rename of one inode onto the name of another (or onto no name) makes the
new name mean what the old one meant; without EXCHANGE the old name is gone, with EXCHANGE it
means what the new name meant; no other name in any directory changes. With NOREPLACE the new
name did not exist. -/
theorem C15_rename_partial (s : Fs) (o : Orc) (cr : Cred) (d : Nat) (n : Name) (d2 : Nat) (n2 : Name)
    (f : RFlags) (hg : Good s) (hv : Vfs s (.rename cr d n d2 n2 f))
    (h : (s.step o (.rename cr d n d2 n2 f)).1 = .ok) :
    ∃ c, s.look d n = some c ∧ (f.noreplace = true → s.look d2 n2 = none) ∧
      (s.look d2 n2 ≠ some c →
        (f.exchange = false → ∀ d' n', (s.step o (.rename cr d n d2 n2 f)).2.look d' n' =
          if d' = d2 ∧ n' = n2 then some c else if d' = d ∧ n' = n then none else s.look d' n') ∧
        (f.exchange = true → ∃ c2, s.look d2 n2 = some c2 ∧
          ∀ d' n', (s.step o (.rename cr d n d2 n2 f)).2.look d' n' =
          if d' = d2 ∧ n' = n2 then some c else if d' = d ∧ n' = n then some c2 else s.look d' n')) := by
  have h0 := step_ok h
  have ht : TearFree s o (.rename cr d n d2 n2 f) := .inl h0
  obtain ⟨c, h1, h2, _, h4, h5⟩ := body_rename_look hg hv h0
  have he := step_ents hg hv ht (by rw [h]; simp)
  refine ⟨c, h1, h2, fun hne => ⟨?_, ?_⟩⟩
  · intro hex d' n'
    rw [look_of_ents he]; exact h4 hne hex d' n'
  · intro hex
    obtain ⟨c2, h6, h7⟩ := h5 hne hex
    refine ⟨c2, h6, fun d' n' => ?_⟩
    rw [look_of_ents he]; exact h7 d' n'

/-- What the code does when both names mean the same file: the old name is removed. (POSIX: nothing
happens.) -/
theorem C15_same_inode_violated (s : Fs) (o : Orc) (cr : Cred) (d : Nat) (n : Name) (d2 : Nat)
    (n2 : Name) (f : RFlags) (c : Nat) (hg : Good s) (hv : Vfs s (.rename cr d n d2 n2 f))
    (hl : s.look d n = some c) (hl2 : s.look d2 n2 = some c)
    (h : (s.step o (.rename cr d n d2 n2 f)).1 = .ok) :
    (s.step o (.rename cr d n d2 n2 f)).2.look d n = none := by
  have h0 := step_ok h
  have ht : TearFree s o (.rename cr d n d2 n2 f) := .inl h0
  obtain ⟨c', h1, h2, h3, _⟩ := body_rename_look hg hv h0
  have he := step_ents hg hv ht (by rw [h]; simp)
  rw [hl] at h1; cases h1
  rw [look_of_ents he, h3 hl2 d n]
  simp

/-- NOREPLACE with an existing target, EXCHANGE without one, and unknown flags never succeed, and
change nothing. -/
theorem C15_flags (s : Fs) (o : Orc) (cr : Cred) (d : Nat) (n : Name) (d2 : Nat) (n2 : Name)
    (f : RFlags) (hg : Good s) (hv : Vfs s (.rename cr d n d2 n2 f))
    (h : (f.noreplace = true ∧ s.look d2 n2 ≠ none) ∨ (f.exchange = true ∧ s.look d2 n2 = none) ∨
      f.whiteout = true ∨ f.other = true) :
    ∃ e, s.step o (.rename cr d n d2 n2 f) = (.err e, s) := by
  have key : ∃ e, (Op.rename cr d n d2 n2 f).body s o = (some e, s) := by
    show ∃ e, s.rename o cr d n d2 n2 f = (some e, s)
    unfold Fs.rename
    split
    · next dx dx2 hd hd2 =>
      split
      · next e _ => exact ⟨e, rfl⟩
      · exact ⟨_, rfl⟩
      · split
        · next e _ => exact ⟨e, rfl⟩
        · next old hs2 =>
          have hold : old.isSome = true ↔ s.look d2 n2 ≠ none := by
            cases old with
            | none =>
              obtain ⟨_, h2, _⟩ := stageRename_none hd2 hs2
              simp [h2]
            | some p =>
              have := (stageRename_some hd2 hs2).look
              simp [this]
          have hold' : old.isNone = true ↔ s.look d2 n2 = none := by
            cases old with
            | none =>
              obtain ⟨_, h2, _⟩ := stageRename_none hd2 hs2
              simp [h2]
            | some p =>
              have := (stageRename_some hd2 hs2).look
              simp [this]
          unfold Fs.checkRename
          by_cases hb : f.whiteout = true ∨ f.other = true
          · rw [if_pos hb]; exact ⟨_, rfl⟩
          · rw [if_neg hb]
            rcases h with ⟨h1, h2⟩ | ⟨h1, h2⟩ | h1
            · rw [if_pos ⟨h1, hold.2 h2⟩]; exact ⟨_, rfl⟩
            · by_cases h3 : f.noreplace = true ∧ old.isSome = true
              · rw [if_pos h3]; exact ⟨_, rfl⟩
              · rw [if_neg h3, if_pos ⟨h1, hold'.2 h2⟩]; exact ⟨_, rfl⟩
            · exact absurd h1 hb
    · exact ⟨_, rfl⟩
  obtain ⟨e, he⟩ := key
  exact ⟨e, step_of_body hg.looseq he⟩

end Silofs.Ns
