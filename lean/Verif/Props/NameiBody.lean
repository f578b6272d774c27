import Verif.Props.NameiStep
/-
One API call: invariant, what it keeps, and what it leaves behind.
-/
set_option linter.unusedSimpArgs false
set_option linter.unusedVariables false
namespace Silofs.Ns

theorem names_of_ents {s t : Fs} (h : t.ents = s.ents) (i : Nat) : t.names i = s.names i := by
  unfold Fs.names; rw [h]

theorem look_of_ents {s t : Fs} (h : t.ents = s.ents) (d : Nat) (n : Name) : t.look d n = s.look d n := by
  unfold Fs.look; rw [h]

theorem isDirI_of_ino {s t : Fs} {i : Nat} (h : t.ino i = s.ino i) : t.isDirI i = s.isDirI i := by
  unfold Fs.isDirI; rw [h]

/-- The state in which `do_rename_replace` starts to move the source. -/
structure Repl (s : Fs) (d : Nat) (n : Name) (d2 : Nat) (n2 : Name) (c : Nat) (x : Ino) (c2 : Nat) (b2 : Bool)
    (s1 : Fs) : Prop where
  inv : Inv No s1
  ents : s1.ents = (s.delDent d2 n2 c2 b2).ents
  look : s1.look d n = some c
  look2 : s1.look d2 n2 = none
  ino : ∃ y, s1.ino c = some y ∧ y.isDir = x.isDir
  dir2 : s1.isDirI d2 = true
  anch2 : Anchored s1 d2

theorem repl_of {s : Fs} (hi : Inv No s) {d : Nat} {n : Name} {d2 : Nat} {n2 : Name} {c : Nat} {x : Ino}
    {c2 : Nat} {x2 : Ino} (hx : s.ino c = some x) (hl : s.look d n = some c)
    (hx2 : s.ino c2 = some x2) (hl2 : s.look d2 n2 = some c2) (hne : c ≠ c2)
    (hb : s.ndents c2 = 0) {r : Option Err × Fs} (hr : RemRes s d2 n2 c2 x2.isDir r) (h0 : r.1 = none) :
    Repl s d n d2 n2 c x c2 x2.isDir r.2 := by
  obtain ⟨h1, h2⟩ := hr.done h0
  have hkey : ¬ (d = d2 ∧ n = n2) := by
    rintro ⟨rfl, rfl⟩
    rw [hl] at hl2
    exact hne (by simpa using hl2)
  have hd2 : d2 ≠ c2 := fun h => ndents_zero.1 hb _ (find_mem hl2) h
  have hal2 := anchored_look hi hl2
  obtain ⟨y, hy, hya, _⟩ := delDent_get hx d2 n2 c2 x2.isDir
  refine ⟨hr.inv, h1, ?_, ?_, ⟨y, by rw [h2 c hne]; exact hy, isDir_attr hya⟩, ?_, ?_⟩
  · rw [look_of_ents h1, delDent_look, if_neg hkey]; exact hl
  · rw [look_of_ents h1, delDent_look, if_pos ⟨rfl, rfl⟩]
  · rw [isDirI_of_ino (h2 d2 hd2), delDent_isDirI]
    exact hi.core.dirOk _ (find_mem hl2)
  · rcases hal2 with h | h
    · exact .inl h
    · right
      rw [names_of_ents h1]
      have := delDent_names hi.core x2.isDir hl2 d2
      rw [if_neg hd2] at this
      omega

/-- Outcomes of `do_rename_replace`. -/
theorem renameReplace_cases {s : Fs} {o : Orc} {d : Nat} {n : Name} {d2 : Nat} {n2 : Name}
    {c : Nat} {b : Bool} {c2 : Nat} {b2 : Bool} :
    let p := s.remPrune o o.rem2 d2 n2 c2 b2
    let r := s.renameReplace o d n d2 n2 c b c2 b2
    (r = p ∧ p.1 ≠ none) ∨
    (p.1 = none ∧ r = (some .eio, p.2) ∧ o.rem1 = .fail) ∨
    (p.1 = none ∧ r = (some .eio, p.2.delDent d n c b) ∧ o.rem1 = .failAfter) ∨
    (p.1 = none ∧ r = (some .enospc, p.2.delDent d n c b) ∧ o.rem1 = .ok ∧ o.add1 = true) ∨
    (p.1 = none ∧ r = (none, (p.2.delDent d n c b).addDent d2 n2 c b) ∧ o.rem1 = .ok ∧ o.add1 = false) := by
  intro p r
  have hr : r = s.renameReplace o d n d2 n2 c b c2 b2 := rfl
  rw [hr]
  unfold Fs.renameReplace
  have hp : p = s.remPrune o o.rem2 d2 n2 c2 b2 := rfl
  rw [← hp]
  obtain ⟨e, t⟩ := p
  cases e with
  | some e => left; exact ⟨rfl, by simp⟩
  | none =>
    right
    simp only
    unfold Fs.rem Fs.add
    cases o.rem1 <;> cases o.add1 <;> simp

theorem body_res {s : Fs} {o : Orc} {op : Op} (hg : Good s) (hv : Vfs s op) (ht : TearFree s o op) :
    Res s op (op.body s o).2 := by
  have he := body_eff s o op
  have hi := hg.inv
  generalize hr : op.body s o = r at he
  cases he with
  | refuse op e => exact ⟨hi, .inl (Keeps.refl s)⟩
  | nothing i => exact ⟨hi, .inl (Keeps.refl s)⟩
  | undo op cr d n i x hop hx hu => rw [setIno_undo hx]; exact ⟨hi, .inl (Keeps.refl s)⟩
  | leak op cr d n i x hop hx hu hnew =>
    refine ⟨⟨hi.core.spawn hx (by intro h; rw [hnew.nlink, h]; rfl) (by intro h; rw [hnew.nlink, h]; rfl),
      ?_, hi.loose.set (by rw [hnew.loose]; intro h; exact absurd h (by decide))⟩, .inl ?_⟩
    · exact hi.anch
    · intro j y hy
      refine .inl ⟨y, ?_, rfl, rfl, id, .inl rfl⟩
      show (s.setIno i (some x)).ino j = _
      rw [setIno_get, if_neg (by rintro rfl; rw [hx] at hy; cases hy)]; exact hy
  | made op m cr d dx n i x hop hd hn hl hx h0 hnew hadd =>
    have hi1 := make_inv hi hd hn hl hx hnew
    have hs := mk_same m ((s.setIno i (some x)).addDent d n i x.isDir) i
    refine ⟨⟨hi1.core.same hs, hi1.anch.same hs, mk_loose m hi1.loose ?_⟩, .inl ?_⟩
    · intro y hy
      rw [addDent_ino, Option.map_eq_some_iff] at hy
      obtain ⟨z, hz, rfl⟩ := hy
      rw [setIno_get, if_pos rfl, Option.some.injEq] at hz
      subst hz
      exact hnew.loose
    · intro j y hy
      have hj : j ≠ i := by rintro rfl; rw [hx] at hy; cases hy
      obtain ⟨z, hz, a1, a2, a3, a4, a5⟩ := addDent_get (s := s.setIno i (some x)) (c := j) (x := y)
        (by rw [setIno_get, if_neg hj]; exact hy) d n i x.isDir
      exact .inl ⟨z, by rw [mk_other m _ i j hj]; exact hz, a3, a1, by rw [a2]; exact id, .inl a5⟩
  | linked cr d dx n i x hd hl hx hdir hlm hadd =>
    obtain ⟨hanc, hin⟩ : Anchored s d ∧ (0 < s.names i ∨ ∃ x, s.ino i = some x ∧ 0 < x.nopen) := hv
    have hxl : x.loose = false := by
      refine hi.noLoose hx ?_
      rcases hin with h | ⟨y, hy, h⟩
      · exact .inr (.inl h)
      · rw [hx] at hy; cases hy; exact .inr (.inr h)
    have hr : i ≠ ROOT := by
      rintro rfl
      have := hi.core.root.1
      rw [isDirI_of hx, hdir] at this
      exact absurd this (by decide)
    refine ⟨?_, .inl (keeps_addDent s d n i x.isDir).1⟩
    have hi1 : Inv (fun j => No j ∨ j = i) s := ⟨hi.core, hi.anch.mono (fun _ h => .inl h), hi.loose⟩
    refine hi1.add hx rfl hxl (by rw [isDirI_of hd.ino]; exact hd.isdir) (anchored_loose hi hanc) hl
      (by rw [hdir]; intro h; exact absurd h (by decide)) hr ?_
    rcases hanc with h | h
    · exact .inl h
    · exact .inr (.inr (.inl h))
  | unlinked cr d dx n c x hrm hdir =>
    have := remPrune_res hi (o := o) (rr := o.rem1) hrm.ino hrm.look (by rw [hdir]; intro h; exact absurd h (by decide))
    exact ⟨this.inv, .inl this.keeps⟩
  | rmdired cr d dx n c x hrm hdir hemp hroot =>
    have := remPrune_res hi (o := o) (rr := o.rem1) hrm.ino hrm.look (fun _ => isEmpty_ndents hemp)
    exact ⟨this.inv, .inl this.keeps⟩
  | renSame cr d dx n d2 dx2 n2 f c x hrm hd2 hl2 hnr =>
    have hdir : x.isDir = false := by
      have : s.isDirI c = false := hv c hrm.look hl2
      rw [isDirI_of hrm.ino] at this; exact this
    have := remPrune_res hi (o := o) (rr := o.rem1) hrm.ino hrm.look (by rw [hdir]; intro h; exact absurd h (by decide))
    exact ⟨this.inv, .inl this.keeps⟩
  | moved cr d dx n d2 dx2 n2 f c x hrm hd2 hl2 hn2 hex hca =>
    have hanc := anchored_nlink hi hd2.ino hd2.isdir hn2
    obtain ⟨k1, k2⟩ := keeps_delDent s d n c x.isDir
    unfold TearFree at ht
    simp only at ht
    rw [hr] at ht
    have torn : s.isDirI c = false → Inv No (s.delDent d n c x.isDir) := fun h =>
      (hi.del hrm.ino hrm.look).bare (delDent_ndents_zero (ndents_file hi.core h))
    rcases renameMove_cases (s := s) (o := o) (d := d) (n := n) (d2 := d2) (n2 := n2) (c := c) (b := x.isDir) hca with
      ⟨h, hh⟩ | ⟨h, hh⟩ | ⟨h, hh, hh2⟩ | ⟨h, hh, hh2⟩
    · rw [h]; exact ⟨hi, .inl (Keeps.refl s)⟩
    · rw [h] at ht ⊢
      rcases ht with ht | ht | ht
      · cases ht
      · exact ⟨torn (ht c (.inl hrm.look)), .inl k1⟩
      · exact absurd hh ht.1
    · rw [h] at ht ⊢
      rcases ht with ht | ht | ht
      · cases ht
      · exact ⟨torn (ht c (.inl hrm.look)), .inl k1⟩
      · rw [ht.2.2.1] at hh2; cases hh2
    · rw [h]
      obtain ⟨k3, k4⟩ := keeps_addDent (s.delDent d n c x.isDir) d2 n2 c x.isDir
      exact ⟨inv_move hi hrm.ino hrm.look (by rw [isDirI_of hd2.ino]; exact hd2.isdir) hanc hl2,
        .inl (k1.trans k3 k4)⟩
  | exchanged cr d dx n d2 dx2 n2 f c x c2 x2 hrm hrm2 hne hex hnr =>
    obtain ⟨k1, k2⟩ := keeps_delDent s d n c x.isDir
    obtain ⟨k3, k4⟩ := keeps_delDent (s.delDent d n c x.isDir) d2 n2 c2 x2.isDir
    obtain ⟨k5, k6⟩ := keeps_addDent ((s.delDent d n c x.isDir).delDent d2 n2 c2 x2.isDir) d2 n2 c x.isDir
    obtain ⟨k7, k8⟩ := keeps_addDent (((s.delDent d n c x.isDir).delDent d2 n2 c2 x2.isDir).addDent d2 n2 c x.isDir) d n c2 x2.isDir
    have hkey : ¬ (d2 = d ∧ n2 = n) := by
      rintro ⟨rfl, rfl⟩
      have := hrm.look
      rw [hrm2.look] at this
      exact hne (by simpa using this.symm)
    unfold TearFree at ht
    simp only at ht
    rw [hr] at ht
    have torn1 : s.isDirI c = false → Inv No (s.delDent d n c x.isDir) := fun h =>
      (hi.del hrm.ino hrm.look).bare (delDent_ndents_zero (ndents_file hi.core h))
    have l1 : (s.delDent d n c x.isDir).look d2 n2 = some c2 := by
      rw [delDent_look, if_neg hkey]; exact hrm2.look
    obtain ⟨y2, hy2, hya2, _⟩ := delDent_get hrm2.ino d n c x.isDir
    have torn2 : s.isDirI c = false → s.isDirI c2 = false →
        Inv No ((s.delDent d n c x.isDir).delDent d2 n2 c2 x2.isDir) := by
      intro h h'
      have := (torn1 h).del hy2 l1
      rw [isDir_attr hya2] at this
      exact this.bare (delDent_ndents_zero (delDent_ndents_zero (ndents_file hi.core h')))
    rcases renameExchange_cases (s := s) (o := o) (d := d) (n := n) (d2 := d2) (n2 := n2) (c := c) (b := x.isDir)
      (c2 := c2) (b2 := x2.isDir) with
      ⟨h, hh⟩ | ⟨h, hh⟩ | ⟨h, hh, hh2⟩ | ⟨h, hh, hh2, hh3, hh4⟩ | ⟨h, hh, hh2, hh3, hh4⟩
    · rw [h]; exact ⟨hi, .inl (Keeps.refl s)⟩
    · rw [h] at ht ⊢
      rcases ht with ht | ht | ht
      · cases ht
      · exact ⟨torn1 (ht c (.inl hrm.look)), .inl k1⟩
      · exfalso
        rcases hh with hh | hh
        · exact ht.1 hh
        · rw [ht.2.2.2.2 hex] at hh; exact absurd hh.2 (by decide)
    · have hr2 : (s.renameExchange o d n d2 n2 c x.isDir c2 x2.isDir).2 =
          (s.delDent d n c x.isDir).delDent d2 n2 c2 x2.isDir := by
        rcases h with h | h <;> rw [h]
      have hr1 : (s.renameExchange o d n d2 n2 c x.isDir c2 x2.isDir).1 ≠ none := by
        rcases h with h | h <;> rw [h] <;> simp
      rw [hr2]
      rcases ht with ht | ht | ht
      · exact absurd ht hr1
      · exact ⟨torn2 (ht c (.inl hrm.look)) (ht c2 (.inr hrm2.look)), .inl (k1.trans k3 k4)⟩
      · exfalso
        rcases hh2 with hh2 | hh2
        · exact ht.2.1 hh2
        · rw [ht.2.2.1] at hh2; exact absurd hh2.2 (by decide)
    · rw [h] at ht ⊢
      rcases ht with ht | ht | ht
      · cases ht
      · have hcd := ht c (.inl hrm.look)
        have hc2d := ht c2 (.inr hrm2.look)
        have i2 := torn2 hcd hc2d
        obtain ⟨y, hy, hya, hyl, _⟩ := delDent_get hrm.ino d n c x.isDir
        obtain ⟨z, hz, hza, hzl, _⟩ := delDent_get hy d2 n2 c2 x2.isDir
        have hxd : x.isDir = false := by rw [isDirI_of hrm.ino] at hcd; exact hcd
        refine ⟨?_, .inl ((k1.trans k3 k4).trans k5 k6)⟩
        have i2' : Inv (fun i => No i ∨ i = c) ((s.delDent d n c x.isDir).delDent d2 n2 c2 x2.isDir) :=
          ⟨i2.core, i2.anch.mono (fun _ h => .inl h), i2.loose⟩
        have hal2 := anchored_look hi hrm2.look
        have hdd2 := hi.core.dirOk _ (find_mem hrm2.look)
        refine i2'.add hz (isDir_attr (hza.trans hya)) ?_ ?_ ?_ ?_ ?_ (ne_root_look hi.core hrm.look) ?_
        · rw [hzl, hyl]; exact hi.noLoose hrm.ino (.inr (.inl (names_pos_look hrm.look)))
        · rw [delDent_isDirI, delDent_isDirI]; exact hdd2
        · intro w hw
          rw [delDent_ino, Option.map_eq_some_iff] at hw
          obtain ⟨w, hw, rfl⟩ := hw
          rw [delDent_ino, Option.map_eq_some_iff] at hw
          obtain ⟨w, hw, rfl⟩ := hw
          exact anchored_loose hi hal2 w hw
        · rw [delDent_look, if_pos ⟨rfl, rfl⟩]
        · rw [hxd]; intro h; exact absurd h (by decide)
        · rcases hal2 with h | h
          · exact .inl h
          · have e1 : d2 ≠ c := by rintro rfl; simp only at hdd2; rw [hcd] at hdd2; exact absurd hdd2 (by decide)
            have e2 : d2 ≠ c2 := by rintro rfl; simp only at hdd2; rw [hc2d] at hdd2; exact absurd hdd2 (by decide)
            have n1 := delDent_names hi.core x.isDir hrm.look d2
            have n2' := delDent_names (torn1 hcd).core x2.isDir l1 d2
            rw [if_neg e1] at n1
            rw [if_neg e2] at n2'
            exact .inr (.inr (.inl (by omega)))
      · exfalso; rw [ht.2.2.2.1] at hh4; exact absurd hh4 (by decide)
    · rw [h]
      exact ⟨inv_exchange hi hrm.ino hrm.look hrm2.ino hrm2.look hne,
        .inl (((k1.trans k3 k4).trans k5 k6).trans k7 k8)⟩
  | replaced cr d dx n d2 dx2 n2 f c x c2 x2 hrm hrm2 hne hex hnr hemp =>
    have hb : s.ndents c2 = 0 := by
      cases h : x2.isDir with
      | true => exact isEmpty_ndents (hemp h).1
      | false => exact ndents_file hi.core (by rw [isDirI_of hrm2.ino]; exact h)
    have hp := remPrune_res hi (o := o) (rr := o.rem2) hrm2.ino hrm2.look (fun _ => hb)
    unfold TearFree at ht
    simp only at ht
    rw [hr] at ht
    have hcases := renameReplace_cases (s := s) (o := o) (d := d) (n := n) (d2 := d2) (n2 := n2) (c := c) (b := x.isDir)
      (c2 := c2) (b2 := x2.isDir)
    simp only at hcases
    generalize s.remPrune o o.rem2 d2 n2 c2 x2.isDir = p at hp hcases
    have tornc : p.1 = none → s.isDirI c = false → Inv No (p.2.delDent d n c x.isDir) := by
      intro hp0 hcd
      have hre := repl_of hi (d := d) (n := n) hrm.ino hrm.look hrm2.ino hrm2.look hne hb hp hp0
      obtain ⟨y, hy, hyd⟩ := hre.ino
      have := hre.inv.del hy hre.look
      rw [hyd] at this
      refine this.bare (delDent_ndents_zero (ndents_file hre.inv.core ?_))
      rw [isDirI_of hy, hyd, ← isDirI_of hrm.ino]; exact hcd
    obtain ⟨k1, k2⟩ := keeps_delDent p.2 d n c x.isDir
    rcases hcases with ⟨h, hh⟩ | ⟨hp0, h, hh⟩ | ⟨hp0, h, hh⟩ | ⟨hp0, h, hh, hh2⟩ | ⟨hp0, h, hh, hh2⟩
    · rw [h]; exact ⟨hp.inv, .inl hp.keeps⟩
    · rw [h]; exact ⟨hp.inv, .inl hp.keeps⟩
    · rw [h] at ht ⊢
      rcases ht with ht | ht | ht
      · cases ht
      · exact ⟨tornc hp0 (ht c (.inl hrm.look)), .inl (hp.keeps.trans k1 k2)⟩
      · exact absurd hh ht.1
    · rw [h] at ht ⊢
      rcases ht with ht | ht | ht
      · cases ht
      · exact ⟨tornc hp0 (ht c (.inl hrm.look)), .inl (hp.keeps.trans k1 k2)⟩
      · rw [ht.2.2.1] at hh2; cases hh2
    · rw [h]
      have hre := repl_of hi (d := d) (n := n) hrm.ino hrm.look hrm2.ino hrm2.look hne hb hp hp0
      obtain ⟨y, hy, hyd⟩ := hre.ino
      obtain ⟨k3, k4⟩ := keeps_addDent (p.2.delDent d n c x.isDir) d2 n2 c x.isDir
      have := inv_move hre.inv hy hre.look hre.dir2 hre.anch2 hre.look2
      rw [hyd] at this
      exact ⟨this, .inl ((hp.keeps.trans k1 k2).trans k3 k4)⟩
  | openedReg cr i f x hx hdir hacc =>
    have hs := incOpen_same s i
    have hxl : x.loose = false := hi.noLoose hx (by
      rcases hv with h | h | ⟨y, hy, h⟩
      · exact .inl h
      · exact .inr (.inl h)
      · rw [hx] at hy; cases hy; exact .inr (.inr h))
    refine ⟨⟨hi.core.same hs, hi.anch.same hs, hi.loose.incOpen (fun y hy => ?_)⟩, .inr (.inl ⟨i, x, hx, .inl ⟨cr, f, rfl⟩, rfl⟩)⟩
    rw [hx] at hy; cases hy; exact hxl
  | openedDir cr i f x hx hdir hacc =>
    have hs := incOpen_same s i
    have hxl : x.loose = false := hi.noLoose hx (by
      rcases hv with h | h | ⟨y, hy, h⟩
      · exact .inl h
      · exact .inr (.inl h)
      · rw [hx] at hy; cases hy; exact .inr (.inr h))
    refine ⟨⟨hi.core.same hs, hi.anch.same hs, hi.loose.incOpen (fun y hy => ?_)⟩, .inr (.inl ⟨i, x, hx, .inr ⟨cr, f, rfl⟩, rfl⟩)⟩
    rw [hx] at hy; cases hy; exact hxl
  | released i b f x hx hop =>
    have hs := decOpen_same s i
    have hi1 : Inv No (s.decOpen i) := ⟨hi.core.same hs, hi.anch.same hs, hi.loose.decOpen i⟩
    have hp := prune_pruned (o := o) hi1 i (fun h => h)
    exact ⟨hi1.prune i (fun h => h), .inr (.inr ⟨i, x, hx, hop, ⟨b, f, rfl⟩, hp.keeps⟩)⟩
  | forgotten i x hx hpin =>
    have hs : Same s (s.setIno i (some { x with pinned := false })) := same_setIno hx rfl rfl rfl
    have hi1 : Inv No (s.setIno i (some { x with pinned := false })) :=
      ⟨hi.core.same hs, hi.anch.same hs, hi.loose.set (fun h => hi.loose i x hx h)⟩
    have hp := prune_pruned (o := o) hi1 i (fun h => h)
    refine ⟨hi1.prune i (fun h => h), .inl (Keeps.trans ?_ hp.keeps hp.nonew)⟩
    intro j y hy
    by_cases hj : j = i
    · subst hj
      rw [hx] at hy; cases hy
      exact .inl ⟨{ x with pinned := false }, by rw [setIno_get, if_pos rfl], rfl, rfl, id, .inl rfl⟩
    · exact .inl ⟨y, by rw [setIno_get, if_neg hj]; exact hy, rfl, rfl, id, .inl rfl⟩

end Silofs.Ns
