import Verif.Props.NameiLinks
/-
C14: lifetime of inodes.
-/
set_option linter.unusedSimpArgs false
set_option linter.unusedVariables false
namespace Silofs.Ns

/-! ### Nothing in use is released -/

theorem step_keeps {s : Fs} {o : Orc} {op : Op} (hg : Good s) (hv : Vfs s op) (ht : TearFree s o op)
    (hd : (s.step o op).1 ≠ .die) :
    Keeps s (s.step o op).2 ∨
    (∃ i x, s.ino i = some x ∧ ((∃ cr f, op = .openReg cr i f) ∨ (∃ cr f, op = .openDir cr i f)) ∧
      Keeps (s.incOpen i) (s.step o op).2) ∨
    (∃ i x, s.ino i = some x ∧ 0 < x.nopen ∧ (∃ b f, op = .release i b f) ∧
      Keeps (s.decOpen i) (s.step o op).2) := by
  have hr := body_res hg hv ht
  obtain ⟨_, _, k, n, _⟩ := finish_inv hr.inv hd
  rcases hr.keeps with h | ⟨i, x, hx, hop, h⟩ | ⟨i, x, hx, h0, hop, h⟩
  · exact .inl (h.trans k n)
  · exact .inr (.inl ⟨i, x, hx, hop, by rw [← h]; exact k⟩)
  · exact .inr (.inr ⟨i, x, hx, h0, hop, h.trans k n⟩)

/-- The step opens or closes inode `i`. -/
def Op.opens (op : Op) (i : Nat) : Prop := (∃ cr f, op = .openReg cr i f) ∨ (∃ cr f, op = .openDir cr i f)
def Op.closes (op : Op) (i : Nat) : Prop := ∃ b f, op = .release i b f

/-- What an API call may do to an existing inode. -/
theorem step_inode {s : Fs} {o : Orc} {op : Op} (hg : Good s) (hv : Vfs s op) (ht : TearFree s o op)
    (hd : (s.step o op).1 ≠ .die) {i : Nat} {x : Ino} (hx : s.ino i = some x) :
    (∃ y, (s.step o op).2.ino i = some y ∧ y.attr = x.attr ∧
      (y.nopen = x.nopen ∨ (op.opens i ∧ y.nopen = x.nopen + 1) ∨ (op.closes i ∧ y.nopen + 1 = x.nopen)) ∧
      (y.data = x.data ∨ y.loose = true)) ∨
    ((s.step o op).2.ino i = none ∧ (x.nopen = 0 ∨ (op.closes i ∧ x.nopen = 1))) := by
  rcases step_keeps hg hv ht hd with h | ⟨j, z, hz, hop, h⟩ | ⟨j, z, hz, h0, hop, h⟩
  · rcases h i x hx with ⟨y, hy, a1, a2, a3, a4⟩ | ⟨hy, a1⟩
    · exact .inl ⟨y, hy, a2, .inl a1, a4⟩
    · exact .inr ⟨hy, .inl a1⟩
  · by_cases hji : i = j
    · subst hji
      rcases h i { x with nopen := x.nopen + 1 } (by rw [incOpen_ino, hx]; simp) with ⟨y, hy, a1, a2, a3, a4⟩ | ⟨hy, a1⟩
      · exact .inl ⟨y, hy, a2, .inr (.inl ⟨hop, a1⟩), a4⟩
      · simp at a1
    · rcases h i x (by rw [incOpen_ino, hx]; simp [hji]) with ⟨y, hy, a1, a2, a3, a4⟩ | ⟨hy, a1⟩
      · exact .inl ⟨y, hy, a2, .inl a1, a4⟩
      · exact .inr ⟨hy, .inl a1⟩
  · by_cases hji : i = j
    · subst hji
      rw [hx] at hz; cases hz
      rcases h i { x with nopen := x.nopen - 1 } (by rw [decOpen_ino, hx]; simp) with ⟨y, hy, a1, a2, a3, a4⟩ | ⟨hy, a1⟩
      · exact .inl ⟨y, hy, a2, .inr (.inr ⟨hop, by rw [a1]; show x.nopen - 1 + 1 = x.nopen; omega⟩), a4⟩
      · have a1' : x.nopen - 1 = 0 := a1
        exact .inr ⟨hy, .inr ⟨hop, by omega⟩⟩
    · rcases h i x (by rw [decOpen_ino, hx]; simp [hji]) with ⟨y, hy, a1, a2, a3, a4⟩ | ⟨hy, a1⟩
      · exact .inl ⟨y, hy, a2, .inl a1, a4⟩
      · exact .inr ⟨hy, .inl a1⟩

/-- C14, first half: an inode disappears only if afterwards no name leads to it and no handle is
open on it (it was not open, or this call released its last handle). -/
theorem C14_no_early_release (s : Fs) (o : Orc) (op : Op) (hg : Good s) (hv : Vfs s op)
    (ht : TearFree s o op) (hd : (s.step o op).1 ≠ .die) (i : Nat) (x : Ino)
    (hx : s.ino i = some x) (hgone : (s.step o op).2.ino i = none) :
    (∀ e ∈ (s.step o op).2.ents, e.child ≠ i) ∧ i ≠ ROOT ∧
      (x.nopen = 0 ∨ (x.nopen = 1 ∧ ∃ b f, op = .release i b f)) := by
  have hg' := step_good hg hv ht hd
  refine ⟨fun e he => (no_entry_of_none hg'.core hgone e he).2, ?_, ?_⟩
  · rintro rfl
    have := hg'.core.root.1
    unfold Fs.isDirI at this
    rw [hgone] at this; cases this
  · rcases step_inode hg hv ht hd hx with ⟨y, hy, _⟩ | ⟨_, h⟩
    · rw [hgone] at hy; cases hy
    · rcases h with h | ⟨h1, h2⟩
      · exact .inl h
      · exact .inr ⟨h2, h1⟩

/-- While a handle is open the inode stays, with its owner and mode, whatever is removed; the
number of open handles changes only by open and release of this inode. -/
theorem C14_open_stays (s : Fs) (o : Orc) (op : Op) (hg : Good s) (hv : Vfs s op)
    (ht : TearFree s o op) (hd : (s.step o op).1 ≠ .die) (i : Nat) (x : Ino)
    (hx : s.ino i = some x) (hopen : 0 < x.nopen) (hlast : x.nopen = 1 → ¬ ∃ b f, op = .release i b f) :
    ∃ y, (s.step o op).2.ino i = some y ∧ y.attr = x.attr ∧ y.data = x.data ∧ 0 < y.nopen ∧
      (y.nopen = x.nopen ∨ (op.opens i ∧ y.nopen = x.nopen + 1) ∨ (op.closes i ∧ y.nopen + 1 = x.nopen)) := by
  have hg' := step_good hg hv ht hd
  rcases step_inode hg hv ht hd hx with ⟨y, hy, a1, a2, a3⟩ | ⟨_, h⟩
  · have hpos : 0 < y.nopen := by
      rcases a2 with a2 | ⟨_, a2⟩ | ⟨b, a2⟩
      · omega
      · omega
      · by_cases h1 : x.nopen = 1
        · exact absurd b (hlast h1)
        · omega
    refine ⟨y, hy, a1, ?_, hpos, a2⟩
    rcases a3 with a3 | a3
    · exact a3
    · have := isOrphan_parts (hg'.loose i y hy a3)
      omega
  · rcases h with h | ⟨h1, h2⟩
    · omega
    · exact absurd h1 (hlast h2)

/-- An inode that still has a name (or is the root) after the call is still there with its
content, owner and mode. -/
theorem C14_named_stays (s : Fs) (o : Orc) (op : Op) (hg : Good s) (hv : Vfs s op)
    (ht : TearFree s o op) (hd : (s.step o op).1 ≠ .die) (i : Nat) (x : Ino)
    (hx : s.ino i = some x) (hn : i = ROOT ∨ ∃ e ∈ (s.step o op).2.ents, e.child = i) :
    ∃ y, (s.step o op).2.ino i = some y ∧ y.attr = x.attr ∧ y.data = x.data := by
  have hg' := step_good hg hv ht hd
  have hn' : i = ROOT ∨ 0 < (s.step o op).2.names i := by
    rcases hn with h | ⟨e, he, rfl⟩
    · exact .inl h
    · exact .inr (names_pos he)
  rcases step_inode hg hv ht hd hx with ⟨y, hy, a1, a2, a3⟩ | ⟨hgone, h⟩
  · refine ⟨y, hy, a1, ?_⟩
    rcases a3 with a3 | a3
    · exact a3
    · have := hg'.inv.noLoose hy (by
        rcases hn' with h | h
        · exact .inl h
        · exact .inr (.inl h))
      rw [this] at a3; cases a3
  · exfalso
    obtain ⟨h1, h2, _⟩ := C14_no_early_release s o op hg hv ht hd i x hx hgone
    rcases hn with h | ⟨e, he, h⟩
    · exact h2 h
    · exact h1 e he h

/-! ### Nothing unused is left behind -/

/-- Every inode is the root, named, open, or kept for the kernel (`pinned`). -/
def Tidy (s : Fs) : Prop := ∀ i x, s.ino i = some x →
  i = ROOT ∨ (∃ e ∈ s.ents, e.child = i) ∨ 0 < x.nopen ∨ x.pinned = true

/-- No failure while disposing of something, and no rename failing half-way. -/
def Clean (o : Orc) (op : Op) : Prop :=
  o.undo = false ∧ o.drop = false ∧ o.rem1 ≠ .failAfter ∧ o.rem2 ≠ .failAfter ∧
  (match op with
   | .rename _ _ _ _ _ f => o.add1 = false ∧ o.add2 = false ∧ (f.exchange = true → o.rem2 = .ok)
   | _ => True)

def TidyP (P : Nat → Prop) (s : Fs) : Prop := ∀ i x, s.ino i = some x →
  i = ROOT ∨ 0 < s.names i ∨ 0 < x.nopen ∨ x.pinned = true ∨ i ∈ s.looseq ∨ P i

theorem names_pos_iff {s : Fs} {i : Nat} : 0 < s.names i ↔ ∃ e ∈ s.ents, e.child = i := by
  unfold Fs.names
  rw [List.countP_pos_iff]
  simp

theorem tidy_iff {s : Fs} (hq : s.looseq = []) : Tidy s ↔ TidyP No s := by
  unfold Tidy TidyP
  constructor
  · intro h i x hx
    rcases h i x hx with h | h | h | h
    · exact .inl h
    · exact .inr (.inl (names_pos_iff.2 h))
    · exact .inr (.inr (.inl h))
    · exact .inr (.inr (.inr (.inl h)))
  · intro h i x hx
    rcases h i x hx with h | h | h | h | h | h
    · exact .inl h
    · exact .inr (.inl (names_pos_iff.1 h))
    · exact .inr (.inr (.inl h))
    · exact .inr (.inr (.inr h))
    · rw [hq] at h; exact absurd h List.not_mem_nil
    · exact absurd h (fun h => h)

theorem looseq_delDent (s : Fs) (d : Nat) (n : Name) (c : Nat) (b : Bool) :
    (s.delDent d n c b).looseq = s.looseq := by
  unfold Fs.delDent; split <;> rfl

theorem looseq_addDent (s : Fs) (d : Nat) (n : Name) (c : Nat) (b : Bool) :
    (s.addDent d n c b).looseq = s.looseq := by
  unfold Fs.addDent; split <;> rfl

theorem TidyP.del {P : Nat → Prop} {s : Fs} (hc : Core s) (h : TidyP P s) {d : Nat} {n : Name} {c : Nat}
    (b : Bool) (hl : s.look d n = some c) : TidyP (fun i => P i ∨ i = c) (s.delDent d n c b) := by
  intro i y hy
  rw [delDent_ino, Option.map_eq_some_iff] at hy
  obtain ⟨x, hx, rfl⟩ := hy
  rw [looseq_delDent]
  have := delDent_names hc b hl i
  rcases h i x hx with h | h | h | h | h | h
  · exact .inl h
  · by_cases hi : i = c
    · exact .inr (.inr (.inr (.inr (.inr (.inr hi)))))
    · rw [if_neg hi] at this
      exact .inr (.inl (by omega))
  · exact .inr (.inr (.inl h))
  · exact .inr (.inr (.inr (.inl h)))
  · exact .inr (.inr (.inr (.inr (.inl h))))
  · exact .inr (.inr (.inr (.inr (.inr (.inl h)))))

theorem TidyP.add {P : Nat → Prop} {s : Fs} {c : Nat} (h : TidyP (fun i => P i ∨ i = c) s) (d : Nat) (n : Name)
    (b : Bool) : TidyP P (s.addDent d n c b) := by
  intro i y hy
  rw [addDent_ino, Option.map_eq_some_iff] at hy
  obtain ⟨x, hx, rfl⟩ := hy
  rw [looseq_addDent, addDent_names]
  rcases h i x hx with h | h | h | h | h | h | h
  · exact .inl h
  · exact .inr (.inl (by omega))
  · exact .inr (.inr (.inl h))
  · exact .inr (.inr (.inr (.inl h)))
  · exact .inr (.inr (.inr (.inr (.inl h))))
  · exact .inr (.inr (.inr (.inr (.inr h))))
  · exact .inr (.inl (by rw [if_pos h]; omega))

theorem TidyP.mono {P Q : Nat → Prop} {s : Fs} (h : TidyP P s) (hpq : ∀ i, P i → Q i) : TidyP Q s := by
  intro i x hx
  rcases h i x hx with h | h | h | h | h | h
  · exact .inl h
  · exact .inr (.inl h)
  · exact .inr (.inr (.inl h))
  · exact .inr (.inr (.inr (.inl h)))
  · exact .inr (.inr (.inr (.inr (.inl h))))
  · exact .inr (.inr (.inr (.inr (.inr (hpq _ h)))))

theorem TidyP.prune {s : Fs} (hi : Inv No s) {i : Nat} (h : TidyP (fun j => No j ∨ j = i) s) {o : Orc}
    (hd : o.drop = false) : TidyP No (s.prune o i).2 := by
  cases hx : s.ino i with
  | none =>
    rw [prune_none o s i hx]
    intro j y hy
    rcases h j y hy with h | h | h | h | h | h | h
    · exact .inl h
    · exact .inr (.inl h)
    · exact .inr (.inr (.inl h))
    · exact .inr (.inr (.inr (.inl h)))
    · exact .inr (.inr (.inr (.inr (.inl h))))
    · exact absurd h (fun h => h)
    · rw [h, hx] at hy; cases hy
  | some x =>
    have hp := prune_pruned (o := o) hi i (fun h => h)
    rcases prune_cases o s i x hx (hi.loose i x hx) with ⟨he, hdr, _⟩ |
        ⟨y, q, he, h1, h2, h3, h4, h5, h6, h7, h8, h9, h10, _⟩
    · intro j z hz
      have hj : j ≠ i := by
        rintro rfl; rw [he] at hz; simp only at hz; rw [erase_ino, if_pos rfl] at hz; cases hz
      have hz' : s.ino j = some z := by rw [← hp.other j hj]; exact hz
      rw [names_of_ents hp.ents]
      rcases h j z hz' with h | h | h | h | h | h | h
      · exact .inl h
      · exact .inr (.inl h)
      · exact .inr (.inr (.inl h))
      · exact .inr (.inr (.inr (.inl h)))
      · exact .inr (.inr (.inr (.inr (.inl (by rw [he]; exact h)))))
      · exact absurd h (fun h => h)
      · exact absurd h hj
    · intro j z hz
      rw [names_of_ents hp.ents]
      by_cases hj : j = i
      · subst hj
        rw [he] at hz
        have hz' : (s.setIno j (some y)).ino j = some z := hz
        rw [setIno_get, if_pos rfl, Option.some.injEq] at hz'
        subst hz'
        cases hl : y.loose with
        | true =>
          cases hpin : y.pinned with
          | true => exact .inr (.inr (.inr (.inl rfl)))
          | false => exact .inr (.inr (.inr (.inr (.inl (by rw [he]; exact h10 hd hl hpin)))))
        | false =>
          rw [hl] at h6
          by_cases hop : 0 < x.nopen
          · exact .inr (.inr (.inl (by rw [h4]; exact hop)))
          · by_cases hr : j = ROOT
            · exact .inl hr
            · by_cases hn : s.names j = 0
              · exfalso
                have := (nlinkOrphan_iff hi.core (anchP_no.1 hi.anch) hx).2 ⟨hn, hr⟩
                unfold Ino.isOrphan at h6
                rw [this] at h6
                simp at h6
                omega
              · exact .inr (.inl (by omega))
      · have hz' : s.ino j = some z := by rw [← hp.other j hj]; exact hz
        rcases h j z hz' with h | h | h | h | h | h | h
        · exact .inl h
        · exact .inr (.inl h)
        · exact .inr (.inr (.inl h))
        · exact .inr (.inr (.inr (.inl h)))
        · exact .inr (.inr (.inr (.inr (.inl (by rw [he]; exact h8 j h)))))
        · exact absurd h (fun h => h)
        · exact absurd h hj

theorem remPrune_tidy {s : Fs} (hi : Inv No s) (h : TidyP No s) {o : Orc} {rr : Rem} {d : Nat} {n : Name} {c : Nat}
    {x : Ino} (hx : s.ino c = some x) (hl : s.look d n = some c)
    (hb : x.isDir = true → s.ndents c = 0) (hd : o.drop = false) (hrr : rr ≠ .failAfter) :
    TidyP No (s.remPrune o rr d n c x.isDir).2 := by
  have hb' : s.ndents c = 0 := by
    cases h : x.isDir with
    | true => exact hb h
    | false => exact ndents_file hi.core (by rw [isDirI_of hx, h])
  have h1 : Inv No (s.delDent d n c x.isDir) := (hi.del hx hl).bare (delDent_ndents_zero hb')
  unfold Fs.remPrune Fs.rem
  cases rr with
  | fail => exact h
  | failAfter => exact absurd rfl hrr
  | ok => exact TidyP.prune h1 (h.del hi.core x.isDir hl) hd

theorem mk_tidy (m : Mk) {s : Fs} {i : Nat} (h : TidyP No s) (hn : 0 < s.names i) : TidyP No (m.app s i) := by
  intro j y hy
  have hs := mk_same m s i
  rw [hs.names]
  by_cases hj : j = i
  · subst hj; exact .inr (.inl hn)
  · rw [mk_other m s i j hj] at hy
    have hq : (m.app s i).looseq = s.looseq := by
      cases m with
      | plain => rfl
      | opened => show (s.incOpen i).looseq = _; unfold Fs.incOpen; split <;> rfl
      | closed =>
        show ((s.incOpen i).decOpen i).looseq = _
        have h1 : (s.incOpen i).looseq = s.looseq := by unfold Fs.incOpen; split <;> rfl
        rw [← h1]
        generalize s.incOpen i = t
        unfold Fs.decOpen; split <;> rfl
      | pin => rfl
    rw [hq]
    exact h j y hy

theorem body_tidy {s : Fs} {o : Orc} {op : Op} (hg : Good s) (hv : Vfs s op) (ht : Clean o op)
    (h : TidyP No s) : TidyP No (op.body s o).2 := by
  have he := body_eff s o op
  have hi := hg.inv
  obtain ⟨q1, q2, q3, q4, q5⟩ := ht
  generalize hr : op.body s o = r at he
  cases he with
  | refuse op e => exact h
  | nothing i => exact h
  | undo op cr d n i x hop hx hu => rw [setIno_undo hx]; exact h
  | leak op cr d n i x hop hx hu hnew => rw [q1] at hu; cases hu
  | made op m cr d dx n i x hop hd hn hl hx h0 hnew hadd =>
    apply mk_tidy
    · apply TidyP.add
      intro j y hy
      rw [setIno_get] at hy
      split at hy
      · next hj => exact .inr (.inr (.inr (.inr (.inr (.inr hj)))))
      · exact (h.mono (Q := fun k => No k ∨ k = i) (fun _ h => Or.inl h)) j y hy
    · rw [addDent_names, if_pos rfl]; omega
  | linked cr d dx n i x hd hl hx hdir hlm hadd =>
    exact TidyP.add (h.mono (fun _ h => .inl h)) d n _
  | unlinked cr d dx n c x hrm hdir =>
    exact remPrune_tidy hi h hrm.ino hrm.look (by rw [hdir]; intro h; exact absurd h (by decide)) q2 q3
  | rmdired cr d dx n c x hrm hdir hemp hroot =>
    exact remPrune_tidy hi h hrm.ino hrm.look (fun _ => isEmpty_ndents hemp) q2 q3
  | renSame cr d dx n d2 dx2 n2 f c x hrm hd2 hl2 hnr =>
    have hdir : x.isDir = false := by
      have : s.isDirI c = false := hv c hrm.look hl2
      rw [isDirI_of hrm.ino] at this; exact this
    exact remPrune_tidy hi h hrm.ino hrm.look (by rw [hdir]; intro h; exact absurd h (by decide)) q2 q3
  | moved cr d dx n d2 dx2 n2 f c x hrm hd2 hl2 hn2 hex hca =>
    rcases renameMove_cases (s := s) (o := o) (d := d) (n := n) (d2 := d2) (n2 := n2) (c := c) (b := x.isDir) hca with
      ⟨h1, hh⟩ | ⟨h1, hh⟩ | ⟨h1, hh, hh2⟩ | ⟨h1, hh, hh2⟩
    · rw [h1]; exact h
    · exact absurd hh q3
    · rw [q5.1] at hh2; cases hh2
    · rw [h1]; exact TidyP.add (h.del hi.core _ hrm.look) _ _ _
  | exchanged cr d dx n d2 dx2 n2 f c x c2 x2 hrm hrm2 hne hex hnr =>
    rcases renameExchange_cases (s := s) (o := o) (d := d) (n := n) (d2 := d2) (n2 := n2) (c := c) (b := x.isDir)
      (c2 := c2) (b2 := x2.isDir) with
      ⟨h1, hh⟩ | ⟨h1, hh⟩ | ⟨h1, hh, hh2⟩ | ⟨h1, hh, hh2, hh3, hh4⟩ | ⟨h1, hh, hh2, hh3, hh4⟩
    · rw [h1]; exact h
    · exfalso
      rcases hh with hh | ⟨_, hh⟩
      · exact q3 hh
      · rw [q5.2.2 hex] at hh; cases hh
    · exfalso
      rcases hh2 with hh2 | ⟨_, hh2⟩
      · exact q4 hh2
      · rw [q5.1] at hh2; cases hh2
    · rw [q5.2.1] at hh4; cases hh4
    · rw [h1]
      have hkey : ¬ (d2 = d ∧ n2 = n) := by
        rintro ⟨rfl, rfl⟩
        have := hrm.look
        rw [hrm2.look] at this
        exact hne (by simpa using this.symm)
      have l1 : (s.delDent d n c x.isDir).look d2 n2 = some c2 := by
        rw [delDent_look, if_neg hkey]; exact hrm2.look
      have t1 := h.del hi.core x.isDir hrm.look
      have t2 := t1.del (hi.core.delDent hrm.ino hrm.look) x2.isDir l1
      refine TidyP.add (P := No) (TidyP.add (P := fun i => No i ∨ i = c2) (t2.mono ?_) _ _ _) _ _ _
      rintro i ((h | h) | h)
      · exact .inl (.inl h)
      · exact .inr h
      · exact .inl (.inr h)
  | replaced cr d dx n d2 dx2 n2 f c x c2 x2 hrm hrm2 hne hex hnr hemp =>
    have hb : s.ndents c2 = 0 := by
      cases h : x2.isDir with
      | true => exact isEmpty_ndents (hemp h).1
      | false => exact ndents_file hi.core (by rw [isDirI_of hrm2.ino]; exact h)
    have hp := remPrune_res hi (o := o) (rr := o.rem2) hrm2.ino hrm2.look (fun _ => hb)
    have tp := remPrune_tidy hi h (o := o) (rr := o.rem2) hrm2.ino hrm2.look (fun _ => hb) q2 q4
    have hcases := renameReplace_cases (s := s) (o := o) (d := d) (n := n) (d2 := d2) (n2 := n2) (c := c) (b := x.isDir)
      (c2 := c2) (b2 := x2.isDir)
    simp only at hcases
    generalize s.remPrune o o.rem2 d2 n2 c2 x2.isDir = p at hp hcases tp
    rcases hcases with ⟨h1, hh⟩ | ⟨hp0, h1, hh⟩ | ⟨hp0, h1, hh⟩ | ⟨hp0, h1, hh, hh2⟩ | ⟨hp0, h1, hh, hh2⟩
    · rw [h1]; exact tp
    · rw [h1]; exact tp
    · exact absurd hh q3
    · rw [q5.1] at hh2; cases hh2
    · rw [h1]
      have hre := repl_of hi (d := d) (n := n) hrm.ino hrm.look hrm2.ino hrm2.look hne hb hp hp0
      exact TidyP.add (tp.del hre.inv.core _ hre.look) _ _ _
  | openedReg cr i f x hx hdir hacc =>
    intro j y hy
    have hy' : (s.incOpen i).ino j = some y := hy
    rw [incOpen_ino, Option.map_eq_some_iff] at hy'
    obtain ⟨z, hz, rfl⟩ := hy'
    have hq : (s.incOpen i).looseq = s.looseq := by unfold Fs.incOpen; split <;> rfl
    show _ ∨ 0 < (s.incOpen i).names j ∨ _ ∨ _ ∨ j ∈ (s.incOpen i).looseq ∨ _
    rw [names_of_ents (incOpen_ents s i), hq]
    rcases h j z hz with h | h | h | h | h | h
    · exact .inl h
    · exact .inr (.inl h)
    · exact .inr (.inr (.inl (by simp only; split <;> omega)))
    · exact .inr (.inr (.inr (.inl h)))
    · exact .inr (.inr (.inr (.inr (.inl h))))
    · exact absurd h (fun h => h)
  | openedDir cr i f x hx hdir hacc =>
    intro j y hy
    have hy' : (s.incOpen i).ino j = some y := hy
    rw [incOpen_ino, Option.map_eq_some_iff] at hy'
    obtain ⟨z, hz, rfl⟩ := hy'
    have hq : (s.incOpen i).looseq = s.looseq := by unfold Fs.incOpen; split <;> rfl
    show _ ∨ 0 < (s.incOpen i).names j ∨ _ ∨ _ ∨ j ∈ (s.incOpen i).looseq ∨ _
    rw [names_of_ents (incOpen_ents s i), hq]
    rcases h j z hz with h | h | h | h | h | h
    · exact .inl h
    · exact .inr (.inl h)
    · exact .inr (.inr (.inl (by simp only; split <;> omega)))
    · exact .inr (.inr (.inr (.inl h)))
    · exact .inr (.inr (.inr (.inr (.inl h))))
    · exact absurd h (fun h => h)
  | released i b f x hx hop =>
    have hs := decOpen_same s i
    have hi1 : Inv No (s.decOpen i) := ⟨hi.core.same hs, hi.anch.same hs, hi.loose.decOpen i⟩
    refine TidyP.prune hi1 ?_ q2
    intro j y hy
    rw [decOpen_ino, Option.map_eq_some_iff] at hy
    obtain ⟨z, hz, rfl⟩ := hy
    have hq : (s.decOpen i).looseq = s.looseq := by unfold Fs.decOpen; split <;> rfl
    rw [hs.names, hq]
    by_cases hj : j = i
    · exact .inr (.inr (.inr (.inr (.inr (.inr hj)))))
    · simp only [if_neg hj]
      exact (h.mono (Q := fun k => No k ∨ k = i) (fun _ h => Or.inl h)) j z hz
  | forgotten i x hx hpin =>
    have hs : Same s (s.setIno i (some { x with pinned := false })) := same_setIno hx rfl rfl rfl
    have hi1 : Inv No (s.setIno i (some { x with pinned := false })) :=
      ⟨hi.core.same hs, hi.anch.same hs, hi.loose.set (fun h => hi.loose i x hx h)⟩
    refine TidyP.prune hi1 ?_ q2
    intro j y hy
    rw [setIno_get] at hy
    split at hy
    · next hj => exact .inr (.inr (.inr (.inr (.inr (.inr hj)))))
    · exact (h.mono (Q := fun k => No k ∨ k = i) (fun _ h => Or.inl h)) j y hy

/-- C14, second half: an API call during which disposal does not fail leaves no inode behind that
has neither a name nor an open handle, and nobody keeps pinned. Inodes that are busy (in-flight
write-back) when they lose their last reference are disposed of before the call returns. -/
theorem C14_nothing_left (s : Fs) (o : Orc) (op : Op) (hg : Good s) (hv : Vfs s op)
    (ht : TearFree s o op) (hc : Clean o op) (hd : (s.step o op).1 ≠ .die) (h : Tidy s) :
    Tidy (s.step o op).2 := by
  have hr := body_res hg hv ht
  have hb := body_tidy hg hv hc ((tidy_iff hg.looseq).1 h)
  obtain ⟨hg', he, _, _, hgone, hkeep, _⟩ := finish_inv hr.inv hd
  rw [tidy_iff (step_good hg hv ht hd).looseq]
  intro i x hx
  by_cases hq : i ∈ (op.body s o).2.looseq
  · have : (s.step o op).2.ino i = none := hgone i hq
    rw [this] at hx; cases hx
  · have : (s.step o op).2.ino i = (op.body s o).2.ino i := hkeep i hq
    rw [this] at hx
    have hn : (s.step o op).2.names i = (op.body s o).2.names i := names_of_ents he i
    rw [hn]
    rcases hb i x hx with h | h | h | h | h | h
    · exact .inl h
    · exact .inr (.inl h)
    · exact .inr (.inr (.inl h))
    · exact .inr (.inr (.inr (.inl h)))
    · exact absurd h hq
    · exact absurd h (fun h => h)

theorem init_tidy (a : Attr) (m : Nat) : Tidy (Fs.init a m) := by
  intro i x hx
  simp only [Fs.init] at hx
  split at hx
  · next h => exact .inl h
  · cases hx

end Silofs.Ns
