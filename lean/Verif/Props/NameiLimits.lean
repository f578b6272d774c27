import Verif.Props.NameiLinks
/-
C35: limits (name length, link count, open files). C36: attributes of new objects. C17: open.
-/
set_option linter.unusedSimpArgs false
set_option linter.unusedVariables false
namespace Silofs.Ns

/-! ### Specification -/

/-- The inodes that are open somewhere are exactly `l`. -/
def OpenList (s : Fs) (l : List Nat) : Prop :=
  l.Nodup ∧ ∀ i, i ∈ l ↔ ∃ x, s.ino i = some x ∧ 0 < x.nopen

/-- The limits of the file-system: names have 1 to 255 bytes, nothing but a directory has more than
32767 links, and the counter of open files is exactly the number of open inodes and within its bound. -/
structure Limits (s : Fs) : Prop where
  names : ∀ e ∈ s.ents, 1 ≤ e.name.length ∧ e.name.length ≤ 255
  links : ∀ i x, s.ino i = some x → x.attr.kind ≠ .dir → x.nlink ≤ 32767
  opens : ∃ l, OpenList s l ∧ l.length = s.iopen
  bound : s.iopen ≤ s.iopenMax

/-! ### Primitives -/

structure Lim (s : Fs) : Prop where
  names : ∀ e ∈ s.ents, checkName e.name = none
  links : ∀ i x, s.ino i = some x → x.isDir = false → x.nlink ≤ LINK_MAX
  opens : ∃ l, OpenList s l ∧ l.length = s.iopen

theorem checkName_none {n : Name} : checkName n = none ↔ 1 ≤ n.length ∧ n.length ≤ 255 := by
  unfold checkName NAME_MAX
  split
  · simp; omega
  · split
    · simp; omega
    · simp; omega

theorem opens_congr {s t : Fs} (h : ∃ l, OpenList s l ∧ l.length = s.iopen) (hi : t.iopen = s.iopen)
    (hino : ∀ j, (∃ x, t.ino j = some x ∧ 0 < x.nopen) ↔ ∃ x, s.ino j = some x ∧ 0 < x.nopen) :
    ∃ l, OpenList t l ∧ l.length = t.iopen := by
  obtain ⟨l, ⟨h1, h2⟩, h3⟩ := h
  exact ⟨l, ⟨h1, fun i => (h2 i).trans (hino i).symm⟩, h3.trans hi.symm⟩

theorem opens_map {s t : Fs} (f : Nat → Ino → Ino) (h : ∀ j, t.ino j = (s.ino j).map (f j))
    (hp : ∀ j x, (f j x).nopen = x.nopen) (j : Nat) :
    (∃ x, t.ino j = some x ∧ 0 < x.nopen) ↔ ∃ x, s.ino j = some x ∧ 0 < x.nopen := by
  rw [h j]
  cases hj : s.ino j with
  | none => simp
  | some x => simp [hp]

theorem addDent_iopen (s : Fs) (d : Nat) (n : Name) (c : Nat) (b : Bool) :
    (s.addDent d n c b).iopen = s.iopen ∧ (s.addDent d n c b).iopenMax = s.iopenMax := by
  unfold Fs.addDent; cases b <;> exact ⟨rfl, rfl⟩

theorem delDent_iopen (s : Fs) (d : Nat) (n : Name) (c : Nat) (b : Bool) :
    (s.delDent d n c b).iopen = s.iopen ∧ (s.delDent d n c b).iopenMax = s.iopenMax := by
  unfold Fs.delDent; cases b <;> exact ⟨rfl, rfl⟩

theorem Lim.delDent {s : Fs} (h : Lim s) (d : Nat) (n : Name) (c : Nat) (b : Bool) :
    Lim (s.delDent d n c b) := by
  refine ⟨?_, ?_, opens_congr h.opens (delDent_iopen s d n c b).1
    (opens_map _ (delDent_ino s d n c b) (fun _ _ => rfl))⟩
  · intro e he
    rw [delDent_ents] at he
    exact h.names e (List.mem_filter.1 he).1
  · intro i x hx hd
    rw [delDent_ino, Option.map_eq_some_iff] at hx
    obtain ⟨y, hy, rfl⟩ := hx
    have := h.links i y hy hd
    simp only
    omega

theorem Lim.addDent {s : Fs} (h : Lim s) {d : Nat} {n : Name} {c : Nat} {b : Bool}
    (hn : checkName n = none)
    (hd : b = true → ∀ y, s.ino d = some y → y.isDir = true)
    (hc : ∀ y, s.ino c = some y → y.isDir = false → y.nlink < LINK_MAX) :
    Lim (s.addDent d n c b) := by
  refine ⟨?_, ?_, opens_congr h.opens (addDent_iopen s d n c b).1
    (opens_map _ (addDent_ino s d n c b) (fun _ _ => rfl))⟩
  · intro e he
    rw [addDent_ents] at he
    rcases List.mem_cons.1 he with rfl | he
    · exact hn
    · exact h.names e he
  · intro i x hx hf
    rw [addDent_ino, Option.map_eq_some_iff] at hx
    obtain ⟨y, hy, rfl⟩ := hx
    have hf' : y.isDir = false := hf
    have h1 := h.links i y hy hf'
    simp only
    have h2 : ¬ (b = true ∧ i = d) := by
      rintro ⟨hb, rfl⟩
      rw [hd hb y hy] at hf'
      cases hf'
    by_cases hic : i = c
    · subst hic
      have := hc y hy hf'
      simp only [if_neg h2, if_true]
      simp_all
      omega
    · simp only [if_neg hic, if_neg h2]; omega

theorem Lim.keep {s : Fs} (h : Lim s) {i : Nat} {x y : Ino} (hx : s.ino i = some x)
    (hp : y.nopen = x.nopen) (hk : y.attr.kind = x.attr.kind) (hn : y.nlink = x.nlink) (q : List Nat) :
    Lim { s.setIno i (some y) with looseq := q } := by
  refine ⟨h.names, ?_, opens_congr (s := s) h.opens rfl ?_⟩
  · intro j z hz hd
    change (s.setIno i (some y)).ino j = some z at hz
    rw [setIno_get] at hz
    split at hz
    · simp only [Option.some.injEq] at hz
      subst hz
      rw [hn]
      exact h.links i x hx (by unfold Ino.isDir at hd ⊢; rwa [← hk])
    · exact h.links j z hz hd
  · intro j
    show (∃ x, (s.setIno i (some y)).ino j = some x ∧ _) ↔ _
    rw [setIno_get]
    split
    · next hj => subst hj; simp [hx, hp]
    · rfl

theorem Lim.gone {s : Fs} (h : Lim s) {i : Nat} {x : Ino} (hx : s.ino i = some x) (hp : x.nopen = 0)
    {t : Fs} (ht : ∀ j, t.ino j = if j = i then none else s.ino j)
    (he : ∀ e ∈ t.ents, e ∈ s.ents) (ho : t.iopen = s.iopen) : Lim t := by
  refine ⟨fun e h' => h.names e (he e h'), ?_, opens_congr (s := s) h.opens ho ?_⟩
  · intro j z hz hd
    rw [ht] at hz
    split at hz
    · cases hz
    · exact h.links j z hz hd
  · intro j
    rw [ht]
    split
    · next hj =>
      subst hj
      rw [hx]
      constructor
      · rintro ⟨_, h, _⟩; cases h
      · rintro ⟨z, hz, hpos⟩
        simp only [Option.some.injEq] at hz; subst hz; omega
    · rfl

theorem Lim.spawn {s : Fs} (h : Lim s) {i : Nat} {x : Ino} (hx : s.ino i = none) (hp : x.nopen = 0)
    (hn : x.isDir = false → x.nlink = 0) : Lim (s.setIno i (some x)) := by
  refine ⟨h.names, ?_, opens_congr (s := s) h.opens rfl ?_⟩
  · intro j z hz hd
    rw [setIno_get] at hz
    split at hz
    · simp only [Option.some.injEq] at hz
      subst hz
      rw [hn hd]; exact Nat.zero_le _
    · exact h.links j z hz hd
  · intro j
    rw [setIno_get]
    split
    · next hj =>
      subst hj
      rw [hx]
      constructor
      · rintro ⟨z, hz, hpos⟩
        simp only [Option.some.injEq] at hz; subst hz; omega
      · rintro ⟨_, h, _⟩; cases h
    · rfl

theorem Lim.incOpen {s : Fs} (h : Lim s) (i : Nat) : Lim (s.incOpen i) := by
  unfold Fs.incOpen
  cases hx : s.ino i with
  | none => exact h
  | some x =>
    refine ⟨h.names, ?_, ?_⟩
    · intro j z hz hd
      change (s.setIno i _).ino j = some z at hz
      rw [setIno_get] at hz
      split at hz
      · simp only [Option.some.injEq] at hz
        subst hz
        exact h.links i x hx hd
      · exact h.links j z hz hd
    · obtain ⟨l, ⟨h1, h2⟩, h3⟩ := h.opens
      by_cases h0 : x.nopen = 0
      · have hni : i ∉ l := by
          intro hi
          obtain ⟨y, hy, hpos⟩ := (h2 i).1 hi
          rw [hx] at hy; simp only [Option.some.injEq] at hy; subst hy; omega
        refine ⟨i :: l, ⟨List.nodup_cons.2 ⟨hni, h1⟩, ?_⟩, ?_⟩
        · intro j
          show _ ↔ ∃ y, (s.setIno i (some { x with nopen := x.nopen + 1 })).ino j = some y ∧ _
          rw [setIno_get]
          by_cases hj : j = i
          · subst hj; simp
          · rw [if_neg hj, ← h2 j]
            simp [hj]
        · show l.length + 1 = if x.nopen = 0 then s.iopen + 1 else s.iopen
          rw [if_pos h0, h3]
      · refine ⟨l, ⟨h1, ?_⟩, ?_⟩
        · intro j
          show _ ↔ ∃ y, (s.setIno i (some { x with nopen := x.nopen + 1 })).ino j = some y ∧ _
          rw [setIno_get]
          by_cases hj : j = i
          · subst hj
            rw [if_pos rfl, h2 j, hx]
            simp; omega
          · rw [if_neg hj, ← h2 j]
        · show l.length = if x.nopen = 0 then s.iopen + 1 else s.iopen
          rw [if_neg h0, h3]

theorem Lim.decOpen {s : Fs} (h : Lim s) {i : Nat} (hp : ∀ x, s.ino i = some x → 0 < x.nopen) :
    Lim (s.decOpen i) := by
  unfold Fs.decOpen
  cases hx : s.ino i with
  | none => exact h
  | some x =>
    have hpos := hp x hx
    refine ⟨h.names, ?_, ?_⟩
    · intro j z hz hd
      change (s.setIno i _).ino j = some z at hz
      rw [setIno_get] at hz
      split at hz
      · simp only [Option.some.injEq] at hz
        subst hz
        exact h.links i x hx hd
      · exact h.links j z hz hd
    · obtain ⟨l, ⟨h1, h2⟩, h3⟩ := h.opens
      have hil : i ∈ l := (h2 i).2 ⟨x, hx, hpos⟩
      by_cases h0 : x.nopen = 1
      · refine ⟨l.erase i, ⟨h1.erase i, ?_⟩, ?_⟩
        · intro j
          show _ ↔ ∃ y, (s.setIno i (some { x with nopen := x.nopen - 1 })).ino j = some y ∧ _
          rw [setIno_get]
          by_cases hj : j = i
          · subst hj
            rw [if_pos rfl]
            constructor
            · intro hh; exact absurd hh (h1.not_mem_erase)
            · rintro ⟨y, hy, hpos⟩
              simp only [Option.some.injEq] at hy; subst hy
              simp only at hpos; omega
          · rw [if_neg hj, ← h2 j, List.mem_erase_of_ne hj]
        · show _ = if x.nopen = 1 then s.iopen - 1 else s.iopen
          rw [if_pos h0, ← h3, List.length_erase_of_mem hil]
      · refine ⟨l, ⟨h1, ?_⟩, ?_⟩
        · intro j
          show _ ↔ ∃ y, (s.setIno i (some { x with nopen := x.nopen - 1 })).ino j = some y ∧ _
          rw [setIno_get]
          by_cases hj : j = i
          · subst hj
            rw [if_pos rfl, h2 j, hx]
            simp; omega
          · rw [if_neg hj, ← h2 j]
        · show l.length = if x.nopen = 1 then s.iopen - 1 else s.iopen
          rw [if_neg h0, h3]

theorem Lim.erase {s : Fs} (h : Lim s) {i : Nat} {x : Ino} (hx : s.ino i = some x) (hp : x.nopen = 0) :
    Lim (s.erase i) :=
  h.gone hx hp (erase_ino s i) (fun e he => (List.mem_filter.1 he).1) rfl

theorem Lim.prune {s : Fs} (h : Lim s) (hlo : LooseOk s) (o : Orc) (i : Nat) : Lim (s.prune o i).2 := by
  cases hx : s.ino i with
  | none => rw [prune_none o s i hx]; exact h
  | some x =>
    rcases prune_cases o s i x hx (hlo i x hx) with ⟨h1, h2, _⟩ | ⟨y, q, h1, h2, h3, _, h4, _⟩
    · rw [h1]; exact h.erase hx (isDropable_parts h2).1
    · rw [h1]; exact h.keep hx h4 (by rw [h2]) h3 q

theorem Lim.remPrune {s : Fs} (h : Lim s) (hlo : LooseOk s) (o : Orc) (r : Rem) (d : Nat) (n : Name)
    (c : Nat) (b : Bool) : Lim (s.remPrune o r d n c b).2 := by
  unfold Fs.remPrune Fs.rem
  cases r with
  | fail => exact h
  | failAfter => exact h.delDent d n c b
  | ok => exact (h.delDent d n c b).prune (hlo.delDent d n c b) o c

theorem prune_attr {s : Fs} (hlo : LooseOk s) {o : Orc} {i j : Nat} {y : Ino}
    (h : (s.prune o i).2.ino j = some y) : ∃ x, s.ino j = some x ∧ y.attr = x.attr := by
  cases hx : s.ino i with
  | none => rw [prune_none o s i hx] at h; exact ⟨y, h, rfl⟩
  | some x =>
    rcases prune_cases o s i x hx (hlo i x hx) with ⟨h1, h2, _⟩ | ⟨z, q, h1, h2, h3, _⟩
    · rw [h1] at h
      simp only [erase_ino] at h
      split at h
      · cases h
      · exact ⟨y, h, rfl⟩
    · rw [h1] at h
      change (s.setIno i (some z)).ino j = some y at h
      rw [setIno_get] at h
      split at h
      · next hj =>
        subst hj
        simp only [Option.some.injEq] at h
        subst h
        exact ⟨x, hx, h2⟩
      · exact ⟨y, h, rfl⟩

theorem remPrune_attr {s : Fs} (hlo : LooseOk s) {o : Orc} {r : Rem} {d : Nat} {n : Name}
    {c : Nat} {b : Bool} {j : Nat} {y : Ino}
    (h : (s.remPrune o r d n c b).2.ino j = some y) : ∃ x, s.ino j = some x ∧ y.attr = x.attr := by
  have hdel : ∀ z, (s.delDent d n c b).ino j = some z → ∃ x, s.ino j = some x ∧ z.attr = x.attr := by
    intro z hz
    rw [delDent_ino, Option.map_eq_some_iff] at hz
    obtain ⟨w, hw, rfl⟩ := hz
    exact ⟨w, hw, rfl⟩
  unfold Fs.remPrune Fs.rem at h
  cases r with
  | fail => exact ⟨y, h, rfl⟩
  | failAfter => exact hdel y h
  | ok =>
    obtain ⟨z, hz, ha⟩ := prune_attr (hlo.delDent d n c b) h
    obtain ⟨x, hx, hb⟩ := hdel z hz
    exact ⟨x, hx, ha.trans hb⟩

/-! ### Names are checked -/

def Op.nms : Op → List Name
  | .create _ _ n _ _ => [n]
  | .mknodReg _ _ n _ => [n]
  | .mknodSpecial _ _ n _ _ _ => [n]
  | .mkdir _ _ n _ => [n]
  | .symlink _ _ n _ => [n]
  | .link _ _ n _ => [n]
  | .unlink _ _ n => [n]
  | .rmdir _ _ n => [n]
  | .rename _ _ n _ n2 _ => [n, n2]
  | _ => []

theorem firstErr_some {a : Option Err} {l : List (Option Err)} {e : Err} (h : a = some e) :
    firstErr (a :: l) = some e := by subst h; rfl

theorem create_badname {s : Fs} {o : Orc} {cr : Cred} {d : Nat} {n : Name} {k : Kind} {m : Nat}
    {e : Err} (h : checkName n = some e) : ∃ e', s.create o cr d n k m = (some e', s) := by
  unfold Fs.create
  cases s.ino d with
  | none => exact ⟨_, rfl⟩
  | some dx => simp only [firstErr_some h]; exact ⟨_, rfl⟩

theorem stageRename_badname {s : Fs} {lk st : Bool} {cr : Cred} {d : Nat} {n : Name} {b : Bool}
    {e : Err} (h : checkName n = some e) : ∃ e', s.stageRename lk st cr d n b = .error e' := by
  unfold Fs.stageRename
  cases s.ino d with
  | none => exact ⟨_, rfl⟩
  | some dx => simp only [firstErr_some h]; exact ⟨_, rfl⟩

theorem body_badname {s : Fs} {o : Orc} {op : Op} {n : Name} (hn : n ∈ op.nms) {e : Err}
    (h : checkName n = some e) : ∃ e', op.body s o = (some e', s) := by
  cases op with
  | create cr d n' k m =>
    simp only [Op.nms, List.mem_singleton] at hn; subst hn; exact create_badname h
  | mknodReg cr d n' m =>
    simp only [Op.nms, List.mem_singleton] at hn; subst hn
    obtain ⟨e', he⟩ := create_badname (s := s) (o := o) (cr := cr) (d := d) (k := .reg) (m := m) h
    refine ⟨e', ?_⟩
    simp only [Op.body, Fs.mknodReg, he]
  | mknodSpecial cr d n' k m b =>
    simp only [Op.nms, List.mem_singleton] at hn; subst hn
    simp only [Op.body, Fs.mknodSpecial]
    cases s.ino d with
    | none => exact ⟨_, rfl⟩
    | some dx => simp only [firstErr_some h]; exact ⟨_, rfl⟩
  | mkdir cr d n' m =>
    simp only [Op.nms, List.mem_singleton] at hn; subst hn
    simp only [Op.body, Fs.mkdir]
    cases s.ino d with
    | none => exact ⟨_, rfl⟩
    | some dx => simp only [firstErr_some h]; exact ⟨_, rfl⟩
  | symlink cr d n' v =>
    simp only [Op.nms, List.mem_singleton] at hn; subst hn
    simp only [Op.body, Fs.symlink]
    cases s.ino d with
    | none => exact ⟨_, rfl⟩
    | some dx => simp only [firstErr_some h]; exact ⟨_, rfl⟩
  | link cr d n' i =>
    simp only [Op.nms, List.mem_singleton] at hn; subst hn
    simp only [Op.body, Fs.link]
    cases s.ino d with
    | none => exact ⟨_, rfl⟩
    | some dx =>
      cases s.ino i with
      | none => exact ⟨_, rfl⟩
      | some x => simp only [firstErr_some h]; exact ⟨_, rfl⟩
  | unlink cr d n' =>
    simp only [Op.nms, List.mem_singleton] at hn; subst hn
    simp only [Op.body, Fs.unlink]
    cases s.ino d with
    | none => exact ⟨_, rfl⟩
    | some dx => simp only [firstErr_some h]; exact ⟨_, rfl⟩
  | rmdir cr d n' =>
    simp only [Op.nms, List.mem_singleton] at hn; subst hn
    simp only [Op.body, Fs.rmdir]
    cases s.ino d with
    | none => exact ⟨_, rfl⟩
    | some dx => simp only [firstErr_some h]; exact ⟨_, rfl⟩
  | rename cr d n1 d2 n2 f =>
    simp only [Op.nms, List.mem_cons, List.not_mem_nil, or_false] at hn
    simp only [Op.body, Fs.rename]
    cases s.ino d with
    | none => exact ⟨_, rfl⟩
    | some dx =>
      cases s.ino d2 with
      | none => exact ⟨_, rfl⟩
      | some dx2 =>
        simp only
        rcases hn with rfl | rfl
        · obtain ⟨e', he⟩ := stageRename_badname (s := s) (lk := o.look1) (st := o.stage1) (cr := cr)
            (d := d) (b := false) h
          rw [he]; exact ⟨_, rfl⟩
        · obtain ⟨e', he⟩ := stageRename_badname (s := s) (lk := o.look2) (st := o.stage2) (cr := cr)
            (d := d2) (b := true) h
          rw [he]
          split
          · exact ⟨_, rfl⟩
          · exact ⟨_, rfl⟩
          · exact ⟨_, rfl⟩
  | openReg cr i f => simp [Op.nms] at hn
  | openDir cr i f => simp [Op.nms] at hn
  | release i b f => simp [Op.nms] at hn
  | forget i => simp [Op.nms] at hn

theorem makes_nms {op : Op} {cr : Cred} {d : Nat} {n : Name} (h : op.makes cr d n) : n ∈ op.nms := by
  rcases h with ⟨_, _, rfl⟩ | ⟨_, rfl⟩ | ⟨_, _, _, rfl⟩ | ⟨_, rfl⟩ | ⟨_, rfl⟩ <;> simp [Op.nms]

theorem isDir_after {s t : Fs} {d : Nat} {dx : Ino} (hd : s.ino d = some dx) (h : dx.isDir = true)
    (f : Ino → Ino) (ht : t.ino d = (s.ino d).map f) (hf : ∀ x, (f x).attr = x.attr) :
    ∀ y, t.ino d = some y → y.isDir = true := by
  intro y hy
  rw [ht, hd] at hy
  simp only [Option.map_some, Option.some.injEq] at hy
  subst hy
  unfold Ino.isDir at h ⊢
  rw [hf]; exact h

/-- After its entry was removed, a file can be entered again. -/
theorem lt_after_del {s : Fs} (h : Lim s) {c : Nat} (d : Nat) (n : Name) (b : Bool) (y : Ino) (hy : (s.delDent d n c b).ino c = some y)
    (hf : y.isDir = false) : y.nlink < LINK_MAX := by
  rw [delDent_ino, Option.map_eq_some_iff] at hy
  obtain ⟨z, hz, rfl⟩ := hy
  have := h.links c z hz hf
  simp only [if_true]
  unfold LINK_MAX at *
  omega

theorem mk_lim (m : Mk) {s : Fs} {i : Nat} (h : Lim s) : Lim (m.app s i) := by
  cases m with
  | plain => exact h
  | opened => exact h.incOpen i
  | closed =>
    apply (h.incOpen i).decOpen
    intro x hx
    rw [incOpen_ino] at hx
    simp only [if_true] at hx
    rw [Option.map_eq_some_iff] at hx
    obtain ⟨z, _, rfl⟩ := hx
    exact Nat.succ_pos _
  | pin =>
    show Lim (s.modIno i _)
    unfold Fs.modIno
    cases hx : s.ino i with
    | none =>
      simp only [Option.map_none]
      have : s.setIno i none = s := by
        unfold Fs.setIno
        have : (fun j => if j = i then none else s.ino j) = s.ino := by
          funext j; split
          · next h => rw [h, hx]
          · rfl
        rw [this]
      rw [this]; exact h
    | some x => exact h.keep (y := { x with pinned := true }) hx rfl rfl rfl s.looseq

theorem body_lim {s : Fs} {o : Orc} {op : Op} (hl : Lim s) (hlo : LooseOk s)
    (hv : Vfs s op) : Lim (op.body s o).2 := by
  by_cases hbad : ∃ n ∈ op.nms, checkName n ≠ none
  · obtain ⟨n, hn, hc⟩ := hbad
    cases hcn : checkName n with
    | none => exact absurd hcn hc
    | some e =>
      obtain ⟨e', he⟩ := body_badname (s := s) (o := o) hn hcn
      rw [he]; exact hl
  have hok : ∀ n ∈ op.nms, checkName n = none := by
    intro n hn
    cases hcn : checkName n with
    | none => rfl
    | some e => exact absurd ⟨n, hn, by rw [hcn]; simp⟩ hbad
  have he := body_eff s o op
  generalize hbr : op.body s o = r at he
  cases he with
  | refuse op e => exact hl
  | nothing i => exact hl
  | undo op cr d n i x hop hx hu => rw [setIno_undo hx]; exact hl
  | leak op cr d n i x hop hx hu hnew =>
    exact hl.spawn hx hnew.nopen (fun h => by rw [hnew.nlink, h]; rfl)
  | made op m cr d dx n i x hop hd hn hlk hx h0 hnew hadd =>
    apply mk_lim
    apply (hl.spawn hx hnew.nopen (fun h => by rw [hnew.nlink, h]; rfl)).addDent
      (hok n (makes_nms hop))
    · intro _ y hy
      rw [setIno_get, if_neg (by rintro rfl; have := hd.ino; rw [hx] at this; cases this)] at hy
      rw [hd.ino] at hy; simp only [Option.some.injEq] at hy; subst hy; exact hd.isdir
    · intro y hy hf
      rw [setIno_get, if_pos rfl] at hy
      simp only [Option.some.injEq] at hy; subst hy
      rw [hnew.nlink, hf]; decide
  | linked cr d dx n i x hd hlk hx hf hlt hadd =>
    apply hl.addDent (hok n (by simp [Op.nms]))
    · intro h; rw [hf] at h; cases h
    · intro y hy _
      rw [hx] at hy; simp only [Option.some.injEq] at hy; subst hy; exact hlt
  | unlinked cr d dx n c x hr hf => exact hl.remPrune hlo o _ d n c _
  | rmdired cr d dx n c x hr hf _ _ => exact hl.remPrune hlo o _ d n c _
  | moved cr d dx n d2 dx2 n2 f c x hr hd2 hlk2 hn2 hex hca =>
    rcases renameMove_cases (s := s) (o := o) (d := d) (n := n) (c := c) (b := x.isDir) hca with
      ⟨h, _⟩ | ⟨h, _⟩ | ⟨h, _⟩ | ⟨h, _⟩ <;> rw [h]
    · exact hl
    · exact hl.delDent ..
    · exact hl.delDent ..
    · apply (hl.delDent d n c x.isDir).addDent (hok n2 (by simp [Op.nms]))
      · intro _
        exact isDir_after hd2.ino hd2.isdir _ (delDent_ino s d n c x.isDir d2) (fun _ => rfl)
      · exact lt_after_del hl d n x.isDir
  | renSame cr d dx n d2 dx2 n2 f c x hr hd2 hlk2 hnr => exact hl.remPrune hlo o _ d n c _
  | exchanged cr d dx n d2 dx2 n2 f c x c2 x2 hr hr2 hne hex hnr =>
    rcases renameExchange_cases (s := s) (o := o) (d := d) (n := n) (d2 := d2) (n2 := n2) (c := c)
      (b := x.isDir) (c2 := c2) (b2 := x2.isDir) with
      ⟨h, _⟩ | ⟨h, _⟩ | ⟨h | h, _⟩ | ⟨h, _⟩ | ⟨h, _⟩ <;> rw [h]
    · exact hl
    · exact hl.delDent ..
    · exact (hl.delDent ..).delDent ..
    · exact (hl.delDent ..).delDent ..
    all_goals
      have hA : Lim (((s.delDent d n c x.isDir).delDent d2 n2 c2 x2.isDir).addDent d2 n2 c x.isDir) := by
        apply ((hl.delDent d n c x.isDir).delDent d2 n2 c2 x2.isDir).addDent (hok n2 (by simp [Op.nms]))
        · intro _ y hy
          rw [delDent_ino, Option.map_eq_some_iff] at hy
          obtain ⟨z, hz, rfl⟩ := hy
          exact isDir_after hr2.dirw.ino hr2.dirw.isdir _ (delDent_ino s d n c x.isDir d2) (fun _ => rfl) z hz
        · intro y hy hf
          rw [delDent_ino, Option.map_eq_some_iff] at hy
          obtain ⟨z, hz, rfl⟩ := hy
          have := lt_after_del hl d n x.isDir z hz hf
          simp only
          omega
    · exact hA
    · apply hA.addDent (hok n (by simp [Op.nms]))
      · intro _ y hy
        rw [addDent_ino, Option.map_eq_some_iff] at hy
        obtain ⟨z, hz, rfl⟩ := hy
        rw [delDent_ino, Option.map_eq_some_iff] at hz
        obtain ⟨w, hw, rfl⟩ := hz
        exact isDir_after hr.dirw.ino hr.dirw.isdir _ (delDent_ino s d n c x.isDir d) (fun _ => rfl) w hw
      · intro y hy hf
        rw [addDent_ino, Option.map_eq_some_iff] at hy
        obtain ⟨z, hz, rfl⟩ := hy
        have h1 := lt_after_del (hl.delDent d n c x.isDir) (c := c2) d2 n2 x2.isDir z hz hf
        have h2 : ¬ (x.isDir = true ∧ c2 = d2) := by
          rintro ⟨_, rfl⟩
          have h3 : z.isDir = true := by
            rw [delDent_ino, Option.map_eq_some_iff] at hz
            obtain ⟨w, hw, rfl⟩ := hz
            exact isDir_after hr2.dirw.ino hr2.dirw.isdir _ (delDent_ino s d n c x.isDir c2) (fun _ => rfl) w hw
          have hf' : z.isDir = false := hf
          rw [h3] at hf'; cases hf'
        simp only [if_neg hne.symm, if_neg h2]
        omega
  | replaced cr d dx n d2 dx2 n2 f c x c2 x2 hr hr2 hne hex hnr hemp =>
    rcases renameReplace_cases (s := s) (o := o) (d := d) (n := n) (d2 := d2) (n2 := n2) (c := c)
      (b := x.isDir) (c2 := c2) (b2 := x2.isDir) with
      ⟨h, _⟩ | ⟨_, h, _⟩ | ⟨_, h, _⟩ | ⟨_, h, _⟩ | ⟨_, h, _⟩ <;> rw [h]
    · exact hl.remPrune hlo o _ d2 n2 c2 _
    · exact hl.remPrune hlo o _ d2 n2 c2 _
    · exact (hl.remPrune hlo o _ d2 n2 c2 _).delDent ..
    · exact (hl.remPrune hlo o _ d2 n2 c2 _).delDent ..
    · have hp := hl.remPrune hlo o o.rem2 d2 n2 c2 x2.isDir
      apply (hp.delDent d n c x.isDir).addDent (hok n2 (by simp [Op.nms]))
      · intro _ y hy
        rw [delDent_ino, Option.map_eq_some_iff] at hy
        obtain ⟨z, hz, rfl⟩ := hy
        obtain ⟨w, hw, ha⟩ := remPrune_attr hlo hz
        rw [hr2.dirw.ino] at hw
        simp only [Option.some.injEq] at hw
        subst hw
        have : z.isDir = true := by rw [isDir_attr ha]; exact hr2.dirw.isdir
        exact this
      · exact lt_after_del hp d n x.isDir
  | openedReg cr i f x hx hf hacc => exact hl.incOpen i
  | openedDir cr i f x hx hf hacc => exact hl.incOpen i
  | released i b f x hx hpos =>
    exact (hl.decOpen (fun y hy => by rw [hx] at hy; simp only [Option.some.injEq] at hy; subst hy; exact hpos)).prune
      (hlo.decOpen i) o i
  | forgotten i x hx hp =>
    apply (hl.keep (y := { x with pinned := false }) hx rfl rfl rfl s.looseq).prune
    exact hlo.set (fun h => hlo i x hx h)

/-! ### End of the call -/

theorem purge_lim {o : Orc} (l : List Nat) : ∀ {s t : Fs}, Lim s → Fs.purgeList o l s = some t →
    Lim t ∧ t.iopen = s.iopen ∧ t.iopenMax = s.iopenMax := by
  induction l with
  | nil =>
    intro s t hs h
    simp only [Fs.purgeList, Option.some.injEq] at h
    subst h
    exact ⟨hs, rfl, rfl⟩
  | cons i q ih =>
    intro s t hs h
    unfold Fs.purgeList at h
    split at h
    · exact ih hs h
    · next x hx =>
      split at h
      · next hd =>
        simp only [Bool.and_eq_true] at hd
        exact ih (s := s.erase i) (hs.erase hx (isDropable_parts hd.1).1) h
      · cases h

theorem finish_lim {o : Orc} {r : Option Err × Fs} (h : Lim r.2) :
    Lim (Fs.finish o r).2 ∧ (Fs.finish o r).2.iopen = r.2.iopen ∧
    (Fs.finish o r).2.iopenMax = r.2.iopenMax := by
  have h0 : Lim { r.2 with looseq := [] } := ⟨h.names, h.links, h.opens⟩
  unfold Fs.finish
  cases hp : Fs.purgeList o r.2.looseq { r.2 with looseq := [] } with
  | none => exact ⟨h0, rfl, rfl⟩
  | some t =>
    obtain ⟨a, b, c⟩ := purge_lim _ h0 hp
    exact ⟨a, b, c⟩

/-! ### The bound on open files -/

def IoEq (s t : Fs) : Prop := t.iopen = s.iopen ∧ t.iopenMax = s.iopenMax

theorem IoEq.refl (s : Fs) : IoEq s s := ⟨rfl, rfl⟩
theorem IoEq.trans {s t u : Fs} (h : IoEq s t) (h2 : IoEq t u) : IoEq s u :=
  ⟨h2.1.trans h.1, h2.2.trans h.2⟩

theorem prune_io (o : Orc) (s : Fs) (i : Nat) : IoEq s (s.prune o i).2 := by
  unfold Fs.prune Fs.dropUnlinked Fs.enqueueIfLoose
  split
  · exact IoEq.refl s
  · simp only
    repeat' split
    all_goals exact ⟨rfl, rfl⟩

theorem add_io (s : Fs) (f : Bool) (d : Nat) (n : Name) (c : Nat) (b : Bool) : IoEq s (s.add f d n c b).2 := by
  unfold Fs.add
  split
  · exact IoEq.refl s
  · exact addDent_iopen s d n c b

theorem rem_io (s : Fs) (r : Rem) (d : Nat) (n : Name) (c : Nat) (b : Bool) : IoEq s (s.rem r d n c b).2 := by
  unfold Fs.rem
  cases r with
  | fail => exact IoEq.refl s
  | failAfter => exact delDent_iopen s d n c b
  | ok => exact delDent_iopen s d n c b

theorem remPrune_io (s : Fs) (o : Orc) (r : Rem) (d : Nat) (n : Name) (c : Nat) (b : Bool) :
    IoEq s (s.remPrune o r d n c b).2 := by
  have h := rem_io s r d n c b
  unfold Fs.remPrune
  split
  · next h' => rw [h'] at h; exact h
  · next h' => rw [h'] at h; exact h.trans (prune_io _ _ _)

theorem make_io {s : Fs} {o : Orc} {cr : Cred} {d : Nat} {dx : Ino} {n : Name} {k : Kind} {m : Nat} :
    (∀ e t, s.make o cr d dx n k m = .error (e, t) → IoEq s t) ∧
    (∀ i t, s.make o cr d dx n k m = .ok (i, t) → IoEq s t ∧ o.spawn = some i ∧ s.ino i = none ∧
      True ∧
      t = (s.setIno i (some (newIno cr k m d dx))).addDent d n i (k == .dir)) := by
  have hu : ∀ (t : Fs) (i : Nat), IoEq t (t.undoSpawn o i) := by
    intro t i; unfold Fs.undoSpawn; split <;> exact ⟨rfl, rfl⟩
  unfold Fs.make Fs.spawnIno
  cases hsp : o.spawn with
  | none =>
    refine ⟨fun e t h => ?_, fun i t h => ?_⟩
    · simp only [Except.error.injEq, Prod.mk.injEq] at h; rw [← h.2]; exact IoEq.refl s
    · cases h
  | some i =>
    simp only
    cases hi : s.ino i with
    | some x =>
      refine ⟨fun e t h => ?_, fun i t h => ?_⟩
      · simp only [Except.error.injEq, Prod.mk.injEq] at h; rw [← h.2]; exact IoEq.refl s
      · cases h
    | none =>
      simp only
      by_cases h0 : i = 0
      · rw [if_pos h0]
        refine ⟨fun e t h => ?_, fun i t h => ?_⟩
        · simp only [Except.error.injEq, Prod.mk.injEq] at h; rw [← h.2]; exact IoEq.refl s
        · cases h
      · rw [if_neg h0]
        simp only
        have hs1 : IoEq s (s.setIno i (some (newIno cr k m d dx))) := ⟨rfl, rfl⟩
        generalize hg : s.setIno i (some (newIno cr k m d dx)) = s1 at hs1 ⊢
        by_cases hb : k = .lnk ∧ o.bind = true
        · rw [if_pos hb]
          refine ⟨fun e t h => ?_, fun i t h => ?_⟩
          · simp only [Except.error.injEq, Prod.mk.injEq] at h; rw [← h.2]; exact hs1.trans (hu _ _)
          · cases h
        · rw [if_neg hb]
          unfold Fs.add
          cases o.add1
          · simp only [Bool.false_eq_true, if_false]
            refine ⟨fun e t h => (by cases h), fun i' t h => ?_⟩
            simp only [Except.ok.injEq, Prod.mk.injEq] at h
            obtain ⟨rfl, rfl⟩ := h
            exact ⟨hs1.trans (addDent_iopen _ _ _ _ _), rfl, hi, trivial, by rw [hg]⟩
          · simp only [if_true]
            refine ⟨fun e t h => ?_, fun i t h => (by cases h)⟩
            simp only [Except.error.injEq, Prod.mk.injEq] at h; rw [← h.2]; exact hs1.trans (hu _ _)

theorem checkOpenLimit_none {s : Fs} {x : Ino} (h : s.checkOpenLimit x = none) : s.iopen < s.iopenMax := by
  unfold Fs.checkOpenLimit at h
  split at h
  · cases h
  · next hh => exact Nat.lt_of_not_le hh

theorem incOpen_io (s : Fs) (i : Nat) : (s.incOpen i).iopen ≤ s.iopen + 1 ∧
    (s.incOpen i).iopenMax = s.iopenMax := by
  unfold Fs.incOpen
  split
  · exact ⟨Nat.le_succ _, rfl⟩
  · refine ⟨?_, rfl⟩
    simp only
    split <;> omega

theorem decOpen_io (s : Fs) (i : Nat) : (s.decOpen i).iopen ≤ s.iopen ∧
    (s.decOpen i).iopenMax = s.iopenMax := by
  unfold Fs.decOpen
  split
  · exact ⟨Nat.le_refl _, rfl⟩
  · refine ⟨?_, rfl⟩
    simp only
    split <;> omega

/-- The counter stays within its bound, which is constant. -/
def IoOk (s t : Fs) : Prop := (s.iopen ≤ s.iopenMax → t.iopen ≤ t.iopenMax) ∧ t.iopenMax = s.iopenMax

theorem IoEq.ok {s t : Fs} (h : IoEq s t) : IoOk s t := ⟨fun h' => by rw [h.1, h.2]; exact h', h.2⟩

theorem create_io (s : Fs) (o : Orc) (cr : Cred) (d : Nat) (n : Name) (k : Kind) (m : Nat) :
    IoOk s (s.create o cr d n k m).2 := by
  unfold Fs.create
  cases s.ino d with
  | none => exact (IoEq.refl s).ok
  | some dx =>
    simp only
    split
    · exact (IoEq.refl s).ok
    · next hc =>
      simp only [firstErr_cons_none] at hc
      have hlt := checkOpenLimit_none hc.2.2.2.1
      split
      · next e t hm => exact (make_io.1 e t hm).ok
      · next i t hm =>
        obtain ⟨⟨h1, h2⟩, _⟩ := make_io.2 i t hm
        have := incOpen_io t i
        refine ⟨fun _ => ?_, this.2.trans h2⟩
        show (t.incOpen i).iopen ≤ (t.incOpen i).iopenMax
        omega

theorem body_io (s : Fs) (o : Orc) (op : Op) : IoOk s (op.body s o).2 := by
  cases op with
  | create cr d n k m => exact create_io s o cr d n k m
  | mknodReg cr d n m =>
    have h := create_io s o cr d n .reg m
    simp only [Op.body, Fs.mknodReg]
    split
    · next e => rw [e] at h; exact h
    · next e =>
      rw [e] at h
      split
      · exact h
      · next i _ =>
        refine ⟨fun hh => ?_, (decOpen_io _ _).2.trans h.2⟩
        rw [(decOpen_io _ _).2]
        exact Nat.le_trans (decOpen_io _ _).1 (h.1 hh)
  | mknodSpecial cr d n k m b =>
    simp only [Op.body, Fs.mknodSpecial]
    cases s.ino d with
    | none => exact (IoEq.refl s).ok
    | some dx =>
      simp only
      split
      · exact (IoEq.refl s).ok
      · split
        · next e t hm => exact (make_io.1 e t hm).ok
        · next i t hm =>
          exact ((make_io.2 i t hm).1.trans ⟨rfl, rfl⟩).ok
  | mkdir cr d n m =>
    simp only [Op.body, Fs.mkdir]
    cases s.ino d with
    | none => exact (IoEq.refl s).ok
    | some dx =>
      simp only
      split
      · exact (IoEq.refl s).ok
      · split
        · next e t hm => exact (make_io.1 e t hm).ok
        · next i t hm => exact (make_io.2 i t hm).1.ok
  | symlink cr d n v =>
    simp only [Op.body, Fs.symlink]
    cases s.ino d with
    | none => exact (IoEq.refl s).ok
    | some dx =>
      simp only
      split
      · exact (IoEq.refl s).ok
      · split
        · next e t hm => exact (make_io.1 e t hm).ok
        · next i t hm => exact (make_io.2 i t hm).1.ok
  | link cr d n i =>
    simp only [Op.body, Fs.link]
    split
    · split
      · exact (IoEq.refl s).ok
      · exact (add_io _ _ _ _ _ _).ok
    · exact (IoEq.refl s).ok
  | unlink cr d n =>
    simp only [Op.body, Fs.unlink]
    repeat' split
    all_goals first | exact (IoEq.refl s).ok | exact (remPrune_io _ _ _ _ _ _ _).ok
  | rmdir cr d n =>
    simp only [Op.body, Fs.rmdir]
    repeat' split
    all_goals first | exact (IoEq.refl s).ok | exact (remPrune_io _ _ _ _ _ _ _).ok
  | rename cr d n d2 n2 f =>
    simp only [Op.body, Fs.rename]
    repeat' split
    all_goals first | exact (IoEq.refl s).ok | skip
    next dx dx2 _ _ _ c x _ _ old _ _ _ =>
      apply IoEq.ok
      unfold Fs.renameSpecific
      rcases old with _ | ⟨c2, x2⟩
      · simp only
        unfold Fs.renameMove
        split
        · exact IoEq.refl s
        · have h := rem_io s o.rem1 d n c x.isDir
          split
          · next e => rw [e] at h; exact h
          · next e => rw [e] at h; exact h.trans (add_io _ _ _ _ _ _)
      · simp only
        split
        · exact remPrune_io _ _ _ _ _ _ _
        · split
          · unfold Fs.renameExchange
            have h := rem_io s o.rem1 d n c x.isDir
            split
            · next e => rw [e] at h; exact h
            · next s1 e =>
              rw [e] at h
              have h2 := rem_io s1 o.rem2 d2 n2 c2 x2.isDir
              split
              · next e => rw [e] at h2; exact h.trans h2
              · next s2 e =>
                rw [e] at h2
                have h3 := add_io s2 o.add1 d2 n2 c x.isDir
                split
                · next e => rw [e] at h3; exact (h.trans h2).trans h3
                · next e => rw [e] at h3; exact ((h.trans h2).trans h3).trans (add_io _ _ _ _ _ _)
          · unfold Fs.renameReplace
            have h := remPrune_io s o o.rem2 d2 n2 c2 x2.isDir
            split
            · next e => rw [e] at h; exact h
            · next s1 e =>
              rw [e] at h
              have h2 := rem_io s1 o.rem1 d n c x.isDir
              split
              · next e => rw [e] at h2; exact h.trans h2
              · next e => rw [e] at h2; exact (h.trans h2).trans (add_io _ _ _ _ _ _)
  | openReg cr i f =>
    simp only [Op.body, Fs.openReg]
    split
    · exact (IoEq.refl s).ok
    · split
      · exact (IoEq.refl s).ok
      · next hc =>
        simp only [firstErr_cons_none] at hc
        have hlt := checkOpenLimit_none hc.2.2.2.2.1
        split
        · exact (IoEq.refl s).ok
        · have := incOpen_io s i
          exact ⟨fun _ => by show (s.incOpen i).iopen ≤ (s.incOpen i).iopenMax; omega, this.2⟩
  | openDir cr i f =>
    simp only [Op.body, Fs.openDir]
    split
    · exact (IoEq.refl s).ok
    · split
      · exact (IoEq.refl s).ok
      · next hc =>
        simp only [firstErr_cons_none] at hc
        have hlt := checkOpenLimit_none hc.2.2.1
        have := incOpen_io s i
        exact ⟨fun _ => by show (s.incOpen i).iopen ≤ (s.incOpen i).iopenMax; omega, this.2⟩
  | release i b f =>
    simp only [Op.body, Fs.release]
    split
    · exact (IoEq.refl s).ok
    · split
      · exact (IoEq.refl s).ok
      · have h := prune_io o (s.decOpen i) i
        have h2 := decOpen_io s i
        refine ⟨fun hh => ?_, h.2.trans h2.2⟩
        rw [h.1, h.2, h2.2]
        exact Nat.le_trans h2.1 hh
  | forget i =>
    simp only [Op.body, Fs.forget]
    split
    · exact (IoEq.refl s).ok
    · split
      · next x _ _ =>
        exact (IoEq.trans (t := s.setIno i (some { x with pinned := false })) ⟨rfl, rfl⟩ (prune_io _ _ _)).ok
      · exact (IoEq.refl s).ok

/-- **C35.** In every reachable state all names have 1 to 255 bytes, no non-directory has more than
32767 links, the open-file counter equals the number of open inodes, and it is within its bound. -/
theorem C35_limits (a : Attr) (m : Nat) (s : Fs) (h : Run a m s) : Limits s := by
  have key : Lim s ∧ s.iopen ≤ s.iopenMax := by
    induction h with
    | init =>
      refine ⟨⟨by simp [Fs.init], ?_, [], ⟨by simp, ?_⟩, rfl⟩, Nat.zero_le _⟩
      · intro i x hx hf
        simp only [Fs.init] at hx
        split at hx
        · simp only [Option.some.injEq] at hx; subst hx; show 2 ≤ 32767; decide
        · cases hx
      · intro i
        simp only [List.not_mem_nil, false_iff, Fs.init]
        rintro ⟨x, hx, hpos⟩
        split at hx
        · simp only [Option.some.injEq] at hx; subst hx; simp at hpos
        · cases hx
    | step o op hr hv ht hd ih =>
      obtain ⟨h1, h2, h3⟩ := finish_lim (o := o) (body_lim (o := o) ih.1 hr.good.loose hv)
      refine ⟨h1, ?_⟩
      have := (body_io _ o op).1 ih.2
      unfold Fs.step
      rw [h2, h3]; exact this
  refine ⟨fun e he => checkName_none.1 (key.1.names e he), ?_, key.1.opens, key.2⟩
  intro i x hx hk
  exact key.1.links i x hx (by unfold Ino.isDir; simpa using hk)

/-! ### Opening -/

/-- **C17.** A successful open of a file means that every right asked for by the flags was granted;
a successful opendir that reading was. -/
theorem C17_open_granted (s : Fs) (o : Orc) (cr : Cred) (i : Nat) (f : OFlags) :
    (((Op.openReg cr i f).body s o).1 = none →
      ∃ x, s.ino i = some x ∧ x.attr.kind ≠ .dir ∧
        ((f.rdwr = true ∨ f.wronly = false) → Granted cr x.attr .r) ∧
        ((f.rdwr = true ∨ f.wronly = true ∨ f.trunc = true ∨ f.append = true) → Granted cr x.attr .w)) ∧
    (((Op.openDir cr i f).body s o).1 = none →
      ∃ x, s.ino i = some x ∧ x.attr.kind = .dir ∧ Granted cr x.attr .r) := by
  constructor
  · intro h
    have he := body_eff s o (.openReg cr i f)
    generalize (Op.openReg cr i f).body s o = r at he h
    cases he with
    | refuse _ e => cases h
    | undo _ _ _ _ _ _ hop => cases h
    | leak _ _ _ _ _ _ hop => cases h
    | made _ _ _ _ _ _ _ _ hop =>
      rcases hop with ⟨_, _, h⟩ | ⟨_, h⟩ | ⟨_, _, _, h⟩ | ⟨_, h⟩ | ⟨_, h⟩ <;> cases h
    | openedReg _ _ _ x hx hf hacc =>
      have h1 := (C17_access cr x.attr _).1 hacc
      obtain ⟨_, _, h2, h3⟩ := C17_open_mask f
      exact ⟨x, hx, by unfold Ino.isDir at hf; simpa using hf,
        fun h => h1.2 .r (h2.2 h), fun h => h1.2 .w (h3.2 h)⟩
  · intro h
    have he := body_eff s o (.openDir cr i f)
    generalize (Op.openDir cr i f).body s o = r at he h
    cases he with
    | refuse _ e => cases h
    | undo _ _ _ _ _ _ hop => cases h
    | leak _ _ _ _ _ _ hop => cases h
    | made _ _ _ _ _ _ _ _ hop =>
      rcases hop with ⟨_, _, h⟩ | ⟨_, h⟩ | ⟨_, _, _, h⟩ | ⟨_, h⟩ | ⟨_, h⟩ <;> cases h
    | openedDir _ _ _ x hx hf hacc =>
      have h1 := (C17_access cr x.attr _).1 hacc
      exact ⟨x, hx, by unfold Ino.isDir at hf; simpa using hf, h1.2 .r (by unfold Asks; decide)⟩

/-! ### New objects -/

/-- The operation makes an object of kind `k` with requested mode `m`. -/
def Op.asks (op : Op) (cr : Cred) (d : Nat) (n : Name) (k : Kind) (m : Nat) : Prop :=
  op = .create cr d n k m ∨ (k = .reg ∧ op = .mknodReg cr d n m) ∨
  (∃ b, op = .mknodSpecial cr d n k m b) ∨ (k = .dir ∧ op = .mkdir cr d n m) ∨
  (k = .lnk ∧ m = 0o777 ∧ ∃ v, op = .symlink cr d n v)

/-- Permission bit `b` (0 = others' execute, …, 8 = owner's read, 9 = sticky, 10 = set-group-ID,
11 = set-user-ID) of a new object: asked for and not masked, or a directory inheriting the
set-group-ID bit. -/
def NewBit (cr : Cred) (k : Kind) (m : Nat) (dperm : Nat) (b : Nat) : Bool :=
  (decide (b < 12) && m.testBit b && !cr.umask.testBit b) || (decide (k = .dir) && decide (b = 10) && dperm.testBit b)

theorem testBit_7777 (b : Nat) : (0o7777 : Nat).testBit b = decide (b < 12) := by
  rw [show (0o7777 : Nat) = 2 ^ 12 - 1 from rfl, Nat.testBit_two_pow_sub_one]

theorem newIno_attr (cr : Cred) (k : Kind) (m d : Nat) (dx : Ino) (b : Nat) :
    (newIno cr k m d dx).attr.perm.testBit b = NewBit cr k m dx.attr.perm b ∧
    (newIno cr k m d dx).attr.kind = k := by
  have h2000 : (0o2000 : Nat).testBit b = decide (b = 10) := by
    rw [show (0o2000 : Nat) = 2 ^ 10 from rfl, Nat.testBit_two_pow]
    by_cases h : b = 10
    · subst h; rfl
    · have h' : ¬ 10 = b := fun e => h e.symm
      simp [h, h']
  unfold newIno NewBit
  by_cases hk : k = .dir
  · subst hk
    simp only [if_true, Nat.testBit_or, Nat.testBit_and, Nat.testBit_xor, testBit_7777, h2000]
    cases m.testBit b <;> cases cr.umask.testBit b <;> cases dx.attr.perm.testBit b <;>
      by_cases h1 : b < 12 <;> by_cases h2 : b = 10 <;> simp [h1, h2] <;> omega
  · simp only [if_neg hk, Nat.testBit_and, Nat.testBit_xor, testBit_7777]
    cases m.testBit b <;> cases cr.umask.testBit b <;>
      by_cases h1 : b < 12 <;> simp [h1, hk]

/-- **C36.** A successful create, mknod, mkdir or symlink leaves, under the given name, an inode of
the requested type owned by the caller whose mode is the requested one without the bits of the umask
(plus an inherited set-group-ID bit on directories). -/
theorem C36_new_attr (s : Fs) (o : Orc) (op : Op) (cr : Cred) (d : Nat) (n : Name) (k : Kind) (m : Nat)
    (hop : op.asks cr d n k m) (hok : (op.body s o).1 = none) :
    ∃ dx i x, s.ino d = some dx ∧ s.ino i = none ∧ (op.body s o).2.look d n = some i ∧
      (op.body s o).2.ino i = some x ∧ x.attr.kind = k ∧ x.attr.uid = cr.uid ∧ x.attr.gid = cr.gid ∧
      ∀ b, x.attr.perm.testBit b = NewBit cr k m dx.attr.perm b := by
  -- the state in which the new entry was just added
  have key : ∀ (dx : Ino) (i : Nat) (t u : Fs), s.ino d = some dx →
      s.make o cr d dx n k m = .ok (i, t) → u.ents = t.ents →
      (∀ x, t.ino i = some x → ∃ y, u.ino i = some y ∧ y.attr = x.attr) →
      ∃ dx i x, s.ino d = some dx ∧ s.ino i = none ∧ u.look d n = some i ∧
      u.ino i = some x ∧ x.attr.kind = k ∧ x.attr.uid = cr.uid ∧ x.attr.gid = cr.gid ∧
      ∀ b, x.attr.perm.testBit b = NewBit cr k m dx.attr.perm b := by
    intro dx i t u hd hm hents hino
    obtain ⟨_, _, hi, _, ht⟩ := make_io.2 i t hm
    have hti : t.ino i = some { newIno cr k m d dx with
        nlink := (newIno cr k m d dx).nlink + 1 + (if (k == .dir) = true ∧ i = d then 1 else 0), parent := d } := by
      rw [ht, addDent_ino, setIno_get, if_pos rfl]
      simp
    obtain ⟨y, hy, hya⟩ := hino _ hti
    refine ⟨dx, i, y, hd, hi, ?_, hy, ?_, ?_, ?_, ?_⟩
    · rw [look_of_ents hents, ht, addDent_look, if_pos ⟨rfl, rfl⟩]
    · rw [hya]; exact (newIno_attr cr k m d dx 0).2
    · rw [hya]; exact (newIno_ok cr k m d dx).1.uid
    · rw [hya]; exact (newIno_ok cr k m d dx).1.gid
    · intro b; rw [hya]; exact (newIno_attr cr k m d dx b).1
  have hinc : ∀ (t : Fs) (i : Nat), (∀ x, t.ino i = some x → ∃ y, (t.incOpen i).ino i = some y ∧ y.attr = x.attr) := by
    intro t i x hx
    rw [incOpen_ino]
    exact ⟨{ x with nopen := x.nopen + 1 }, by simp [hx], rfl⟩
  have hdec : ∀ (t : Fs) (i : Nat), (∀ x, t.ino i = some x → ∃ y, (t.decOpen i).ino i = some y ∧ y.attr = x.attr) := by
    intro t i x hx
    rw [decOpen_ino]
    exact ⟨{ x with nopen := x.nopen - 1 }, by simp [hx], rfl⟩
  rcases hop with rfl | ⟨rfl, rfl⟩ | ⟨bb, rfl⟩ | ⟨rfl, rfl⟩ | ⟨rfl, rfl, v, rfl⟩
  · simp only [Op.body, Fs.create] at hok ⊢
    cases hd : s.ino d with
    | none => rw [hd] at hok; cases hok
    | some dx =>
      rw [hd] at hok
      simp only at hok ⊢
      split at hok
      · cases hok
      · next hc =>
        try rw [hc]
        try simp only
        cases hm : s.make o cr d dx n k m with
        | error e => rw [hm] at hok; cases hok
        | ok r =>
          simp only
          have := key dx r.1 r.2 (r.2.incOpen r.1) hd hm (incOpen_ents _ _) (hinc _ _)
          rw [hd] at this
          exact this
  · simp only [Op.body, Fs.mknodReg, Fs.create] at hok ⊢
    cases hd : s.ino d with
    | none => rw [hd] at hok; cases hok
    | some dx =>
      rw [hd] at hok
      simp only at hok ⊢
      split at hok
      · next hx =>
        cases hok
      · next hx =>
        split at hx
        · cases hx
        · next hc =>
          try rw [hc]
          try simp only
          cases hm : s.make o cr d dx n .reg m with
          | error e => rw [hm] at hx; cases hx
          | ok r =>
            rw [hm] at hx
            simp only [Prod.mk.injEq, true_and] at hx
            rw [← hx]
            try simp only
            have hsp := (make_io.2 r.1 r.2 hm).2.1
            rw [hsp]
            simp only
            have := key dx r.1 r.2 ((r.2.incOpen r.1).decOpen r.1) hd hm
              ((decOpen_ents _ _).trans (incOpen_ents _ _)) (by
                intro x hx
                obtain ⟨y, hy, ha⟩ := hinc _ _ x hx
                obtain ⟨z, hz, hb⟩ := hdec _ _ y hy
                exact ⟨z, hz, hb.trans ha⟩)
            rw [hd] at this
            exact this
  · simp only [Op.body, Fs.mknodSpecial] at hok ⊢
    cases hd : s.ino d with
    | none => rw [hd] at hok; cases hok
    | some dx =>
      rw [hd] at hok
      simp only at hok ⊢
      split at hok
      · cases hok
      · next hc =>
        try rw [hc]
        try simp only
        cases hm : s.make o cr d dx n k m with
        | error e => rw [hm] at hok; cases hok
        | ok r =>
          simp only
          have := key dx r.1 r.2 (r.2.modIno r.1 (fun x => { x with pinned := true })) hd hm rfl (by
            intro x hx
            rw [modIno_get, if_pos rfl, hx]
            exact ⟨_, rfl, rfl⟩)
          rw [hd] at this
          exact this
  · simp only [Op.body, Fs.mkdir] at hok ⊢
    cases hd : s.ino d with
    | none => rw [hd] at hok; cases hok
    | some dx =>
      rw [hd] at hok
      simp only at hok ⊢
      split at hok
      · cases hok
      · next hc =>
        try rw [hc]
        try simp only
        cases hm : s.make o cr d dx n .dir m with
        | error e => rw [hm] at hok; cases hok
        | ok r =>
          simp only
          have := key dx r.1 r.2 r.2 hd hm rfl (fun x hx => ⟨x, hx, rfl⟩)
          rw [hd] at this
          exact this
  · simp only [Op.body, Fs.symlink] at hok ⊢
    cases hd : s.ino d with
    | none => rw [hd] at hok; cases hok
    | some dx =>
      rw [hd] at hok
      simp only at hok ⊢
      split at hok
      · cases hok
      · next hc =>
        try rw [hc]
        try simp only
        cases hm : s.make o cr d dx n .lnk 0o777 with
        | error e => rw [hm] at hok; cases hok
        | ok r =>
          simp only
          have := key dx r.1 r.2 r.2 hd hm rfl (fun x hx => ⟨x, hx, rfl⟩)
          rw [hd] at this
          exact this

/-- The hypotheses of C36 are met: user 5 creates a file with mode 0666 and umask 022 in the root
directory of a fresh file-system; the mode becomes 0644. -/
example :
    let s := Fs.init { kind := .dir, perm := 0o777, uid := 0, gid := 0 } 64
    let op := Op.create { uid := 5, gid := 6, umask := 0o22, host := 5 } 1 [97] .reg 0o666
    let r := op.body s { spawn := some 9 }
    r.1 = none ∧ r.2.look 1 [97] = some 9 ∧
    (r.2.ino 9).map (fun x => (x.attr.perm, x.attr.uid, x.attr.gid, x.nlink)) = some (0o644, 5, 6, 1) := by
  decide

/-- ... and those of C17_open_granted. -/
example :
    let s := Fs.init { kind := .dir, perm := 0o755, uid := 0, gid := 0 } 64
    ((Op.openDir { uid := 5, gid := 6, host := 5 } 1 {}).body s {}).1 = none := by decide

end Silofs.Ns
