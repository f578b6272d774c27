import Verif.Props.NameiInv
/-
Every API call preserves the invariant, keeps what is in use, and leaves nothing behind.
-/
set_option linter.unusedSimpArgs false
set_option linter.unusedVariables false
namespace Silofs.Ns

theorem Inv.noLoose {P : Nat → Prop} {s : Fs} (hi : Inv P s) {i : Nat} {x : Ino}
    (hx : s.ino i = some x) (hn : i = ROOT ∨ 0 < s.names i ∨ 0 < x.nopen) : x.loose = false := by
  cases hl : x.loose with
  | false => rfl
  | true =>
    exfalso
    obtain ⟨h1, h2⟩ := isOrphan_parts (hi.loose i x hx hl)
    unfold Ino.nlinkOrphan at h2
    cases hd : x.isDir with
    | false =>
      rw [hd] at h2
      have h3 : x.nlink = 0 := by simpa using h2
      have h4 := hi.core.file i x hx hd
      rcases hn with rfl | hn | hn
      · have := hi.core.root.1
        rw [isDirI_of hx, hd] at this
        exact absurd this (by decide)
      · omega
      · omega
    | true =>
      rw [hd] at h2
      have h3 : x.nlink ≤ 1 := by simp at h2; omega
      have h4 := hi.core.dir i x hx hd
      rcases hn with rfl | hn | hn
      · rw [if_pos rfl] at h4; omega
      · split at h4 <;> omega
      · omega

theorem names_pos {s : Fs} {e : Dent} (h : e ∈ s.ents) : 0 < s.names e.child := by
  unfold Fs.names
  rw [List.countP_pos_iff]
  exact ⟨e, h, by simp⟩

theorem names_pos_look {s : Fs} {d : Nat} {n : Name} {c : Nat} (h : s.look d n = some c) :
    0 < s.names c := names_pos (find_mem h)

theorem ne_root_look {s : Fs} (hc : Core s) {d : Nat} {n : Name} {c : Nat}
    (h : s.look d n = some c) : c ≠ ROOT := by
  rintro rfl
  have := names_pos_look h
  have := hc.root.2
  omega

/-- Only directories have entries. -/
theorem ndents_file {s : Fs} (hc : Core s) {i : Nat} (h : s.isDirI i = false) : s.ndents i = 0 := by
  rw [ndents_zero]
  rintro e he rfl
  rw [hc.dirOk e he] at h
  exact absurd h (by decide)

theorem delDent_ndents_zero {s : Fs} {d : Nat} {n : Name} {c : Nat} {b : Bool} {i : Nat}
    (h : s.ndents i = 0) : (s.delDent d n c b).ndents i = 0 := by
  rw [ndents_zero] at *
  intro e he
  rw [delDent_ents] at he
  exact h e (List.mem_filter.1 he).1

theorem Inv.del {P : Nat → Prop} {s : Fs} (hi : Inv P s) {d : Nat} {n : Name} {c : Nat} {x : Ino}
    (hx : s.ino c = some x) (hl : s.look d n = some c) :
    Inv (fun i => P i ∨ i = c) (s.delDent d n c x.isDir) :=
  ⟨hi.core.delDent hx hl, hi.anch.delDent hi.core _ hl, hi.loose.delDent _ _ _ _⟩

theorem Inv.bare {P : Nat → Prop} {s : Fs} {c : Nat} (hi : Inv (fun i => P i ∨ i = c) s)
    (h : s.ndents c = 0) : Inv P s := ⟨hi.core, hi.anch.bare h, hi.loose⟩

theorem Inv.add {P : Nat → Prop} {s : Fs} {c : Nat} (hi : Inv (fun i => P i ∨ i = c) s)
    {d : Nat} {n : Name} {x : Ino} {b : Bool} (hx : s.ino c = some x) (hb : x.isDir = b)
    (hxl : x.loose = false) (hd : s.isDirI d = true) (hdl : ∀ y, s.ino d = some y → y.loose = false)
    (hl : s.look d n = none) (hn : b = true → s.names c = 0) (hr : c ≠ ROOT)
    (ha : d = ROOT ∨ P d ∨ 0 < s.names d ∨ d = c) : Inv P (s.addDent d n c b) := by
  subst hb
  exact ⟨hi.core.addDent hd hx hl (fun h => ⟨hn h, hr⟩) hr, hi.anch.addDent _ ha,
    hi.loose.addDent (fun y hy => by rw [hx] at hy; cases hy; exact hxl) (fun _ => hdl)⟩

theorem No_or {c : Nat} {s : Fs} : Inv (fun i => No i ∨ i = c) s ↔ Inv (fun i => i = c) s := by
  have : (fun i => No i ∨ i = c) = (fun i => i = c) := by funext i; simp [No]
  rw [this]

theorem delDent_get {s : Fs} {c : Nat} {x : Ino} (hx : s.ino c = some x) (d : Nat) (n : Name)
    (c' : Nat) (b : Bool) : ∃ y, (s.delDent d n c' b).ino c = some y ∧ y.attr = x.attr ∧
      y.loose = x.loose ∧ y.nopen = x.nopen ∧ y.pinned = x.pinned ∧ y.data = x.data := by
  rw [delDent_ino, hx]
  exact ⟨_, rfl, rfl, rfl, rfl, rfl, rfl⟩

theorem addDent_get {s : Fs} {c : Nat} {x : Ino} (hx : s.ino c = some x) (d : Nat) (n : Name)
    (c' : Nat) (b : Bool) : ∃ y, (s.addDent d n c' b).ino c = some y ∧ y.attr = x.attr ∧
      y.loose = x.loose ∧ y.nopen = x.nopen ∧ y.pinned = x.pinned ∧ y.data = x.data := by
  rw [addDent_ino, hx]
  exact ⟨_, rfl, rfl, rfl, rfl, rfl, rfl⟩

theorem isDir_attr {x y : Ino} (h : y.attr = x.attr) : y.isDir = x.isDir := by
  unfold Ino.isDir; rw [h]

/-- A directory that has entries, or the root, or one that is named. -/
def Anchored (s : Fs) (d : Nat) : Prop := d = ROOT ∨ 0 < s.names d

theorem anchored_look {s : Fs} (hi : Inv No s) {d : Nat} {n : Name} {c : Nat}
    (h : s.look d n = some c) : Anchored s d := by
  rcases hi.anch _ (find_mem h) with h | h | h
  · exact .inl h
  · exact absurd h (fun h => h)
  · exact .inr h

/-- A directory that passes `check_add_dentry` has not been removed. -/
theorem anchored_nlink {s : Fs} (hi : Inv No s) {d : Nat} {x : Ino} (hx : s.ino d = some x)
    (hd : x.isDir = true) (hn : 2 ≤ x.nlink) : Anchored s d := by
  by_cases hr : d = ROOT
  · exact .inl hr
  · right
    have h := hi.core.dir d x hx hd
    rw [if_neg hr] at h
    by_cases h0 : s.subdirs d = 0
    · omega
    · have : 0 < s.subdirs d := by omega
      unfold Fs.subdirs at this
      rw [List.countP_pos_iff] at this
      obtain ⟨e, he, hh⟩ := this
      simp only [Bool.and_eq_true, beq_iff_eq] at hh
      rcases hi.anch e he with h1 | h1 | h1
      · exact absurd (hh.1 ▸ h1) hr
      · exact absurd h1 (fun h => h)
      · exact hh.1 ▸ h1

theorem anchored_loose {s : Fs} (hi : Inv No s) {d : Nat} (h : Anchored s d) :
    ∀ y, s.ino d = some y → y.loose = false := by
  intro y hy
  refine hi.noLoose hy ?_
  rcases h with h | h
  · exact .inl h
  · exact .inr (.inl h)

/-- The effect of moving an entry within a good state. -/
theorem inv_move {s : Fs} (hi : Inv No s) {d : Nat} {n : Name} {c : Nat} {x : Ino} {d2 : Nat}
    {n2 : Name} (hx : s.ino c = some x) (hl : s.look d n = some c) (hd2 : s.isDirI d2 = true)
    (ha2 : Anchored s d2) (hl2 : s.look d2 n2 = none) :
    Inv No ((s.delDent d n c x.isDir).addDent d2 n2 c x.isDir) := by
  obtain ⟨y, hy, hya, hyl, _⟩ := delDent_get hx d n c x.isDir
  have hnm := delDent_names hi.core x.isDir hl
  have hxl : x.loose = false := hi.noLoose hx (.inr (.inl (names_pos_look hl)))
  have hdir : y.isDir = x.isDir := isDir_attr hya
  have h1 := hi.del hx hl
  refine h1.add hy hdir (by rw [hyl, hxl]) (by rw [delDent_isDirI]; exact hd2) ?_ ?_ ?_
    (ne_root_look hi.core hl) ?_
  · intro z hz
    rw [delDent_ino, Option.map_eq_some_iff] at hz
    obtain ⟨w, hw, rfl⟩ := hz
    exact anchored_loose hi ha2 w hw
  · rw [delDent_look]
    split
    · rfl
    · exact hl2
  · intro hyd
    have := hi.core.once c (by rw [isDirI_of hx]; exact hyd)
    have := hnm c
    rw [if_pos rfl] at this
    omega
  · rcases ha2 with h | h
    · exact .inl h
    · by_cases hc : d2 = c
      · exact .inr (.inr (.inr hc))
      · have := hnm d2
        rw [if_neg hc] at this
        exact .inr (.inr (.inl (by omega)))

theorem inv_exchange {s : Fs} (hi : Inv No s) {d : Nat} {n : Name} {c : Nat} {x : Ino} {d2 : Nat}
    {n2 : Name} {c2 : Nat} {x2 : Ino} (hx : s.ino c = some x) (hl : s.look d n = some c)
    (hx2 : s.ino c2 = some x2) (hl2 : s.look d2 n2 = some c2) (hne : c ≠ c2) :
    Inv No ((((s.delDent d n c x.isDir).delDent d2 n2 c2 x2.isDir).addDent d2 n2 c x.isDir).addDent
      d n c2 x2.isDir) := by
  have hkey : ¬ (d2 = d ∧ n2 = n) := by
    rintro ⟨rfl, rfl⟩
    rw [hl] at hl2
    exact hne (by simpa using hl2)
  have hdd : s.isDirI d = true := hi.core.dirOk _ (find_mem hl)
  have hdd2 : s.isDirI d2 = true := hi.core.dirOk _ (find_mem hl2)
  have hal := anchored_look hi hl
  have hal2 := anchored_look hi hl2
  have hxl : x.loose = false := hi.noLoose hx (.inr (.inl (names_pos_look hl)))
  have hxl2 : x2.loose = false := hi.noLoose hx2 (.inr (.inl (names_pos_look hl2)))
  -- first removal
  have i1 := hi.del hx hl
  have n1 := delDent_names hi.core x.isDir hl
  obtain ⟨y, hy, hya, hyl, _⟩ := delDent_get hx d n c x.isDir
  obtain ⟨y2, hy2, hya2, hyl2, _⟩ := delDent_get hx2 d n c x.isDir
  have l1 : (s.delDent d n c x.isDir).look d2 n2 = some c2 := by
    rw [delDent_look, if_neg hkey]; exact hl2
  -- second removal
  have i2 := i1.del hy2 l1
  have n2' := delDent_names i1.core y2.isDir l1
  rw [isDir_attr hya2] at i2 n2'
  obtain ⟨z, hz, hza, hzl, _⟩ := delDent_get hy d2 n2 c2 x2.isDir
  obtain ⟨z2, hz2, hza2, hzl2, _⟩ := delDent_get hy2 d2 n2 c2 x2.isDir
  have hzd : z.isDir = x.isDir := isDir_attr (hza.trans hya)
  have hzd2 : z2.isDir = x2.isDir := isDir_attr (hza2.trans hya2)
  -- first addition
  have i3 : Inv (fun i => No i ∨ i = c2) ((((s.delDent d n c x.isDir).delDent d2 n2 c2 x2.isDir).addDent d2 n2 c x.isDir)) := by
    refine Inv.add (P := fun i => No i ∨ i = c2) ?_ hz hzd (by rw [hzl, hyl, hxl]) ?_ ?_ ?_ ?_ (ne_root_look hi.core hl) ?_
    · refine ⟨i2.core, i2.anch.mono ?_, i2.loose⟩
      rintro i ((h | h) | h)
      · exact .inl (.inl h)
      · exact .inr h
      · exact .inl (.inr h)
    · rw [delDent_isDirI, delDent_isDirI]; exact hdd2
    · intro w hw
      rw [delDent_ino, Option.map_eq_some_iff] at hw
      obtain ⟨w, hw, rfl⟩ := hw
      rw [delDent_ino, Option.map_eq_some_iff] at hw
      obtain ⟨w, hw, rfl⟩ := hw
      exact anchored_loose hi hal2 w hw
    · rw [delDent_look, if_pos ⟨rfl, rfl⟩]
    · intro hd
      have h1 := hi.core.once c (by rw [isDirI_of hx]; exact hd)
      have h2 := n1 c
      have h3 := n2' c
      rw [if_pos rfl] at h2
      rw [if_neg hne] at h3
      omega
    · rcases hal2 with h | h
      · exact .inl h
      · by_cases hc : d2 = c
        · exact .inr (.inr (.inr hc))
        · by_cases hc2 : d2 = c2
          · exact .inr (.inl (.inr hc2))
          · have h2 := n1 d2
            have h3 := n2' d2
            rw [if_neg hc] at h2
            rw [if_neg hc2] at h3
            exact .inr (.inr (.inl (by omega)))
  -- second addition
  obtain ⟨w, hw, hwa, hwl, _⟩ := addDent_get hz2 d2 n2 c x.isDir
  have hwd : w.isDir = x2.isDir := (isDir_attr hwa).trans hzd2
  have n3 := addDent_names ((s.delDent d n c x.isDir).delDent d2 n2 c2 x2.isDir) d2 n2 c x.isDir
  refine i3.add hw hwd (by rw [hwl, hzl2, hyl2, hxl2]) ?_ ?_ ?_ ?_ (ne_root_look hi.core hl2) ?_
  · rw [addDent_isDirI, delDent_isDirI, delDent_isDirI]; exact hdd
  · intro v hv
    rw [addDent_ino, Option.map_eq_some_iff] at hv
    obtain ⟨v, hv, rfl⟩ := hv
    rw [delDent_ino, Option.map_eq_some_iff] at hv
    obtain ⟨v, hv, rfl⟩ := hv
    rw [delDent_ino, Option.map_eq_some_iff] at hv
    obtain ⟨v, hv, rfl⟩ := hv
    exact anchored_loose hi hal v hv
  · rw [addDent_look, if_neg (fun h => hkey ⟨h.1.symm, h.2.symm⟩), delDent_look,
      if_neg (fun h => hkey ⟨h.1.symm, h.2.symm⟩), delDent_look, if_pos ⟨rfl, rfl⟩]
  · intro hd
    have h1 := hi.core.once c2 (by rw [isDirI_of hx2]; exact hd)
    have h2 := n1 c2
    have h3 := n2' c2
    have h4 := n3 c2
    rw [if_neg (fun h => hne h.symm)] at h2 h4
    rw [if_pos rfl] at h3
    omega
  · rcases hal with h | h
    · exact .inl h
    · by_cases hc : d = c2
      · exact .inr (.inr (.inr hc))
      · refine .inr (.inr (.inl ?_))
        have h2 := n1 d
        have h3 := n2' d
        have h4 := n3 d
        rw [if_neg hc] at h3
        omega

/-! ### remove_de_and_prune -/

structure RemRes (s : Fs) (d : Nat) (n : Name) (c : Nat) (b : Bool) (r : Option Err × Fs) : Prop where
  inv : Inv No r.2
  keeps : Keeps s r.2
  nonew : NoNew s r.2
  err : r.1 = none ∨ r.1 = some .eio
  ents : r.2.ents = s.ents ∨ r.2.ents = (s.delDent d n c b).ents
  done : r.1 = none → r.2.ents = (s.delDent d n c b).ents ∧
    ∀ j, j ≠ c → r.2.ino j = (s.delDent d n c b).ino j

theorem remPrune_res {s : Fs} (hi : Inv No s) {o : Orc} {rr : Rem} {d : Nat} {n : Name} {c : Nat}
    {x : Ino} (hx : s.ino c = some x) (hl : s.look d n = some c)
    (hb : x.isDir = true → s.ndents c = 0) :
    RemRes s d n c x.isDir (s.remPrune o rr d n c x.isDir) := by
  have hb' : s.ndents c = 0 := by
    cases h : x.isDir with
    | true => exact hb h
    | false => exact ndents_file hi.core (by rw [isDirI_of hx, h])
  have h1 : Inv No (s.delDent d n c x.isDir) := (hi.del hx hl).bare (delDent_ndents_zero hb')
  obtain ⟨k1, k2⟩ := keeps_delDent s d n c x.isDir
  unfold Fs.remPrune Fs.rem
  cases rr with
  | fail => exact ⟨hi, Keeps.refl s, fun _ h => h, .inr rfl, .inl rfl, by simp⟩
  | failAfter => exact ⟨h1, k1, k2, .inr rfl, .inr rfl, by simp⟩
  | ok =>
    have hp := prune_pruned (o := o) h1 c (fun h => h)
    exact ⟨h1.prune c (fun h => h), k1.trans hp.keeps hp.nonew, fun j hj => hp.nonew j (k2 j hj),
      prune_err o _ c h1.loose, .inr hp.ents, fun _ => ⟨hp.ents, hp.other⟩⟩

/-! ### Assumptions about callers and failures -/

/-- What the kernel guarantees about a request beyond what the library checks: a directory is not
renamed onto itself; hard links are made in directories that still have a name, to files that
still have a name or are open; only inodes that are still reachable are opened. -/
def Vfs (s : Fs) (op : Op) : Prop :=
  match op with
  | .rename _ d n d2 n2 _ => ∀ c, s.look d n = some c → s.look d2 n2 = some c → s.isDirI c = false
  | .link _ d _ i => Anchored s d ∧ (0 < s.names i ∨ ∃ x, s.ino i = some x ∧ 0 < x.nopen)
  | .openReg _ i _ => i = ROOT ∨ 0 < s.names i ∨ ∃ x, s.ino i = some x ∧ 0 < x.nopen
  | .openDir _ i _ => i = ROOT ∨ 0 < s.names i ∨ ∃ x, s.ino i = some x ∧ 0 < x.nopen
  | _ => True

/-- A rename that fails has not failed half-way with a directory in its hands. -/
def TearFree (s : Fs) (o : Orc) (op : Op) : Prop :=
  match op with
  | .rename _ d n d2 n2 f =>
    (op.body s o).1 = none ∨
    (∀ c, s.look d n = some c ∨ s.look d2 n2 = some c → s.isDirI c = false) ∨
    (o.rem1 ≠ .failAfter ∧ o.rem2 ≠ .failAfter ∧ o.add1 = false ∧ o.add2 = false ∧
      (f.exchange = true → o.rem2 = .ok))
  | _ => True

theorem isEmpty_ndents {s : Fs} {d : Nat} {x : Ino} (h : s.isEmpty d x = true) : s.ndents d = 0 := by
  unfold Fs.isEmpty at h
  simp at h
  omega

theorem mk_same (m : Mk) (s : Fs) (i : Nat) : Same s (m.app s i) := by
  have h1 : ∀ s : Fs, Same s (s.incOpen i) := by
    intro s
    unfold Fs.incOpen
    split
    · exact Same.refl s
    · next x hx => exact (same_setIno (y := { x with nopen := x.nopen + 1 }) hx rfl rfl rfl).trans ⟨rfl, fun _ => rfl⟩
  have h2 : ∀ s : Fs, Same s (s.decOpen i) := by
    intro s
    unfold Fs.decOpen
    split
    · exact Same.refl s
    · next x hx => exact (same_setIno (y := { x with nopen := x.nopen - 1 }) hx rfl rfl rfl).trans ⟨rfl, fun _ => rfl⟩
  cases m with
  | plain => exact Same.refl s
  | opened => exact h1 s
  | closed => exact (h1 s).trans (h2 _)
  | pin => exact same_modIno _ (fun _ => rfl) (fun _ => rfl) (fun _ => rfl)

theorem incOpen_ino (s : Fs) (i j : Nat) : (s.incOpen i).ino j =
    (s.ino j).map (fun x => { x with nopen := if j = i then x.nopen + 1 else x.nopen }) := by
  unfold Fs.incOpen
  split
  · next h =>
    by_cases hj : j = i
    · subst hj; rw [h]; rfl
    · simp only [if_neg hj]; cases s.ino j <;> rfl
  · next x hx =>
    show (s.setIno i _).ino j = _
    rw [setIno_get]
    by_cases hj : j = i
    · subst hj; rw [hx]; simp
    · simp only [if_neg hj]; cases s.ino j <;> rfl

theorem decOpen_ino (s : Fs) (i j : Nat) : (s.decOpen i).ino j =
    (s.ino j).map (fun x => { x with nopen := if j = i then x.nopen - 1 else x.nopen }) := by
  unfold Fs.decOpen
  split
  · next h =>
    by_cases hj : j = i
    · subst hj; rw [h]; rfl
    · simp only [if_neg hj]; cases s.ino j <;> rfl
  · next x hx =>
    show (s.setIno i _).ino j = _
    rw [setIno_get]
    by_cases hj : j = i
    · subst hj; rw [hx]; simp
    · simp only [if_neg hj]; cases s.ino j <;> rfl

theorem incOpen_ents (s : Fs) (i : Nat) : (s.incOpen i).ents = s.ents := by
  unfold Fs.incOpen; split <;> rfl

theorem decOpen_ents (s : Fs) (i : Nat) : (s.decOpen i).ents = s.ents := by
  unfold Fs.decOpen; split <;> rfl

theorem decOpen_same (s : Fs) (i : Nat) : Same s (s.decOpen i) :=
  ⟨decOpen_ents s i, fun j => by rw [decOpen_ino]; cases s.ino j <;> rfl⟩

theorem incOpen_same (s : Fs) (i : Nat) : Same s (s.incOpen i) :=
  ⟨incOpen_ents s i, fun j => by rw [incOpen_ino]; cases s.ino j <;> rfl⟩

theorem mk_other (m : Mk) (s : Fs) (i j : Nat) (h : j ≠ i) : (m.app s i).ino j = s.ino j := by
  cases m with
  | plain => rfl
  | opened => show (s.incOpen i).ino j = _; rw [incOpen_ino]; simp [h]
  | closed =>
    show ((s.incOpen i).decOpen i).ino j = _
    rw [decOpen_ino, incOpen_ino]; cases s.ino j <;> simp [h]
  | pin => show (s.modIno i _).ino j = _; rw [modIno_get, if_neg h]

theorem mk_loose (m : Mk) {s : Fs} {i : Nat} (h : LooseOk s) (hi : ∀ x, s.ino i = some x → x.loose = false) :
    LooseOk (m.app s i) := by
  intro j y hy hl
  by_cases hj : j = i
  · subst hj
    exfalso
    cases m with
    | plain => rw [hi y hy] at hl; exact absurd hl (by decide)
    | opened =>
      have hy' : (s.incOpen j).ino j = some y := hy
      rw [incOpen_ino, Option.map_eq_some_iff] at hy'
      obtain ⟨x, hx, rfl⟩ := hy'
      have : x.loose = true := hl
      rw [hi x hx] at this; exact absurd this (by decide)
    | closed =>
      have hy' : ((s.incOpen j).decOpen j).ino j = some y := hy
      rw [decOpen_ino, Option.map_eq_some_iff] at hy'
      obtain ⟨z, hz, rfl⟩ := hy'
      rw [incOpen_ino, Option.map_eq_some_iff] at hz
      obtain ⟨x, hx, rfl⟩ := hz
      have : x.loose = true := hl
      rw [hi x hx] at this; exact absurd this (by decide)
    | pin =>
      have hy' : (s.modIno j _).ino j = some y := hy
      rw [modIno_get, if_pos rfl, Option.map_eq_some_iff] at hy'
      obtain ⟨x, hx, rfl⟩ := hy'
      have : x.loose = true := hl
      rw [hi x hx] at this; exact absurd this (by decide)
  · rw [mk_other m s i j hj] at hy
    exact h j y hy hl

theorem LooseOk.incOpen {s : Fs} (h : LooseOk s) {i : Nat} (hi : ∀ x, s.ino i = some x → x.loose = false) :
    LooseOk (s.incOpen i) := mk_loose .opened h hi

theorem LooseOk.decOpen {s : Fs} (h : LooseOk s) (i : Nat) : LooseOk (s.decOpen i) := by
  intro j y hy hl
  rw [decOpen_ino, Option.map_eq_some_iff] at hy
  obtain ⟨x, hx, rfl⟩ := hy
  have h1 := h j x hx hl
  obtain ⟨h2, _⟩ := isOrphan_parts h1
  refine isOrphan_mono h1 rfl (Nat.le_refl _) ?_
  simp only
  split <;> omega

theorem make_inv {s : Fs} (hi : Inv No s) {cr : Cred} {d : Nat} {dx : Ino} {n : Name} {i : Nat} {x : Ino}
    (hd : DirW s cr d dx) (hn : 2 ≤ dx.nlink) (hl : s.look d n = none) (hx : s.ino i = none)
    (hnew : NewOk cr x) : Inv No ((s.setIno i (some x)).addDent d n i x.isDir) := by
  have hdi : d ≠ i := by
    rintro rfl; rw [hd.ino] at hx; cases hx
  have hc1 : Core (s.setIno i (some x)) := by
    refine hi.core.spawn hx ?_ ?_
    · intro h; rw [hnew.nlink, h]; rfl
    · intro h; rw [hnew.nlink, h]; rfl
  have hno := no_entry_of_none hi.core hx
  have hanc := anchored_nlink hi hd.ino hd.isdir hn
  have hi1 : Inv (fun j => No j ∨ j = i) (s.setIno i (some x)) := by
    refine ⟨hc1, ?_, hi.loose.set (by rw [hnew.loose]; intro h; exact absurd h (by decide))⟩
    intro e he
    rcases hi.anch e he with h | h | h
    · exact .inl h
    · exact .inr (.inl (.inl h))
    · exact .inr (.inr h)
  have hr : i ≠ ROOT := by
    rintro rfl
    have := hi.core.root.1
    unfold Fs.isDirI at this
    rw [hx] at this
    exact absurd this (by decide)
  refine hi1.add (by rw [setIno_get, if_pos rfl]) rfl hnew.loose ?_ ?_ hl ?_ hr ?_
  · rw [isDirI_setIno_ne _ hdi, isDirI_of hd.ino]; exact hd.isdir
  · intro y hy
    rw [setIno_get, if_neg hdi] at hy
    exact anchored_loose hi hanc y hy
  · intro _
    exact names_zero.2 (fun e he => (hno e he).2)
  · rcases hanc with h | h
    · exact .inl h
    · exact .inr (.inr (.inl h))

theorem setIno_undo {s : Fs} {i : Nat} {x : Ino} (hx : s.ino i = none) :
    (s.setIno i (some x)).setIno i none = s := by
  unfold Fs.setIno
  have : (fun j => if j = i then none else if j = i then some x else s.ino j) = s.ino := by
    funext j
    by_cases h : j = i
    · subst h; simp [hx]
    · simp [h]
  simp only [this]

/-- What is known about the state after an operation has done its work. -/
structure Res (s : Fs) (op : Op) (t : Fs) : Prop where
  inv : Inv No t
  keeps : Keeps s t ∨
    (∃ i x, s.ino i = some x ∧ ((∃ cr f, op = .openReg cr i f) ∨ (∃ cr f, op = .openDir cr i f)) ∧ t = s.incOpen i) ∨
    (∃ i x, s.ino i = some x ∧ 0 < x.nopen ∧ (∃ b f, op = .release i b f) ∧ Keeps (s.decOpen i) t)

theorem renameMove_cases {s : Fs} {o : Orc} {d : Nat} {n : Name} {d2 : Nat} {n2 : Name} {dx2 : Ino}
    {c : Nat} {b : Bool} (hca : s.checkAddDentry d2 dx2 n2 = none) :
    let r := s.renameMove o d n d2 n2 dx2 c b
    (r = (some .eio, s) ∧ o.rem1 = .fail) ∨
    (r = (some .eio, s.delDent d n c b) ∧ o.rem1 = .failAfter) ∨
    (r = (some .enospc, s.delDent d n c b) ∧ o.rem1 = .ok ∧ o.add1 = true) ∨
    (r = (none, (s.delDent d n c b).addDent d2 n2 c b) ∧ o.rem1 = .ok ∧ o.add1 = false) := by
  intro r
  show (s.renameMove o d n d2 n2 dx2 c b = _ ∧ _) ∨ (s.renameMove o d n d2 n2 dx2 c b = _ ∧ _) ∨
    (s.renameMove o d n d2 n2 dx2 c b = _ ∧ _) ∨ (s.renameMove o d n d2 n2 dx2 c b = _ ∧ _)
  unfold Fs.renameMove Fs.rem Fs.add
  rw [hca]
  cases o.rem1 <;> cases o.add1 <;> simp

theorem renameExchange_cases {s : Fs} {o : Orc} {d : Nat} {n : Name} {d2 : Nat} {n2 : Name}
    {c : Nat} {b : Bool} {c2 : Nat} {b2 : Bool} :
    let r := s.renameExchange o d n d2 n2 c b c2 b2
    (r = (some .eio, s) ∧ o.rem1 = .fail) ∨
    (r = (some .eio, s.delDent d n c b) ∧ (o.rem1 = .failAfter ∨ (o.rem1 = .ok ∧ o.rem2 = .fail))) ∨
    ((r = (some .eio, (s.delDent d n c b).delDent d2 n2 c2 b2) ∨
      r = (some .enospc, (s.delDent d n c b).delDent d2 n2 c2 b2)) ∧ o.rem1 = .ok ∧
      (o.rem2 = .failAfter ∨ (o.rem2 = .ok ∧ o.add1 = true))) ∨
    (r = (some .enospc, ((s.delDent d n c b).delDent d2 n2 c2 b2).addDent d2 n2 c b) ∧ o.rem1 = .ok ∧
      o.rem2 = .ok ∧ o.add1 = false ∧ o.add2 = true) ∨
    (r = (none, (((s.delDent d n c b).delDent d2 n2 c2 b2).addDent d2 n2 c b).addDent d n c2 b2) ∧
      o.rem1 = .ok ∧ o.rem2 = .ok ∧ o.add1 = false ∧ o.add2 = false) := by
  intro r
  have hr : r = s.renameExchange o d n d2 n2 c b c2 b2 := rfl
  rw [hr]
  unfold Fs.renameExchange Fs.rem Fs.add
  cases o.rem1 <;> cases o.rem2 <;> cases o.add1 <;> cases o.add2 <;> simp

end Silofs.Ns
