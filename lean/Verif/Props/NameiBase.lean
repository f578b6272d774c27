import Verif.Model.Namei
/-
Invariant of the name-space and its preservation by the primitive updates.
-/
set_option linter.unusedSimpArgs false
set_option linter.unusedVariables false
namespace Silofs.Ns

/-! ### Specification vocabulary -/

/-- Number of directory entries that name inode `i`. -/
def Fs.names (s : Fs) (i : Nat) : Nat := s.ents.countP (fun e => e.child == i)

def Fs.isDirI (s : Fs) (i : Nat) : Bool :=
  match s.ino i with
  | some x => x.isDir
  | none => false

/-- Number of entries in directory `d` that name a directory. -/
def Fs.subdirs (s : Fs) (d : Nat) : Nat :=
  s.ents.countP (fun e => e.dir == d && s.isDirI e.child)

/-- A step leaves the link counts and parents exactly right. -/
structure Core (s : Fs) : Prop where
  keys : (s.ents.map (fun e => (e.dir, e.name))).Nodup
  dirOk : ∀ e ∈ s.ents, s.isDirI e.dir = true
  childOk : ∀ e ∈ s.ents, ∃ x, s.ino e.child = some x
  file : ∀ i x, s.ino i = some x → x.isDir = false → x.nlink = s.names i
  dir : ∀ i x, s.ino i = some x → x.isDir = true →
    x.nlink = (if i = ROOT then 2 else 1) + s.names i + s.subdirs i
  once : ∀ i, s.isDirI i = true → s.names i ≤ 1
  root : s.isDirI ROOT = true ∧ s.names ROOT = 0
  par : ∀ e ∈ s.ents, ∀ x, s.ino e.child = some x → x.isDir = true → x.parent = e.dir

/-- Only named directories (and the root) have entries. -/
def Anch (s : Fs) : Prop := ∀ e ∈ s.ents, e.dir = ROOT ∨ 0 < s.names e.dir

/-- Only inodes neither named nor open are marked for disposal. -/
def LooseOk (s : Fs) : Prop := ∀ i x, s.ino i = some x → x.loose = true → x.isOrphan = true

/-! ### Lists -/

theorem find_mem {s : Fs} {d : Nat} {n : Name} {c : Nat} (h : s.look d n = some c) :
    ⟨d, n, c⟩ ∈ s.ents := by
  unfold Fs.look at h
  rw [Option.map_eq_some_iff] at h
  obtain ⟨e, he, hc⟩ := h
  have h1 := List.mem_of_find?_eq_some he
  have h2 := List.find?_some he
  simp only [Bool.and_eq_true, beq_iff_eq] at h2
  obtain ⟨a, b, c'⟩ := e
  simp only at h2 hc
  obtain ⟨rfl, rfl⟩ := h2
  subst hc
  exact h1

theorem find_none {s : Fs} {d : Nat} {n : Name} (h : s.look d n = none) :
    ∀ e ∈ s.ents, ¬ (e.dir = d ∧ e.name = n) := by
  unfold Fs.look at h
  rw [Option.map_eq_none_iff, List.find?_eq_none] at h
  intro e he hh
  apply h e he
  simp [hh]

theorem find_of_mem {s : Fs} (hk : (s.ents.map (fun e => (e.dir, e.name))).Nodup) {e : Dent}
    (he : e ∈ s.ents) : s.look e.dir e.name = some e.child := by
  unfold Fs.look
  rw [Option.map_eq_some_iff]
  refine ⟨e, ?_, rfl⟩
  generalize s.ents = l at hk he
  induction l with
  | nil => exact absurd he List.not_mem_nil
  | cons a l ih =>
    simp only [List.map_cons, List.nodup_cons] at hk
    rcases List.mem_cons.1 he with rfl | he'
    · simp
    · have hne : ¬ (a.dir = e.dir ∧ a.name = e.name) := by
        intro hh
        apply hk.1
        exact List.mem_map.2 ⟨e, he', by rw [hh.1, hh.2]⟩
      rw [List.find?_cons_of_neg (by simpa using hne)]
      exact ih hk.2 he'

theorem look_iff {s : Fs} (hk : (s.ents.map (fun e => (e.dir, e.name))).Nodup) (d : Nat) (n : Name)
    (c : Nat) : s.look d n = some c ↔ ⟨d, n, c⟩ ∈ s.ents :=
  ⟨find_mem, fun h => find_of_mem hk h⟩

/-- Removing the one entry with key `(d, n)` lowers a count by its contribution. -/
theorem countP_del (l : List Dent) (hk : (l.map (fun e => (e.dir, e.name))).Nodup) (e : Dent)
    (he : e ∈ l) (p : Dent → Bool) :
    l.countP p = (l.filter (fun a => !(a.dir == e.dir && a.name == e.name))).countP p +
      (if p e then 1 else 0) := by
  induction l with
  | nil => exact absurd he List.not_mem_nil
  | cons a l ih =>
    simp only [List.map_cons, List.nodup_cons] at hk
    rcases List.mem_cons.1 he with rfl | he'
    · have hf : l.filter (fun a => !(a.dir == e.dir && a.name == e.name)) = l := by
        rw [List.filter_eq_self]
        intro b hb
        have : ¬ (b.dir = e.dir ∧ b.name = e.name) := by
          intro hh
          exact hk.1 (List.mem_map.2 ⟨b, hb, by rw [hh.1, hh.2]⟩)
        simp only [Bool.not_eq_true', Bool.and_eq_false_iff, beq_eq_false_iff_ne]
        exact Classical.not_and_iff_not_or_not.1 this
      rw [List.filter_cons_of_neg (by simp), hf, List.countP_cons]
    · have hne : ¬ (a.dir = e.dir ∧ a.name = e.name) := by
        intro hh
        exact hk.1 (List.mem_map.2 ⟨e, he', by rw [hh.1, hh.2]⟩)
      rw [List.filter_cons_of_pos (by
          simp only [Bool.not_eq_true', Bool.and_eq_false_iff, beq_eq_false_iff_ne]
          exact Classical.not_and_iff_not_or_not.1 hne), List.countP_cons, List.countP_cons,
        ih hk.2 he']
      omega

theorem nodup_filter_keys {l : List Dent} (hk : (l.map (fun e => (e.dir, e.name))).Nodup)
    (p : Dent → Bool) : ((l.filter p).map (fun e => (e.dir, e.name))).Nodup :=
  List.Nodup.sublist (List.Sublist.map _ List.filter_sublist) hk

/-! ### Frame: updates that keep kind, link count and parent -/

/-- Same entries; same kind, link count and parent of every inode. -/
structure Same (s t : Fs) : Prop where
  ents : t.ents = s.ents
  ino : ∀ i, (t.ino i).map (fun x => (x.attr.kind, x.nlink, x.parent)) =
    (s.ino i).map (fun x => (x.attr.kind, x.nlink, x.parent))

theorem Same.refl (s : Fs) : Same s s := ⟨rfl, fun _ => rfl⟩

theorem Same.trans {s t u : Fs} (h : Same s t) (h2 : Same t u) : Same s u :=
  ⟨h2.ents.trans h.ents, fun i => (h2.ino i).trans (h.ino i)⟩

theorem Same.get {s t : Fs} (h : Same s t) {i : Nat} {y : Ino} (hy : t.ino i = some y) :
    ∃ x, s.ino i = some x ∧ x.isDir = y.isDir ∧ x.nlink = y.nlink ∧ x.parent = y.parent := by
  have := h.ino i
  rw [hy] at this
  simp only [Option.map_some] at this
  rw [eq_comm, Option.map_eq_some_iff] at this
  obtain ⟨x, hx, he⟩ := this
  simp only [Prod.mk.injEq] at he
  exact ⟨x, hx, by simp [Ino.isDir, he.1], he.2.1, he.2.2⟩

theorem Same.symm {s t : Fs} (h : Same s t) : Same t s :=
  ⟨h.ents.symm, fun i => (h.ino i).symm⟩

theorem Same.isDirI {s t : Fs} (h : Same s t) (i : Nat) : t.isDirI i = s.isDirI i := by
  unfold Fs.isDirI
  cases hy : t.ino i with
  | none =>
    have := h.ino i
    rw [hy] at this
    simp only [Option.map_none] at this
    rw [eq_comm, Option.map_eq_none_iff] at this
    rw [this]
  | some y =>
    obtain ⟨x, hx, hd, _⟩ := h.get hy
    rw [hx]
    exact hd.symm

theorem Same.names {s t : Fs} (h : Same s t) (i : Nat) : t.names i = s.names i := by
  unfold Fs.names; rw [h.ents]

theorem Same.subdirs {s t : Fs} (h : Same s t) (i : Nat) : t.subdirs i = s.subdirs i := by
  unfold Fs.subdirs
  rw [h.ents]
  apply List.countP_congr
  intro e _
  rw [h.isDirI]

theorem Same.look {s t : Fs} (h : Same s t) (d : Nat) (n : Name) : t.look d n = s.look d n := by
  unfold Fs.look; rw [h.ents]

theorem Same.ndents {s t : Fs} (h : Same s t) (d : Nat) : t.ndents d = s.ndents d := by
  unfold Fs.ndents; rw [h.ents]

theorem Core.same {s t : Fs} (hc : Core s) (h : Same s t) : Core t where
  keys := by rw [h.ents]; exact hc.keys
  dirOk := by rw [h.ents]; intro e he; rw [h.isDirI]; exact hc.dirOk e he
  childOk := by
    rw [h.ents]; intro e he
    obtain ⟨x, hx⟩ := hc.childOk e he
    obtain ⟨y, hy, _⟩ := h.symm.get hx
    exact ⟨y, hy⟩
  file := by
    intro i y hy hf
    obtain ⟨x, hx, hd, hn, hp⟩ := h.get hy
    rw [h.names, ← hn]; exact hc.file i x hx (by rw [hd, hf])
  dir := by
    intro i y hy hf
    obtain ⟨x, hx, hd, hn, hp⟩ := h.get hy
    rw [h.names, h.subdirs, ← hn]; exact hc.dir i x hx (by rw [hd, hf])
  once := by intro i hi; rw [h.names]; rw [h.isDirI] at hi; exact hc.once i hi
  root := by rw [h.isDirI, h.names]; exact hc.root
  par := by
    rw [h.ents]; intro e he y hy hf
    obtain ⟨x, hx, hd, hn, hp⟩ := h.get hy
    rw [← hp]; exact hc.par e he x hx (by rw [hd, hf])

theorem Anch.same {s t : Fs} (ha : Anch s) (h : Same s t) : Anch t := by
  intro e he
  rw [h.names]
  rw [h.ents] at he
  exact ha e he

theorem same_setIno {s : Fs} {i : Nat} {x y : Ino} (hx : s.ino i = some x)
    (hk : y.attr.kind = x.attr.kind) (hn : y.nlink = x.nlink) (hp : y.parent = x.parent) :
    Same s (s.setIno i (some y)) := by
  refine ⟨rfl, fun j => ?_⟩
  simp only [Fs.setIno]
  split
  · next h => subst h; rw [hx]; simp [hk, hn, hp]
  · rfl

theorem same_modIno {s : Fs} {i : Nat} (f : Ino → Ino) (hk : ∀ x, (f x).attr.kind = x.attr.kind)
    (hn : ∀ x, (f x).nlink = x.nlink) (hp : ∀ x, (f x).parent = x.parent) :
    Same s (s.modIno i f) := by
  refine ⟨rfl, fun j => ?_⟩
  simp only [Fs.modIno, Fs.setIno]
  split
  · next h =>
    subst h
    cases s.ino j with
    | none => rfl
    | some x => simp [hk, hn, hp]
  · rfl

/-! ### Adding an entry -/

theorem setIno_get (s : Fs) (i j : Nat) (x : Option Ino) :
    (s.setIno i x).ino j = if j = i then x else s.ino j := rfl

theorem modIno_get (s : Fs) (i j : Nat) (f : Ino → Ino) :
    (s.modIno i f).ino j = if j = i then (s.ino i).map f else s.ino j := rfl

theorem addDent_ents (s : Fs) (d : Nat) (n : Name) (c : Nat) (b : Bool) :
    (s.addDent d n c b).ents = ⟨d, n, c⟩ :: s.ents := by
  unfold Fs.addDent; split <;> rfl

theorem delDent_ents (s : Fs) (d : Nat) (n : Name) (c : Nat) (b : Bool) :
    (s.delDent d n c b).ents = s.ents.filter (fun e => !(e.dir == d && e.name == n)) := by
  unfold Fs.delDent; split <;> rfl

/-- The inodes after adding an entry. -/
theorem addDent_ino (s : Fs) (d : Nat) (n : Name) (c : Nat) (b : Bool) (j : Nat) :
    (s.addDent d n c b).ino j = (s.ino j).map (fun x =>
      { x with nlink := x.nlink + (if j = c then 1 else 0) + (if b = true ∧ j = d then 1 else 0),
               parent := if j = c then d else x.parent }) := by
  unfold Fs.addDent
  cases b
  · simp only [Bool.false_eq_true, if_false, false_and, Nat.add_zero, modIno_get]
    by_cases h : j = c
    · subst h; simp
    · simp [h]
  · simp only [if_true, true_and, modIno_get]
    by_cases h : j = c
    · subst h
      by_cases h2 : j = d
      · subst h2; cases h3 : s.ino j <;> simp
      · simp [h2]
    · by_cases h2 : j = d
      · subst h2; simp [h]
      · simp [h, h2]

theorem delDent_ino (s : Fs) (d : Nat) (n : Name) (c : Nat) (b : Bool) (j : Nat) :
    (s.delDent d n c b).ino j = (s.ino j).map (fun x =>
      { x with nlink := x.nlink - (if j = c then 1 else 0) - (if b = true ∧ j = d then 1 else 0),
               parent := if j = c ∧ x.parent = d then 0 else x.parent }) := by
  unfold Fs.delDent
  cases b
  · simp only [Bool.false_eq_true, if_false, false_and, Nat.sub_zero, modIno_get]
    by_cases h : j = c
    · subst h; simp
    · simp [h]
  · simp only [if_true, true_and, modIno_get]
    by_cases h : j = c
    · subst h
      by_cases h2 : j = d
      · subst h2; cases h3 : s.ino j <;> simp
      · simp [h2]
    · by_cases h2 : j = d
      · subst h2; simp [h]
      · simp [h, h2]

theorem isDirI_map {s t : Fs} {i : Nat} {f : Ino → Ino} (h : t.ino i = (s.ino i).map f)
    (hf : ∀ x, (f x).attr = x.attr) : t.isDirI i = s.isDirI i := by
  unfold Fs.isDirI
  rw [h]
  cases s.ino i with
  | none => rfl
  | some x => simp [Ino.isDir, hf]

theorem addDent_isDirI (s : Fs) (d : Nat) (n : Name) (c : Nat) (b : Bool) (j : Nat) :
    (s.addDent d n c b).isDirI j = s.isDirI j :=
  isDirI_map (addDent_ino s d n c b j) (fun _ => rfl)

theorem delDent_isDirI (s : Fs) (d : Nat) (n : Name) (c : Nat) (b : Bool) (j : Nat) :
    (s.delDent d n c b).isDirI j = s.isDirI j :=
  isDirI_map (delDent_ino s d n c b j) (fun _ => rfl)

theorem addDent_names (s : Fs) (d : Nat) (n : Name) (c : Nat) (b : Bool) (j : Nat) :
    (s.addDent d n c b).names j = s.names j + (if j = c then 1 else 0) := by
  unfold Fs.names
  rw [addDent_ents, List.countP_cons]
  by_cases h : j = c
  · subst h; simp
  · have : ¬ c = j := fun h' => h h'.symm
    simp [h, this]

theorem addDent_subdirs (s : Fs) (d : Nat) (n : Name) (c : Nat) (b : Bool) (j : Nat) :
    (s.addDent d n c b).subdirs j =
      s.subdirs j + (if s.isDirI c = true ∧ j = d then 1 else 0) := by
  unfold Fs.subdirs
  rw [addDent_ents, List.countP_cons]
  congr 1
  · apply List.countP_congr
    intro e _
    rw [addDent_isDirI]
  · rw [addDent_isDirI]
    by_cases h : j = d
    · subst h; simp
    · have : ¬ d = j := fun h' => h h'.symm
      simp [h, this]

theorem delDent_names {s : Fs} (hc : Core s) {d : Nat} {n : Name} {c : Nat} (b : Bool)
    (hl : s.look d n = some c) (j : Nat) :
    s.names j = (s.delDent d n c b).names j + (if j = c then 1 else 0) := by
  unfold Fs.names
  rw [delDent_ents, countP_del s.ents hc.keys ⟨d, n, c⟩ (find_mem hl)]
  congr 1
  by_cases h : j = c
  · subst h; simp
  · have : ¬ c = j := fun h' => h h'.symm
    simp [h, this]

theorem delDent_subdirs {s : Fs} (hc : Core s) {d : Nat} {n : Name} {c : Nat} (b : Bool)
    (hl : s.look d n = some c) (j : Nat) :
    s.subdirs j = (s.delDent d n c b).subdirs j + (if s.isDirI c = true ∧ j = d then 1 else 0) := by
  unfold Fs.subdirs
  rw [delDent_ents, countP_del s.ents hc.keys ⟨d, n, c⟩ (find_mem hl)]
  congr 1
  · apply List.countP_congr
    intro e _
    rw [delDent_isDirI]
  · by_cases h : j = d
    · subst h; simp
    · have : ¬ d = j := fun h' => h h'.symm
      simp [h, this]

theorem isDirI_of {s : Fs} {i : Nat} {x : Ino} (h : s.ino i = some x) : s.isDirI i = x.isDir := by
  unfold Fs.isDirI; rw [h]

theorem Core.addDent {s : Fs} (hc : Core s) {d : Nat} {n : Name} {c : Nat} {x : Ino}
    (hd : s.isDirI d = true) (hx : s.ino c = some x) (hl : s.look d n = none)
    (hn : x.isDir = true → s.names c = 0 ∧ c ≠ ROOT) (hroot : c ≠ ROOT) :
    Core (s.addDent d n c x.isDir) where
  keys := by
    rw [addDent_ents, List.map_cons, List.nodup_cons]
    refine ⟨?_, hc.keys⟩
    intro h
    obtain ⟨e, he, hh⟩ := List.mem_map.1 h
    simp only [Prod.mk.injEq] at hh
    exact find_none hl e he hh
  dirOk := by
    intro e he
    rw [addDent_ents] at he
    rw [addDent_isDirI]
    rcases List.mem_cons.1 he with rfl | he
    · exact hd
    · exact hc.dirOk e he
  childOk := by
    intro e he
    rw [addDent_ents] at he
    rw [addDent_ino]
    rcases List.mem_cons.1 he with rfl | he
    · simp [hx]
    · obtain ⟨y, hy⟩ := hc.childOk e he
      simp [hy]
  file := by
    intro i y hy hf
    rw [addDent_ino, Option.map_eq_some_iff] at hy
    obtain ⟨z, hz, rfl⟩ := hy
    have hzf : z.isDir = false := hf
    rw [addDent_names]
    have := hc.file i z hz hzf
    have hne : ¬ (x.isDir = true ∧ i = d) := by
      rintro ⟨_, rfl⟩
      rw [isDirI_of hz, hzf] at hd; exact absurd hd (by decide)
    simp only [if_neg hne]
    omega
  dir := by
    intro i y hy hf
    rw [addDent_ino, Option.map_eq_some_iff] at hy
    obtain ⟨z, hz, rfl⟩ := hy
    have hzf : z.isDir = true := hf
    rw [addDent_names, addDent_subdirs, isDirI_of hx]
    have := hc.dir i z hz hzf
    simp only
    omega
  once := by
    intro i hi
    rw [addDent_isDirI] at hi
    rw [addDent_names]
    by_cases h : i = c
    · subst h
      rw [isDirI_of hx] at hi
      have := (hn hi).1
      simp [this]
    · have := hc.once i hi
      simpa [h] using this
  root := by
    rw [addDent_isDirI, addDent_names]
    refine ⟨hc.root.1, ?_⟩
    have : ¬ ROOT = c := fun h => hroot h.symm
    simp [this, hc.root.2]
  par := by
    intro e he y hy hf
    rw [addDent_ents] at he
    rw [addDent_ino, Option.map_eq_some_iff] at hy
    obtain ⟨z, hz, rfl⟩ := hy
    have hzf : z.isDir = true := hf
    rcases List.mem_cons.1 he with rfl | he
    · simp
    · have hp := hc.par e he z hz hzf
      by_cases h : e.child = c
      · exfalso
        rw [h] at hz
        rw [hx] at hz
        cases hz
        have h0 := (hn hzf).1
        unfold Fs.names at h0
        rw [List.countP_eq_zero] at h0
        exact h0 e he (by simp [h])
      · simp only [if_neg h]; exact hp

theorem Core.delDent {s : Fs} (hc : Core s) {d : Nat} {n : Name} {c : Nat} {x : Ino}
    (hx : s.ino c = some x) (hl : s.look d n = some c) :
    Core (s.delDent d n c x.isDir) where
  keys := by rw [delDent_ents]; exact nodup_filter_keys hc.keys _
  dirOk := by
    intro e he
    rw [delDent_ents] at he
    rw [delDent_isDirI]
    exact hc.dirOk e (List.mem_filter.1 he).1
  childOk := by
    intro e he
    rw [delDent_ents] at he
    obtain ⟨y, hy⟩ := hc.childOk e (List.mem_filter.1 he).1
    rw [delDent_ino]
    simp [hy]
  file := by
    intro i y hy hf
    rw [delDent_ino, Option.map_eq_some_iff] at hy
    obtain ⟨z, hz, rfl⟩ := hy
    have hzf : z.isDir = false := hf
    have h1 := hc.file i z hz hzf
    have h2 := delDent_names hc x.isDir hl i
    have hd := hc.dirOk _ (find_mem hl)
    have hne : ¬ (x.isDir = true ∧ i = d) := by
      rintro ⟨_, rfl⟩
      simp only at hd
      rw [isDirI_of hz, hzf] at hd; exact absurd hd (by decide)
    simp only [if_neg hne]
    omega
  dir := by
    intro i y hy hf
    rw [delDent_ino, Option.map_eq_some_iff] at hy
    obtain ⟨z, hz, rfl⟩ := hy
    have hzf : z.isDir = true := hf
    have h1 := hc.dir i z hz hzf
    have h2 := delDent_names hc x.isDir hl i
    have h3 := delDent_subdirs hc x.isDir hl i
    rw [isDirI_of hx] at h3
    simp only
    omega
  once := by
    intro i hi
    rw [delDent_isDirI] at hi
    have h1 := hc.once i hi
    have h2 := delDent_names hc x.isDir hl i
    omega
  root := by
    rw [delDent_isDirI]
    refine ⟨hc.root.1, ?_⟩
    have h2 := delDent_names hc x.isDir hl ROOT
    have := hc.root.2
    omega
  par := by
    intro e he y hy hf
    rw [delDent_ents] at he
    have hef := List.mem_filter.1 he
    rw [delDent_ino, Option.map_eq_some_iff] at hy
    obtain ⟨z, hz, rfl⟩ := hy
    have hzf : z.isDir = true := hf
    have hp := hc.par e hef.1 z hz hzf
    by_cases h : e.child = c
    · exfalso
      have h1 := hc.once c (by rw [← h, isDirI_of hz]; exact hzf)
      have h2 := delDent_names hc x.isDir hl c
      rw [if_pos rfl] at h2
      have h3 : 0 < (s.delDent d n c x.isDir).names c := by
        unfold Fs.names
        rw [List.countP_pos_iff]
        exact ⟨e, by rw [delDent_ents]; exact he, by simp [h]⟩
      omega
    · have : ¬ (e.child = c ∧ z.parent = d) := fun hh => h hh.1
      simp only [if_neg this]; exact hp

/-- A removed entry is gone. -/
theorem delDent_look (s : Fs) (d : Nat) (n : Name) (c : Nat) (b : Bool) (d' : Nat) (n' : Name) :
    (s.delDent d n c b).look d' n' = if d' = d ∧ n' = n then none else s.look d' n' := by
  unfold Fs.look
  rw [delDent_ents, List.find?_filter]
  split
  · next h =>
    obtain ⟨rfl, rfl⟩ := h
    rw [Option.map_eq_none_iff, List.find?_eq_none]
    intro e _
    cases h1 : (e.dir == d' && e.name == n') <;> simp
  · next h =>
    congr 2
    funext e
    by_cases h1 : e.dir = d'
    · by_cases h2 : e.name = n'
      · simp [h1, h2]
        exact Classical.not_and_iff_not_or_not.1 h
      · simp [h2]
    · simp [h1]

theorem addDent_look (s : Fs) (d : Nat) (n : Name) (c : Nat) (b : Bool) (d' : Nat) (n' : Name) :
    (s.addDent d n c b).look d' n' = if d' = d ∧ n' = n then some c else s.look d' n' := by
  unfold Fs.look
  rw [addDent_ents]
  split
  · next h => obtain ⟨rfl, rfl⟩ := h; simp
  · next h =>
    rw [List.find?_cons_of_neg]
    simp only [Bool.and_eq_true, beq_iff_eq]
    rintro ⟨rfl, rfl⟩
    exact h ⟨rfl, rfl⟩

/-! ### Creating and erasing an inode -/

theorem no_entry_of_none {s : Fs} (hc : Core s) {i : Nat} (hi : s.ino i = none) :
    ∀ e ∈ s.ents, e.dir ≠ i ∧ e.child ≠ i := by
  intro e he
  constructor
  · intro h
    have := hc.dirOk e he
    unfold Fs.isDirI at this
    rw [h, hi] at this
    exact absurd this (by decide)
  · intro h
    obtain ⟨x, hx⟩ := hc.childOk e he
    rw [h, hi] at hx
    exact absurd hx (by simp)

theorem names_zero {s : Fs} {i : Nat} : s.names i = 0 ↔ ∀ e ∈ s.ents, e.child ≠ i := by
  unfold Fs.names
  rw [List.countP_eq_zero]
  simp

theorem ndents_zero {s : Fs} {i : Nat} : s.ndents i = 0 ↔ ∀ e ∈ s.ents, e.dir ≠ i := by
  unfold Fs.ndents
  rw [List.countP_eq_zero]
  simp

/-- Changing the inode table at an inode that no entry mentions. -/
theorem subdirs_setIno {s : Fs} {i : Nat} (hn : ∀ e ∈ s.ents, e.child ≠ i) (x : Option Ino)
    (j : Nat) : (s.setIno i x).subdirs j = s.subdirs j := by
  unfold Fs.subdirs
  apply List.countP_congr
  intro e he
  have : (s.setIno i x).isDirI e.child = s.isDirI e.child := by
    unfold Fs.isDirI
    rw [setIno_get, if_neg (hn e he)]
  rw [this]

theorem isDirI_setIno_ne {s : Fs} {i j : Nat} (x : Option Ino) (h : j ≠ i) :
    (s.setIno i x).isDirI j = s.isDirI j := by
  unfold Fs.isDirI
  rw [setIno_get, if_neg h]

theorem Core.spawn {s : Fs} (hc : Core s) {i : Nat} {x : Ino} (hi : s.ino i = none)
    (hf : x.isDir = false → x.nlink = 0) (hd : x.isDir = true → x.nlink = 1) :
    Core (s.setIno i (some x)) := by
  have hno := no_entry_of_none hc hi
  have hnr : i ≠ ROOT := by
    rintro rfl
    have := hc.root.1
    unfold Fs.isDirI at this
    rw [hi] at this
    exact absurd this (by decide)
  have hn0 : s.names i = 0 := names_zero.2 (fun e he => (hno e he).2)
  refine ⟨hc.keys, ?_, ?_, ?_, ?_, ?_, ?_, ?_⟩
  · intro e he
    rw [isDirI_setIno_ne _ (hno e he).1]
    exact hc.dirOk e he
  · intro e he
    rw [setIno_get, if_neg (hno e he).2]
    exact hc.childOk e he
  · intro j y hy hyf
    rw [setIno_get] at hy
    split at hy
    · next h =>
      subst h; cases hy
      show _ = s.names j
      rw [hn0]; exact hf hyf
    · exact hc.file j y hy hyf
  · intro j y hy hyd
    rw [setIno_get] at hy
    rw [subdirs_setIno (fun e he => (hno e he).2)]
    split at hy
    · next h =>
      subst h; cases hy
      show _ = _ + s.names j + _
      rw [hn0, hd hyd, if_neg hnr]
      have : s.subdirs j = 0 := by
        unfold Fs.subdirs
        rw [List.countP_eq_zero]
        intro e he
        have := (hno e he).1
        simp [this]
      omega
    · exact hc.dir j y hy hyd
  · intro j hj
    show s.names j ≤ 1
    by_cases h : j = i
    · subst h; omega
    · rw [isDirI_setIno_ne _ h] at hj; exact hc.once j hj
  · rw [isDirI_setIno_ne _ (fun h => hnr h.symm)]
    exact hc.root
  · intro e he y hy hyd
    rw [setIno_get, if_neg (hno e he).2] at hy
    exact hc.par e he y hy hyd

theorem erase_ents {s : Fs} {i : Nat} (h : s.ndents i = 0) : (s.erase i).ents = s.ents := by
  unfold Fs.erase
  simp only
  rw [List.filter_eq_self]
  intro e he
  have := ndents_zero.1 h e he
  simp [this]

theorem erase_ino (s : Fs) (i j : Nat) : (s.erase i).ino j = if j = i then none else s.ino j := rfl

theorem erase_names {s : Fs} {i : Nat} (h : s.ndents i = 0) (j : Nat) :
    (s.erase i).names j = s.names j := by
  unfold Fs.names; rw [erase_ents h]

theorem erase_isDirI {s : Fs} {i j : Nat} (h : j ≠ i) : (s.erase i).isDirI j = s.isDirI j := by
  unfold Fs.isDirI; rw [erase_ino, if_neg h]

theorem Core.erase {s : Fs} (hc : Core s) {i : Nat} (hn : s.names i = 0) (hd : s.ndents i = 0)
    (hr : i ≠ ROOT) : Core (s.erase i) := by
  have hn' := names_zero.1 hn
  have hd' := ndents_zero.1 hd
  have hsub : ∀ j, (s.erase i).subdirs j = s.subdirs j := by
    intro j
    unfold Fs.subdirs
    rw [erase_ents hd]
    apply List.countP_congr
    intro e he
    rw [erase_isDirI (hn' e he)]
  refine ⟨?_, ?_, ?_, ?_, ?_, ?_, ?_, ?_⟩
  · rw [erase_ents hd]; exact hc.keys
  · intro e he
    rw [erase_ents hd] at he
    rw [erase_isDirI (hd' e he)]; exact hc.dirOk e he
  · intro e he
    rw [erase_ents hd] at he
    rw [erase_ino, if_neg (hn' e he)]; exact hc.childOk e he
  · intro j y hy hyf
    rw [erase_ino] at hy
    split at hy
    · exact absurd hy (by simp)
    · rw [erase_names hd]; exact hc.file j y hy hyf
  · intro j y hy hyf
    rw [erase_ino] at hy
    split at hy
    · exact absurd hy (by simp)
    · rw [erase_names hd, hsub]; exact hc.dir j y hy hyf
  · intro j hj
    rw [erase_names hd]
    by_cases h : j = i
    · subst h; omega
    · rw [erase_isDirI h] at hj; exact hc.once j hj
  · rw [erase_isDirI (fun h => hr h.symm), erase_names hd]; exact hc.root
  · intro e he y hy hyd
    rw [erase_ents hd] at he
    rw [erase_ino, if_neg (hn' e he)] at hy
    exact hc.par e he y hy hyd

theorem Anch.erase {s : Fs} (ha : Anch s) {i : Nat} (hd : s.ndents i = 0) : Anch (s.erase i) := by
  intro e he
  rw [erase_names hd]
  rw [erase_ents hd] at he
  exact ha e he

/-! ### Who is orphaned -/

/-- An inode whose link count says "orphan" is not named and has no entries. -/
theorem orphan_bare {s : Fs} (hc : Core s) (ha : Anch s) {i : Nat} {x : Ino}
    (hx : s.ino i = some x) (ho : x.nlinkOrphan = true) :
    s.names i = 0 ∧ s.ndents i = 0 ∧ i ≠ ROOT := by
  unfold Ino.nlinkOrphan at ho
  cases hd : x.isDir with
  | false =>
    rw [hd] at ho
    simp only [Bool.false_and, Bool.false_eq_true, if_false, Bool.not_false, Bool.true_and,
      decide_eq_true_eq, ne_eq, decide_not, Bool.not_eq_true', decide_eq_false_iff_not,
      Bool.if_false_left, Bool.and_true, Classical.not_not] at ho
    have h1 := hc.file i x hx hd
    refine ⟨by simp at ho; omega, ?_, ?_⟩
    · rw [ndents_zero]
      intro e he h
      have := hc.dirOk e he
      rw [h, isDirI_of hx, hd] at this
      exact absurd this (by decide)
    · rintro rfl
      have := hc.root.1
      rw [isDirI_of hx, hd] at this
      exact absurd this (by decide)
  | true =>
    rw [hd] at ho
    have ho' : x.nlink ≤ 1 := by
      simp at ho; omega
    have h1 := hc.dir i x hx hd
    have hr : i ≠ ROOT := by
      rintro rfl; rw [if_pos rfl] at h1; omega
    rw [if_neg hr] at h1
    have hn0 : s.names i = 0 := by omega
    refine ⟨hn0, ?_, hr⟩
    rw [ndents_zero]
    intro e he h
    rcases ha e he with h2 | h2
    · exact hr (h ▸ h2)
    · rw [h, hn0] at h2; exact absurd h2 (by omega)

/-- Conversely, an inode that nothing names and that has no entries is an orphan. -/
theorem nlinkOrphan_iff {s : Fs} (hc : Core s) (ha : Anch s) {i : Nat} {x : Ino}
    (hx : s.ino i = some x) : x.nlinkOrphan = true ↔ s.names i = 0 ∧ i ≠ ROOT := by
  constructor
  · intro h; have := orphan_bare hc ha hx h; exact ⟨this.1, this.2.2⟩
  · rintro ⟨hn, hr⟩
    unfold Ino.nlinkOrphan
    cases hd : x.isDir with
    | false =>
      have h1 := hc.file i x hx hd
      have : x.nlink = 0 := by omega
      simp [this]
    | true =>
      have h1 := hc.dir i x hx hd
      rw [if_neg hr] at h1
      have hs : s.subdirs i = 0 := by
        unfold Fs.subdirs
        rw [List.countP_eq_zero]
        intro e he
        have : e.dir ≠ i := by
          intro h
          rcases ha e he with h2 | h2
          · exact hr (h ▸ h2)
          · rw [h] at h2; omega
        simp [this]
      have : x.nlink = 1 := by omega
      simp [this]

end Silofs.Ns
