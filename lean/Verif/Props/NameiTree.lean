import Verif.Props.NameiFail
import Verif.Props.NameiWit
/-
C15, no loops: as long as renames are not asked to move a directory below itself (a check of the
kernel; the library has none), directories form a tree.
-/
set_option linter.unusedSimpArgs false
set_option linter.unusedVariables false
namespace Silofs.Ns

/-- Going up from `i` by `..` ends at an inode without a name: the root, or a removed directory. -/
inductive Rooted (E : List Dent) : Nat → Prop where
  | top {i : Nat} : (∀ e ∈ E, e.child ≠ i) → Rooted E i
  | step {i : Nat} {e : Dent} : e ∈ E → e.child = i → Rooted E e.dir → Rooted E i

/-- `j` is `c` or below it. -/
inductive Below (E : List Dent) (c : Nat) : Nat → Prop where
  | refl : Below E c c
  | step {j : Nat} {e : Dent} : e ∈ E → e.child = j → Below E c e.dir → Below E c j

/-- Specification: every directory is rooted. -/
def TreeOk (s : Fs) : Prop := ∀ i, s.isDirI i = true → Rooted s.ents i

theorem Below.mono {E F : List Dent} (h : ∀ e ∈ E, e ∈ F) {c j : Nat} (hb : Below E c j) : Below F c j := by
  induction hb with
  | refl => exact .refl
  | step he hc _ ih => exact .step (h _ he) hc ih

theorem Below.trans {E : List Dent} {a b c : Nat} (h1 : Below E a b) (h2 : Below E b c) : Below E a c := by
  induction h2 with
  | refl => exact h1
  | step he hc _ ih => exact .step he hc ih

/-- At most one name. -/
def Single (E : List Dent) (D : Nat → Prop) : Prop :=
  ∀ e ∈ E, ∀ e' ∈ E, e.child = e'.child → D e.child → e = e'

theorem rooted_del {E : List Dent} {D : Nat → Prop} (hs : Single E D) (hd : ∀ e ∈ E, D e.dir)
    (p : Dent → Bool) {i : Nat} (h : Rooted E i) (hi : D i) : Rooted (E.filter p) i := by
  induction h with
  | top h => exact .top (fun e he => h e (List.mem_filter.1 he).1)
  | @step i e he hc _ ih =>
    by_cases hp : p e = true
    · exact .step (List.mem_filter.2 ⟨he, hp⟩) hc (ih (hd e he))
    · apply Rooted.top
      intro e' he' hc'
      obtain ⟨h1, h2⟩ := List.mem_filter.1 he'
      have := hs e he e' h1 (hc.trans hc'.symm) (hc ▸ hi)
      rw [← this] at h2
      exact hp h2

theorem rooted_add {E : List Dent} {D : Nat → Prop} (hd : ∀ e ∈ E, D e.dir)
    (ha : ∀ i, D i → Rooted E i) {d : Nat} {n : Name} {c : Nat} (hdd : D d)
    (hc : D c → (∀ e ∈ E, e.child ≠ c) ∧ ¬ Below E c d) {i : Nat} (hi : D i) :
    Rooted (⟨d, n, c⟩ :: E) i := by
  by_cases hdc : D c
  · obtain ⟨h1, h2⟩ := hc hdc
    have hA : ∀ {j : Nat}, Rooted E j → ¬ Below E c j → Rooted (⟨d, n, c⟩ :: E) j := by
      intro j hj
      induction hj with
      | @top j h =>
        intro hb
        apply Rooted.top
        intro e he hcj
        rcases List.mem_cons.1 he with h' | h'
        · subst h'; simp only at hcj; subst hcj; exact hb .refl
        · exact h e h' hcj
      | @step j e he hcj _ ih =>
        intro hb
        exact .step (List.mem_cons_of_mem _ he) hcj (ih (fun hh => hb (.step he hcj hh)))
    have hB : Rooted (⟨d, n, c⟩ :: E) c := .step List.mem_cons_self rfl (hA (ha d hdd) h2)
    by_cases hb : Below E c i
    · clear hi
      induction hb with
      | refl => exact hB
      | @step j e he hcj _ ih => exact .step (List.mem_cons_of_mem _ he) hcj ih
    · exact hA (ha i hi) hb
  · have key : ∀ {j : Nat}, Rooted E j → D j → Rooted (⟨d, n, c⟩ :: E) j := by
      intro j hj
      induction hj with
      | @top j h =>
        intro hj
        apply Rooted.top
        intro e he hcj
        rcases List.mem_cons.1 he with h' | h'
        · subst h'; simp only at hcj; subst hcj; exact hdc hj
        · exact h e h' hcj
      | @step j e he hcj _ ih =>
        intro hj
        exact .step (List.mem_cons_of_mem _ he) hcj (ih (hd e he))
    exact key (ha i hi) hi

/-- A rooted directory is not below itself. -/
theorem rooted_no_cycle {E : List Dent} {D : Nat → Prop} (hs : Single E D) (hd : ∀ e ∈ E, D e.dir)
    {i : Nat} (h : Rooted E i) (hi : D i) : ∀ e ∈ E, e.child = i → ¬ Below E i e.dir := by
  induction h with
  | top h => intro e he hc; exact absurd hc (h e he)
  | @step i e he hc _ ih =>
    intro e' he' hc' hb
    have := hs e he e' he' (hc.trans hc'.symm) (hc ▸ hi)
    subst this
    have hup : Below E e.dir i := .step he hc .refl
    have hb2 : Below E e.dir e.dir := .refl
    cases hb with
    | refl => exact ih (hd e he) e he hc .refl
    | @step _ e2 h2 hc2 hb' =>
      exact ih (hd e he) e2 h2 hc2 (hup.trans hb')

/-- The kernel's check: a directory is not moved into itself or below itself. -/
def NoLoop (s : Fs) (op : Op) : Prop :=
  match op with
  | .rename _ d n d2 n2 f =>
    (∀ c, s.look d n = some c → s.isDirI c = true → ¬ Below s.ents c d2) ∧
    (f.exchange = true → ∀ c, s.look d2 n2 = some c → s.isDirI c = true → ¬ Below s.ents c d)
  | _ => True

/-- Directories, and numbers not in use. -/
def Dn (s : Fs) (i : Nat) : Prop := s.isDirI i = true ∨ s.ino i = none

theorem single_of {s : Fs} (hg : Good s) : Single s.ents (Dn s) := by
  intro e he e' he' h hd
  rcases hd with hd | hd
  · exact hg.links.single e he e' he' h hd
  · exact absurd rfl (no_entry_of_none hg.core hd e he).2

theorem dn_dir {s : Fs} (hg : Good s) : ∀ e ∈ s.ents, Dn s e.dir := fun e he => .inl (hg.core.dirOk e he)

theorem TreeOk.dn {s : Fs} (hg : Good s) (h : TreeOk s) : ∀ i, Dn s i → Rooted s.ents i := by
  rintro i (hi | hi)
  · exact h i hi
  · exact .top (fun e he => (no_entry_of_none hg.core hi e he).2)

theorem dn_some {s : Fs} {i : Nat} {x : Ino} (hx : s.ino i = some x) (h : Dn s i) : s.isDirI i = true := by
  rcases h with h | h
  · exact h
  · rw [hx] at h; cases h

theorem treeOk_del {s : Fs} (hg : Good s) (h : TreeOk s) (p : Dent → Bool) :
    ∀ i, Dn s i → Rooted (s.ents.filter p) i :=
  fun i hi => rooted_del (single_of hg) (dn_dir hg) p (h.dn hg i hi) hi

theorem below_filter {E : List Dent} {p : Dent → Bool} {c j : Nat} (h : Below (E.filter p) c j) : Below E c j :=
  h.mono (fun e he => (List.mem_filter.1 he).1)

/-- After its entry is removed a directory has no name. -/
theorem del_no_name {s : Fs} (hg : Good s) {d : Nat} {n : Name} {c : Nat} (hl : s.look d n = some c)
    (hd : Dn s c) :
    ∀ e ∈ s.ents.filter (fun e => !(e.dir == d && e.name == n)), e.child ≠ c := by
  intro e he hc
  obtain ⟨h1, h2⟩ := List.mem_filter.1 he
  have h3 := find_mem hl
  have := single_of hg _ h3 e h1 hc.symm hd
  rw [← this] at h2
  simp at h2

theorem treeOk_move {s : Fs} (hg : Good s) (h : TreeOk s) {d : Nat} {n : Name} {c : Nat} {x : Ino} {d2 : Nat}
    {n2 : Name} (hx : s.ino c = some x) (hl : s.look d n = some c) (hd2 : s.isDirI d2 = true)
    (hnl : s.isDirI c = true → ¬ Below s.ents c d2) (q : Dent → Bool) :
    ∀ i, Dn s i →
      Rooted (⟨d2, n2, c⟩ :: (s.ents.filter q).filter (fun e => !(e.dir == d && e.name == n))) i := by
  intro i hi
  refine rooted_add (D := Dn s) ?_ ?_ (.inl hd2) ?_ hi
  · intro e he
    exact dn_dir hg e (List.mem_filter.1 (List.mem_filter.1 he).1).1
  · rw [List.filter_filter]; exact treeOk_del hg h _
  · intro hc
    refine ⟨?_, fun hb => hnl (dn_some hx hc) (below_filter (below_filter hb))⟩
    intro e he
    obtain ⟨h1, h2⟩ := List.mem_filter.1 he
    exact del_no_name hg hl hc e (List.mem_filter.2 ⟨(List.mem_filter.1 h1).1, h2⟩)

theorem below_cons {E : List Dent} {d : Nat} {n : Name} {c a j : Nat} (h : Below (⟨d, n, c⟩ :: E) a j) :
    Below E a j ∨ Below E c j := by
  induction h with
  | refl => exact .inl .refl
  | @step j e he hc hb ih =>
    rcases List.mem_cons.1 he with h' | h'
    · subst h'
      simp only at hc hb
      subst hc
      exact .inr .refl
    · rcases ih with ih | ih
      · exact .inl (.step h' hc ih)
      · exact .inr (.step h' hc ih)

/-- Nothing is below a file, or below a number not in use. -/
theorem below_leaf {E : List Dent} {c j : Nat} (hn : ∀ e ∈ E, e.dir ≠ c) (h : Below E c j) : j = c := by
  induction h with
  | refl => rfl
  | @step j e he hcj _ ih => exact absurd ih (hn e he)

theorem treeOk_exchange {s : Fs} (hg : Good s) (h : TreeOk s) {d : Nat} {n : Name} {c : Nat} {x : Ino} {d2 : Nat}
    {n2 : Name} {c2 : Nat} {x2 : Ino} (hx : s.ino c = some x) (hx2 : s.ino c2 = some x2)
    (hl : s.look d n = some c) (hl2 : s.look d2 n2 = some c2)
    (hne : c ≠ c2) (hd : s.isDirI d = true) (hd2 : s.isDirI d2 = true)
    (hnl : s.isDirI c = true → ¬ Below s.ents c d2) (hnl2 : s.isDirI c2 = true → ¬ Below s.ents c2 d) :
    ∀ i, Dn s i →
      Rooted (⟨d, n, c2⟩ :: ⟨d2, n2, c⟩ :: (s.ents.filter (fun e => !(e.dir == d && e.name == n))).filter
        (fun e => !(e.dir == d2 && e.name == n2))) i := by
  have hself : ∀ {d' : Nat} {n' : Name} {c' : Nat}, s.look d' n' = some c' → s.isDirI c' = true →
      ¬ Below s.ents c' d' := by
    intro d' n' c' hl' hc'
    exact rooted_no_cycle (single_of hg) (dn_dir hg) (h c' hc') (.inl hc') _ (find_mem hl') rfl
  have hfc : (s.ents.filter (fun e => !(e.dir == d && e.name == n))).filter (fun e => !(e.dir == d2 && e.name == n2)) =
      (s.ents.filter (fun e => !(e.dir == d2 && e.name == n2))).filter (fun e => !(e.dir == d && e.name == n)) := by
    rw [List.filter_filter, List.filter_filter]
    congr 1
    funext e
    rw [Bool.and_comm]
  intro i hi
  refine rooted_add (D := Dn s) ?_ ?_ (.inl hd) ?_ hi
  · intro e he
    rcases List.mem_cons.1 he with h' | h'
    · subst h'; exact .inl hd2
    · exact dn_dir hg e (List.mem_filter.1 (List.mem_filter.1 h').1).1
  · rw [hfc]
    exact treeOk_move hg h hx hl hd2 hnl _
  · intro hc2
    constructor
    · intro e he
      rcases List.mem_cons.1 he with h' | h'
      · subst h'; exact hne
      · obtain ⟨h1, h2⟩ := List.mem_filter.1 h'
        exact del_no_name hg hl2 hc2 e (List.mem_filter.2 ⟨(List.mem_filter.1 h1).1, h2⟩)
    · intro hb
      rcases below_cons hb with hb | hb
      · exact hnl2 (dn_some hx2 hc2) (below_filter (below_filter hb))
      · have hb' := below_filter (below_filter hb)
        by_cases hc : s.isDirI c = true
        · exact hself hl hc hb'
        · have := below_leaf (c := c) (fun e he hh => hc (by rw [← hh]; exact hg.core.dirOk e he)) hb'
          exact hc (this ▸ hd)

theorem body_tree {s : Fs} {o : Orc} {op : Op} (hg : Good s) (hv : Vfs s op) (hn : NoLoop s op)
    (h : TreeOk s) : ∀ i, Dn s i → Rooted (op.body s o).2.ents i := by
  have hf := body_eff s o op
  have hi := hg.inv
  have h' := h.dn hg
  have hdel : ∀ {t : Fs} {d' : Nat} {n' : Name} {c' : Nat} {b : Bool},
      t.ents = (s.delDent d' n' c' b).ents → ∀ i, Dn s i → Rooted t.ents i := by
    intro t d' n' c' b ht
    rw [ht, delDent_ents]; exact treeOk_del hg h _
  have hrem : ∀ {d' : Nat} {n' : Name} {c' : Nat} {b : Bool} {r : Option Err × Fs},
      RemRes s d' n' c' b r → ∀ i, Dn s i → Rooted r.2.ents i := by
    intro d' n' c' b r hr
    rcases hr.ents with h2 | h2
    · rw [h2]; exact h'
    · exact hdel h2
  generalize hr : op.body s o = r at hf ⊢
  cases hf with
  | refuse op e => exact h'
  | nothing i => exact h'
  | undo op cr d n i x hop hx hu => exact h'
  | leak op cr d n i x hop hx hu hnew => exact h'
  | made op m cr d dx n i x hop hd hw hl hx h0 hnew hadd =>
    intro j hj
    simp only
    rw [mk_ents, addDent_ents]
    have hdd : s.isDirI d = true := by rw [isDirI_of hd.ino]; exact hd.isdir
    refine rooted_add (D := Dn s) (dn_dir hg) h' (.inl hdd) ?_ hj
    intro _
    refine ⟨fun e he => (no_entry_of_none hg.core hx e he).2, fun hb => ?_⟩
    have := below_leaf (fun e he => (no_entry_of_none hg.core hx e he).1) hb
    have h2 := hd.ino
    rw [this, hx] at h2; cases h2
  | linked cr d dx n i x hd hl hx hdir hlm hadd =>
    intro j hj
    simp only
    rw [addDent_ents]
    have hdd : s.isDirI d = true := by rw [isDirI_of hd.ino]; exact hd.isdir
    refine rooted_add (D := Dn s) (dn_dir hg) h' (.inl hdd) ?_ hj
    intro hc
    have := dn_some hx hc
    rw [isDirI_of hx, hdir] at this; cases this
  | unlinked cr d dx n c x hrm hdir =>
    exact hrem (remPrune_res hi (o := o) (rr := o.rem1) hrm.ino hrm.look (by rw [hdir]; intro h; exact absurd h (by decide)))
  | rmdired cr d dx n c x hrm hdir hemp hroot =>
    exact hrem (remPrune_res hi (o := o) (rr := o.rem1) hrm.ino hrm.look (fun _ => isEmpty_ndents hemp))
  | renSame cr d dx n d2 dx2 n2 f c x hrm hd2 hl2 hnr =>
    have hdir : x.isDir = false := by
      have : s.isDirI c = false := hv c hrm.look hl2
      rw [isDirI_of hrm.ino] at this; exact this
    exact hrem (remPrune_res hi (o := o) (rr := o.rem1) hrm.ino hrm.look (by rw [hdir]; intro h; exact absurd h (by decide)))
  | moved cr d dx n d2 dx2 n2 f c x hrm hd2 hl2 hn2 hex hca =>
    rcases renameMove_cases (s := s) (o := o) (d := d) (n := n) (d2 := d2) (n2 := n2) (c := c) (b := x.isDir) hca with
      ⟨h, hh⟩ | ⟨h, hh⟩ | ⟨h, hh, hh2⟩ | ⟨h, hh, hh2⟩
    · rw [h]; exact h'
    · rw [h]; exact hdel rfl
    · rw [h]; exact hdel rfl
    · rw [h]
      simp only
      rw [addDent_ents, delDent_ents]
      have := treeOk_move hg ‹TreeOk s› (n2 := n2) hrm.ino hrm.look
        (by rw [isDirI_of hd2.ino]; exact hd2.isdir) (hn.1 c hrm.look) (fun _ => true)
      simpa using this
  | exchanged cr d dx n d2 dx2 n2 f c x c2 x2 hrm hrm2 hne hex hnr =>
    have hd : s.isDirI d = true := hg.core.dirOk _ (find_mem hrm.look)
    have hd2 : s.isDirI d2 = true := hg.core.dirOk _ (find_mem hrm2.look)
    have hdd : ∀ i, Dn s i → Rooted ((s.delDent d n c x.isDir).delDent d2 n2 c2 x2.isDir).ents i := by
      rw [delDent_ents, delDent_ents, List.filter_filter]; exact treeOk_del hg h _
    rcases renameExchange_cases (s := s) (o := o) (d := d) (n := n) (d2 := d2) (n2 := n2) (c := c) (b := x.isDir)
      (c2 := c2) (b2 := x2.isDir) with
      ⟨h, hh⟩ | ⟨h, hh⟩ | ⟨h | h, hh, hh2⟩ | ⟨h, hh, hh2, hh3, hh4⟩ | ⟨h, hh⟩
    · rw [h]; exact h'
    · rw [h]; exact hdel rfl
    · rw [h]; exact hdd
    · rw [h]; exact hdd
    · rw [h]
      simp only
      rw [addDent_ents, delDent_ents, delDent_ents]
      have := treeOk_move hg ‹TreeOk s› (n2 := n2) hrm.ino hrm.look hd2 (hn.1 c hrm.look)
        (fun e => !(e.dir == d2 && e.name == n2))
      have hfc : (s.ents.filter (fun e => !(e.dir == d && e.name == n))).filter (fun e => !(e.dir == d2 && e.name == n2)) =
          (s.ents.filter (fun e => !(e.dir == d2 && e.name == n2))).filter (fun e => !(e.dir == d && e.name == n)) := by
        rw [List.filter_filter, List.filter_filter]
        congr 1
        funext e
        rw [Bool.and_comm]
      rw [hfc]; exact this
    · rw [h]
      simp only
      rw [addDent_ents, addDent_ents, delDent_ents, delDent_ents]
      exact treeOk_exchange hg ‹TreeOk s› hrm.ino hrm2.ino hrm.look hrm2.look (fun h => hne h) hd hd2
        (hn.1 c hrm.look) (hn.2 hex c2 hrm2.look)
  | replaced cr d dx n d2 dx2 n2 f c x c2 x2 hrm hrm2 hne hex hnr hemp =>
    have hbare : s.ndents c2 = 0 := by
      cases h : x2.isDir with
      | true => exact isEmpty_ndents (hemp h).1
      | false => exact ndents_file hi.core (by rw [isDirI_of hrm2.ino]; exact h)
    have hp := remPrune_res hi (o := o) (rr := o.rem2) hrm2.ino hrm2.look (fun _ => hbare)
    have hcases := renameReplace_cases (s := s) (o := o) (d := d) (n := n) (d2 := d2) (n2 := n2) (c := c) (b := x.isDir)
      (c2 := c2) (b2 := x2.isDir)
    simp only at hcases
    generalize s.remPrune o o.rem2 d2 n2 c2 x2.isDir = p at hp hcases
    have hd2 : s.isDirI d2 = true := hg.core.dirOk _ (find_mem hrm2.look)
    have hdd : p.1 = none → ∀ i, Dn s i → Rooted (p.2.delDent d n c x.isDir).ents i := by
      intro hp0
      rw [delDent_ents, (hp.done hp0).1, delDent_ents, List.filter_filter]; exact treeOk_del hg h _
    rcases hcases with ⟨h, hh⟩ | ⟨hp0, h, hh⟩ | ⟨hp0, h, hh⟩ | ⟨hp0, h, hh, hh2⟩ | ⟨hp0, h, hh, hh2⟩
    · rw [h]; exact hrem hp
    · rw [h]; have := hrem hp; exact this
    · rw [h]; exact hdd hp0
    · rw [h]; exact hdd hp0
    · rw [h]
      simp only
      rw [addDent_ents, delDent_ents, (hp.done hp0).1, delDent_ents]
      exact treeOk_move hg ‹TreeOk s› (n2 := n2) hrm.ino hrm.look hd2 (hn.1 c hrm.look) _
  | openedReg cr i f x hx hdir hacc => simp only [incOpen_ents]; exact h'
  | openedDir cr i f x hx hdir hacc => simp only [incOpen_ents]; exact h'
  | released i b f x hx hop =>
    have hs := decOpen_same s i
    have hi1 : Inv No (s.decOpen i) := ⟨hi.core.same hs, hi.anch.same hs, hi.loose.decOpen i⟩
    have hp := prune_pruned (o := o) hi1 i (fun h => h)
    rw [hp.ents.trans hs.ents]; exact h'
  | forgotten i x hx hpin =>
    have hs : Same s (s.setIno i (some { x with pinned := false })) := same_setIno hx rfl rfl rfl
    have hi1 : Inv No (s.setIno i (some { x with pinned := false })) :=
      ⟨hi.core.same hs, hi.anch.same hs, hi.loose.set (fun h => hi.loose i x hx h)⟩
    have hp := prune_pruned (o := o) hi1 i (fun h => h)
    rw [hp.ents.trans hs.ents]; exact h'

/-- C15, no loops: one step. -/
theorem C15_tree_step (s : Fs) (o : Orc) (op : Op) (hg : Good s) (hv : Vfs s op) (ht : TearFree s o op)
    (hn : NoLoop s op) (hd : (s.step o op).1 ≠ .die) (h : TreeOk s) : TreeOk (s.step o op).2 := by
  intro i hi
  rw [step_ents hg hv ht hd]
  apply body_tree hg hv hn h
  cases hx : s.ino i with
  | none => exact .inr hx
  | some x =>
    left
    rcases step_inode hg hv ht hd hx with ⟨y, hy, ha, _⟩ | ⟨h', _⟩
    · rw [isDirI_of hx]
      rw [isDirI_of hy, isDir_attr ha] at hi; exact hi
    · unfold Fs.isDirI at hi
      rw [h'] at hi; cases hi

/-- Histories in which the kernel's loop check is made too. -/
inductive RunT (a : Attr) (m : Nat) : Fs → Prop where
  | init : RunT a m (Fs.init a m)
  | step {s : Fs} (o : Orc) (op : Op) : RunT a m s → Vfs s op → TearFree s o op → NoLoop s op →
      (s.step o op).1 ≠ .die → RunT a m (s.step o op).2

theorem RunT.run {a : Attr} {m : Nat} {s : Fs} (h : RunT a m s) : Run a m s := by
  induction h with
  | init => exact .init
  | step o op _ hv ht _ hd ih => exact .step o op ih hv ht hd

theorem RunT.tree {a : Attr} {m : Nat} {s : Fs} (h : RunT a m s) : TreeOk s := by
  induction h with
  | init => exact fun i _ => .top (fun e he => by cases he)
  | step o op hr hv ht hn hd ih => exact C15_tree_step _ o op hr.run.good hv ht hn hd ih

theorem rooted_below {s : Fs} (hg : Good s) {i : Nat} (h : Rooted s.ents i) :
    (∃ e ∈ s.ents, e.dir = i) ∨ i = ROOT → Below s.ents ROOT i := by
  induction h with
  | @top i h =>
    rintro (⟨e, he, rfl⟩ | rfl)
    · rcases hg.anch e he with h' | h'
      · rw [h']; exact .refl
      · exfalso
        have := names_zero.2 h
        omega
    · exact .refl
  | @step i e he hc _ ih =>
    intro _
    exact .step he hc (ih (.inl ⟨e, he, rfl⟩))

/-- C15: after any history every name is reachable from the root: going up from the directory it
is in ends at the root, whatever was renamed. -/
theorem C15_reachable (a : Attr) (m : Nat) (s : Fs) (h : RunT a m s) :
    ∀ e ∈ s.ents, Below s.ents ROOT e.dir := by
  intro e he
  exact rooted_below h.run.good (h.tree e.dir (h.run.good.core.dirOk e he)) (.inl ⟨e, he, rfl⟩)

/-- mkdir a; mkdir a/b; mkdir c; rename a/b -> c/a -/
example : RunT wA 100 (runL w0 [(spw 2, .mkdir su 1 na 0o755), (spw 3, .mkdir su 2 nb 0o755),
    (spw 4, .mkdir su 1 nc 0o755), (({} : Orc), .rename su 2 nb 4 na {})]) := by
  refine .step _ _ (.step _ _ (.step _ _ (.step _ _ .init ?_ ?_ ?_ ?_) ?_ ?_ ?_ ?_) ?_ ?_ ?_ ?_) ?_ ?_ ?_ ?_
  all_goals first | trivial | exact vfsB_ok (by decide +kernel) | exact tearB_ok (by decide +kernel) | decide +kernel | skip
  refine ⟨?_, fun h => by cases h⟩
  intro c hc _ hb
  have h3 : c = 3 := by
    have : (((((w0.step (spw 2) (.mkdir su 1 na 0o755)).2).step (spw 3) (.mkdir su 2 nb 0o755)).2.step (spw 4)
      (.mkdir su 1 nc 0o755)).2).look 2 nb = some 3 := by decide +kernel
    have h2 := this.symm.trans hc
    simpa using h2.symm
  subst h3
  have := below_leaf (by decide +kernel) hb
  cases this

end Silofs.Ns
