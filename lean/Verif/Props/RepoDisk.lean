import Verif.Props.RepoCache
import Verif.Props.Sysio
/-
Effects of changes of the host's file-system on contents by name and on the invariant.
-/
set_option linter.unusedSimpArgs false
namespace Silofs.Repo
open Silofs Silofs.Addr Silofs.Sysio

/-- Contents by name: what the path of a name leads to. -/
def content (c : Cfg) (d : Disk) : Store := fun nm => (d.dir (pathOf c nm)).map (fun n => (d.node n).cur)

/-- No two names in use have the same path. -/
def PathInj (c : Cfg) (U : Name → Prop) : Prop := ∀ a b, U a → U b → pathOf c a = pathOf c b → a = b

theorem content_same {c : Cfg} {d d' : Disk} (s : Same d d') : content c d' = content c d := by
  funext nm
  unfold content
  rw [s.dir]
  cases d.dir (pathOf c nm) with
  | none => rfl
  | some n => simp only [Option.map_some, s.cur]

theorem content_some {c : Cfg} {d : Disk} {nm : Name} {n : Nat} (h : d.dir (pathOf c nm) = some n) :
    content c d nm = some (d.node n).cur := by
  unfold content; rw [h]; rfl

theorem content_none {c : Cfg} {d : Disk} {nm : Name} (h : d.dir (pathOf c nm) = none) : content c d nm = none := by
  unfold content; rw [h]; rfl

/-- A file's bytes beyond its size are zeros. -/
def Tail (f : File) : Prop := ∀ i, f.size ≤ i → f.byte i = 0

theorem DOk.modify {d : Disk} (h : DOk d) (n : Nat) (f : File) (b : Bool) (ht : Tail f) (hz : b = false → AllZero f) : DOk (d.modify n f b) := by
  refine ⟨h.inj, h.lt, ?_, ?_⟩
  · intro m i
    show ((if m = n then _ else d.node m : Node)).cur.size ≤ i → ((if m = n then _ else d.node m : Node)).cur.byte i = 0
    by_cases e : m = n
    · rw [if_pos e]; exact ht i
    · rw [if_neg e]; exact h.tail m i
  · intro m
    show ((if m = n then _ else d.node m : Node)).blocks = false → AllZero ((if m = n then _ else d.node m : Node)).cur
    by_cases e : m = n
    · rw [if_pos e]; exact hz
    · rw [if_neg e]; exact h.hole m

theorem node_modify (d : Disk) (n m : Nat) (f : File) (b : Bool) : ((d.modify n f b).node m).cur = if m = n then f else (d.node m).cur := by
  show ((if m = n then _ else d.node m : Node)).cur = _
  split <;> rfl

theorem Bind.modify {c : Cfg} {d : Disk} {r : Repo} (h : Bind c d r) (n : Nat) (f : File) (b : Bool)
    (hs : ∀ id l, id ∈ r.lruq → (r.heap id).key = .lseg l → d.dir (pathOf c (.lseg l)) = some n → f.size = (r.heap id).size) :
    Bind c (d.modify n f b) r := by
  intro id hid
  obtain ⟨m, h1, h2, h3⟩ := h id hid
  refine ⟨m, h1, h2, ?_⟩
  intro l hl
  rw [node_modify]
  by_cases e : m = n
  · rw [if_pos e]
    refine hs id l hid hl ?_
    rw [← hl, h2, e]
  · rw [if_neg e]; exact h3 l hl

theorem content_modify {c : Cfg} {U : Name → Prop} (hi : PathInj c U) {d : Disk} (h : DOk d) {nm : Name} {n : Nat} (hU : U nm)
    (hn : d.dir (pathOf c nm) = some n) (f : File) (b : Bool) :
    content c (d.modify n f b) nm = some f ∧ ∀ nm', U nm' → nm' ≠ nm → content c (d.modify n f b) nm' = content c d nm' := by
  constructor
  · rw [content_some (d := d.modify n f b) (n := n) hn, node_modify, if_pos rfl]
  · intro nm' hU' hne
    unfold content
    show (d.dir (pathOf c nm')).map _ = _
    cases e : d.dir (pathOf c nm') with
    | none => rfl
    | some m =>
      simp only [Option.map_some]
      rw [node_modify, if_neg]
      intro hm
      subst hm
      exact hne (hi nm' nm hU' hU (h.inj _ _ _ e hn))

/-! ### New files -/

/-- A file-system with the empty file made at `p`. -/
def made (d : Disk) (p : Path) : Disk :=
  { dir := fun q => if q = p then some d.next else d.dir q
    node := fun m => if m = d.next then ⟨noBytes, noBytes, false, false⟩ else d.node m
    next := d.next + 1 }

theorem creat_none {d : Disk} {p : Path} (h : d.dir p = none) : d.creat p = (made d p, d.next) := by
  unfold Disk.creat made; rw [h]

theorem openCreat_none {d : Disk} {p : Path} (h : d.dir p = none) : d.openCreat p = (made d p, d.next) := by
  unfold Disk.openCreat made; rw [h]

theorem openCreat_some {d : Disk} {p : Path} {n : Nat} (h : d.dir p = some n) : d.openCreat p = (d, n) := by
  unfold Disk.openCreat; rw [h]

theorem made_dir (d : Disk) (p : Path) : (made d p).dir p = some d.next := if_pos rfl

theorem DOk.made {d : Disk} (h : DOk d) (p : Path) : DOk (made d p) := by
  refine ⟨?_, ?_, ?_, ?_⟩
  · intro a b n
    show (if a = p then some d.next else d.dir a) = some n → (if b = p then some d.next else d.dir b) = some n → a = b
    by_cases ha : a = p <;> by_cases hb : b = p
    · intro _ _; rw [ha, hb]
    · rw [if_pos ha, if_neg hb]
      intro e1 e2
      have := h.lt _ _ e2
      cases e1
      exact absurd this (Nat.lt_irrefl _)
    · rw [if_neg ha, if_pos hb]
      intro e2 e1
      have := h.lt _ _ e2
      cases e1
      exact absurd this (Nat.lt_irrefl _)
    · rw [if_neg ha, if_neg hb]; exact h.inj a b n
  · intro a n
    show (if a = p then some d.next else d.dir a) = some n → n < d.next + 1
    by_cases ha : a = p
    · rw [if_pos ha]; intro e; cases e; exact Nat.lt_succ_self _
    · rw [if_neg ha]; intro e; exact Nat.lt_succ_of_lt (h.lt _ _ e)
  · intro m i
    show ((if m = d.next then _ else d.node m : Node)).cur.size ≤ i → ((if m = d.next then _ else d.node m : Node)).cur.byte i = 0
    by_cases e : m = d.next
    · rw [if_pos e]; intro _; rfl
    · rw [if_neg e]; exact h.tail m i
  · intro m
    show ((if m = d.next then _ else d.node m : Node)).blocks = false → AllZero ((if m = d.next then _ else d.node m : Node)).cur
    by_cases e : m = d.next
    · rw [if_pos e]; intro _ i; rfl
    · rw [if_neg e]; exact h.hole m

theorem Bind.made {c : Cfg} {d : Disk} {r : Repo} (h : Bind c d r) (hd : DOk d) (p : Path) (hp : d.dir p = none) : Bind c (made d p) r := by
  intro id hid
  obtain ⟨m, h1, h2, h3⟩ := h id hid
  have hne : pathOf c (r.heap id).key ≠ p := by intro e; rw [e, hp] at h2; cases h2
  have hm : m ≠ d.next := Nat.ne_of_lt (hd.lt _ _ h2)
  refine ⟨m, h1, ?_, ?_⟩
  · show (if _ = p then _ else _) = _
    rw [if_neg hne]; exact h2
  · intro l hl
    show ((if m = d.next then _ else d.node m : Node)).cur.size = _
    rw [if_neg hm]; exact h3 l hl

theorem content_made {c : Cfg} {U : Name → Prop} (hi : PathInj c U) {d : Disk} (h : DOk d) {nm : Name} (hU : U nm) :
    content c (made d (pathOf c nm)) nm = some noBytes ∧
    ∀ nm', U nm' → nm' ≠ nm → content c (made d (pathOf c nm)) nm' = content c d nm' := by
  constructor
  · rw [content_some (made_dir d _)]
    show some ((if d.next = d.next then _ else _ : Node)).cur = _
    rw [if_pos rfl]
  · intro nm' hU' hne
    have hp : pathOf c nm' ≠ pathOf c nm := fun e => hne (hi _ _ hU' hU e)
    unfold content
    show ((if pathOf c nm' = pathOf c nm then _ else d.dir (pathOf c nm'))).map _ = _
    rw [if_neg hp]
    cases e : d.dir (pathOf c nm') with
    | none => rfl
    | some m =>
      simp only [Option.map_some]
      show some ((if m = d.next then _ else d.node m : Node)).cur = _
      rw [if_neg (Nat.ne_of_lt (h.lt _ _ e))]

/-! ### Removed files -/

theorem DOk.unlink {d : Disk} (h : DOk d) (p : Path) : DOk (d.unlink p) := by
  refine ⟨?_, ?_, h.tail, h.hole⟩
  · intro a b n
    show (if a = p then none else d.dir a) = some n → (if b = p then none else d.dir b) = some n → a = b
    by_cases ha : a = p
    · rw [if_pos ha]; intro e; cases e
    · by_cases hb : b = p
      · rw [if_pos hb]; intro _ e; cases e
      · rw [if_neg ha, if_neg hb]; exact h.inj a b n
  · intro a n
    show (if a = p then none else d.dir a) = some n → n < d.next
    by_cases ha : a = p
    · rw [if_pos ha]; intro e; cases e
    · rw [if_neg ha]; exact h.lt a n

theorem Bind.unlink {c : Cfg} {d : Disk} {r : Repo} (h : Bind c d r) (p : Path)
    (hp : ∀ id, id ∈ r.lruq → pathOf c (r.heap id).key ≠ p) : Bind c (d.unlink p) r := by
  intro id hid
  obtain ⟨m, h1, h2, h3⟩ := h id hid
  refine ⟨m, h1, ?_, h3⟩
  show (if _ = p then _ else _) = _
  rw [if_neg (hp id hid)]; exact h2

theorem content_unlink {c : Cfg} {U : Name → Prop} (hi : PathInj c U) {d : Disk} {nm : Name} (hU : U nm) :
    content c (d.unlink (pathOf c nm)) nm = none ∧
    ∀ nm', U nm' → nm' ≠ nm → content c (d.unlink (pathOf c nm)) nm' = content c d nm' := by
  constructor
  · apply content_none
    exact if_pos rfl
  · intro nm' hU' hne
    have hp : pathOf c nm' ≠ pathOf c nm := fun e => hne (hi _ _ hU' hU e)
    unfold content
    show ((if pathOf c nm' = pathOf c nm then _ else d.dir (pathOf c nm'))).map _ = _
    rw [if_neg hp]; rfl

/-! ### Files -/

theorem tail_put {f : File} (h : Tail f) (off : Nat) (l : List Nat) : Tail (f.put off l) := by
  have w := put_wrote f off l
  intro i hi
  by_cases hl : l = []
  · subst hl; rw [put_nil] at hi ⊢; exact h i hi
  · rw [w.1, if_neg hl] at hi
    rw [w.2.2 i (Or.inr (by omega))]
    exact h i (by omega)

theorem size_put (f : File) (off : Nat) (l : List Nat) : f.size ≤ (f.put off l).size ∧ (f.put off l).size ≤ max f.size (off + l.length) := by
  have w := put_wrote f off l
  rw [w.1]
  split <;> omega

theorem mixed_put (f : File) (off : Nat) (l : List Nat) (k : Nat) (hk : k ≤ l.length) : Mixed f off l k (f.put off (l.take k)) := by
  have w := put_wrote f off (l.take k)
  refine ⟨?_, ?_, (size_put _ _ _).1⟩
  · intro i b hi hb
    exact w.2.1 i b (by rw [List.getElem?_take_of_lt hi]; exact hb)
  · intro i hi
    apply w.2.2
    rw [List.length_take]; omega

theorem tail_trunc (f : File) (len : Nat) : Tail (truncFile f len) := by
  intro i hi
  have : ¬ i < len := Nat.not_lt.mpr hi
  show (if i < len ∧ i < f.size then _ else _) = 0
  rw [if_neg (fun hh => this hh.1)]

theorem trunc_byte {f : File} (h : Tail f) (len : Nat) (hl : f.size ≤ len) (i : Nat) : (truncFile f len).byte i = f.byte i := by
  show (if i < len ∧ i < f.size then _ else _) = _
  by_cases hi : i < f.size
  · rw [if_pos ⟨by omega, hi⟩]
  · rw [if_neg (fun hh => hi hh.2), h i (by omega)]

theorem trunc_zero (f : File) : AllZero (truncFile f 0) := by
  intro i
  show (if i < 0 ∧ i < f.size then f.byte i else 0) = 0
  rw [if_neg (fun hh => absurd hh.1 (Nat.not_lt_zero _))]

theorem trunc_allZero {f : File} (h : AllZero f) (len : Nat) : AllZero (truncFile f len) := by
  intro i
  show (if i < len ∧ i < f.size then _ else _) = 0
  rw [h i]; split <;> rfl

theorem alignUp_ge (n : Nat) : n ≤ alignUp n := by unfold alignUp LBK; omega

theorem alignUp_lt (n : Nat) : alignUp n < n + LBK := by unfold alignUp LBK; omega

theorem alignUp_dvd (n : Nat) : alignUp n % LBK = 0 := by unfold alignUp LBK; omega

end Silofs.Repo
