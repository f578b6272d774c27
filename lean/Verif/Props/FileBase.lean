/-
Proof base for the file data path: weakest preconditions of the oracle monad,
the state invariant, and what each leaf-level step does to file contents.
-/
import Verif.Model.File
import Verif.Props.FileMap

set_option linter.unusedSimpArgs false
set_option linter.unusedVariables false

namespace Silofs.File

/-! ### Weakest preconditions -/

/-- For every oracle, `m` run from `s` ends in `Q` or fails in `E`. -/
def wp {α : Type} (m : M α) (Q : α → St → Prop) (E : St → Prop) (s : St) : Prop :=
  ∀ o, match m s o with
    | (.ok a, s', _) => Q a s'
    | (.error _, s', _) => E s'

theorem wp_pure {α : Type} {a : α} {Q : α → St → Prop} {E : St → Prop} {s : St} (h : Q a s) :
    wp (pure a) Q E s := fun _ => h

theorem wp_bind {α β : Type} {m : M α} {k : α → M β} {Q : β → St → Prop} {E : St → Prop} {s : St}
    (h : wp m (fun a s' => wp (k a) Q E s') E s) : wp (m >>= k) Q E s := by
  intro o
  have h' := h o
  show match (match m s o with
    | (.ok a, s', o') => k a s' o'
    | (.error e, s', o') => (.error e, s', o')) with
    | (.ok a, s', _) => Q a s'
    | (.error _, s', _) => E s'
  rcases hm : m s o with ⟨r | a, s', o'⟩
  · rw [hm] at h'; exact h'
  · rw [hm] at h'; exact h' o'

theorem wp_mono {α : Type} {m : M α} {Q Q' : α → St → Prop} {E E' : St → Prop} {s : St}
    (h : wp m Q E s) (hq : ∀ a s', Q a s' → Q' a s') (he : ∀ s', E s' → E' s') : wp m Q' E' s := by
  intro o
  have h' := h o
  rcases hm : m s o with ⟨r | a, s', o'⟩
  · rw [hm] at h'; exact he _ h'
  · rw [hm] at h'; exact hq _ _ h'

theorem wp_getS {Q : St → St → Prop} {E : St → Prop} {s : St} (h : Q s s) : wp getS Q E s := fun _ => h

theorem wp_modS {g : St → St} {Q : Unit → St → Prop} {E : St → Prop} {s : St} (h : Q () (g s)) :
    wp (modS g) Q E s := fun _ => h

theorem wp_throw {α : Type} {e : Err} {Q : α → St → Prop} {E : St → Prop} {s : St} (h : E s) :
    wp (throwE e) Q E s := fun _ => h

theorem wp_chk {Q : Unit → St → Prop} {E : St → Prop} {s : St} (h : Q () s) (he : E s) :
    wp chk Q E s := by
  intro o
  rcases o with _ | ⟨_ | _, o⟩ <;> simp only [chk] <;> assumption

theorem wp_ask {Q : Nat → St → Prop} {E : St → Prop} {s : St} (h : ∀ b, Q b s) (he : E s) :
    wp ask Q E s := by
  intro o
  rcases o with _ | ⟨_ | _, o⟩ <;> simp only [ask]
  · exact he
  · exact he
  · exact h _

theorem wp_chkLate {Q : Unit → St → Prop} {E : St → Prop} {s : St} (hl : s.late = false) (h : Q () s) :
    wp chkLate Q E s := by
  intro o
  simp only [chkLate, hl]
  exact h

theorem wp_claimSpace {Q : Nat → St → Prop} {E : St → Prop} {s : St}
    (h : ∀ b raw, (s.blk b).ref = 0 → Q b (s.setBlk b ⟨raw, true, 1⟩)) (he : E s) :
    wp claimSpace Q E s := by
  intro o
  rcases o with _ | ⟨e | ⟨b, raw⟩, o⟩
  · exact he
  · exact he
  · by_cases hr : (s.blk b).ref = 0
    · simp only [claimSpace, if_pos hr]; exact h b raw hr
    · simp only [claimSpace, if_neg hr]; exact he

theorem wp_onErr {α : Type} {m : M α} {h : M Unit} {Q : α → St → Prop} {E : St → Prop} {s : St}
    (hm : wp m Q (fun s' => wp h (fun _ => E) E s') s) : wp (onErr m h) Q E s := by
  intro o
  have h' := hm o
  unfold onErr
  rcases hx : m s o with ⟨r | a, s', o'⟩
  · rw [hx] at h'
    have h2 := h' o'
    simp only
    rcases hy : h s' o' with ⟨r2 | a2, s2, o2⟩ <;> rw [hy] at h2 <;> exact h2
  · rw [hx] at h'
    exact h'

theorem wp_andThen {α : Type} {m : M α} {g : St → St} {Q : α → St → Prop} {E : St → Prop} {s : St}
    (hm : wp m (fun a s' => Q a (g s')) (fun s' => E (g s')) s) : wp (andThen m g) Q E s := by
  intro o
  have h' := hm o
  unfold andThen
  rcases hx : m s o with ⟨r | a, s', o'⟩ <;> rw [hx] at h' <;> exact h'

/-! ### Content of a file -/

/-- Byte at position `p` of a file, given the blocks. -/
def byteIn (blk : Nat → Blk) (x : File) (p : Nat) : Nat :=
  match x.leaf (keyOf x.ft2 p) with
  | none => 0
  | some b => if (blk b).unw then 0 else (blk b).raw (p % (keyOf x.ft2 p).size)

/-- Byte at position `p` of file `f`. -/
def byteAt (s : St) (f p : Nat) : Nat := byteIn s.blk (s.file f) p

@[simp] theorem setBlk_file (s : St) (b : Nat) (x : Blk) : (s.setBlk b x).file = s.file := rfl
@[simp] theorem setBlk_pos (s : St) (b : Nat) (x : Blk) : (s.setBlk b x).pos = s.pos := rfl
@[simp] theorem setBlk_pos2 (s : St) (b : Nat) (x : Blk) : (s.setBlk b x).pos2 = s.pos2 := rfl
@[simp] theorem setBlk_late (s : St) (b : Nat) (x : Blk) : (s.setBlk b x).late = s.late := rfl
@[simp] theorem setBlk_same (s : St) (b : Nat) (x : Blk) : (s.setBlk b x).blk b = x := by
  simp [St.setBlk]
theorem setBlk_other (s : St) {b c : Nat} (x : Blk) (h : c ≠ b) : (s.setBlk b x).blk c = s.blk c := by
  simp [St.setBlk, h]
@[simp] theorem setFile_blk (s : St) (f : Nat) (x : File) : (s.setFile f x).blk = s.blk := rfl
@[simp] theorem setFile_pos (s : St) (f : Nat) (x : File) : (s.setFile f x).pos = s.pos := rfl
@[simp] theorem setFile_pos2 (s : St) (f : Nat) (x : File) : (s.setFile f x).pos2 = s.pos2 := rfl
@[simp] theorem setFile_late (s : St) (f : Nat) (x : File) : (s.setFile f x).late = s.late := rfl
@[simp] theorem setFile_same (s : St) (f : Nat) (x : File) : (s.setFile f x).file f = x := by
  simp [St.setFile]
theorem setFile_other (s : St) {f g : Nat} (x : File) (h : g ≠ f) :
    (s.setFile f x).file g = s.file g := by
  simp [St.setFile, h]

/-! ### Invariant -/

/-- Shape of the radix tree: the root exists, nodes lie under the root and are
linked to their parents, leaves hang below existing bottom nodes. -/
structure WF (x : File) : Prop where
  root : x.root = 0 ∨ (2 ≤ x.root ∧ x.root ≤ 5 ∧ x.node x.root 0 = true)
  node : ∀ h i, x.node h i = true → 2 ≤ h ∧ h ≤ x.root ∧ (i + 1) * cover h ≤ cover x.root ∧
    (h < x.root → x.node (h + 1) (i / 1024) = true)
  leaf : ∀ i b, x.leaf (.tr i) = some b → x.node 2 (i / 1024) = true

/-- The users of block `b`. -/
def Users (s : St) (b : Nat) (L : List (Nat × Key)) : Prop :=
  L.Nodup ∧ ∀ f k, (s.file f).leaf k = some b ↔ (f, k) ∈ L

/-- The count of blocks is the total size of the mapped leaves. -/
def Counted (x : File) : Prop :=
  ∃ L : List Key, L.Nodup ∧ (∀ k, (x.leaf k).isSome = true ↔ k ∈ L) ∧
    x.iblk * 1024 = (L.map fun k => ((k.size : Nat) : Int)).sum

/-- State invariant. -/
structure Ok (s : St) : Prop where
  late : s.late = false
  wf : ∀ f, WF (s.file f)
  own : ∀ b, ∃ L, Users s b L ∧ L.length ≤ (s.blk b).ref
  shw : ∀ b, 1 < (s.blk b).ref → (s.blk b).unw = false
  head : ∀ f k b, (s.file f).leaf k = some b → k.isTree = false → (s.blk b).ref ≤ 1
  cnt : ∀ f, Counted (s.file f)

/-- File contents changed from `s` to `s'` exactly in `[a,b)` of file `f`, where
they are now given by `g`; sizes and types are kept. -/
structure Rel (f a b : Nat) (g : Nat → Nat) (s s' : St) : Prop where
  ok : Ok s'
  upd : ∀ f' p, byteAt s' f' p = if f' = f ∧ a ≤ p ∧ p < b then g p else byteAt s f' p
  ft2 : ∀ f', (s'.file f').ft2 = (s.file f').ft2
  size : ∀ f', (s'.file f').size = (s.file f').size
  span : ∀ f', (s'.file f').span = (s.file f').span

/-- Nothing but block contents and leaf slots changed. -/
structure Shape (s s' : St) : Prop where
  node : ∀ f', (s'.file f').node = (s.file f').node
  root : ∀ f', (s'.file f').root = (s.file f').root
  pos : s'.pos = s.pos
  pos2 : s'.pos2 = s.pos2

theorem Shape.refl (s : St) : Shape s s := ⟨fun _ => rfl, fun _ => rfl, rfl, rfl⟩

theorem Shape.trans {s t u : St} (h1 : Shape s t) (h2 : Shape t u) : Shape s u :=
  ⟨fun f => (h2.node f).trans (h1.node f), fun f => (h2.root f).trans (h1.root f),
    h2.pos.trans h1.pos, h2.pos2.trans h1.pos2⟩

theorem Rel.refl {s : St} (f a : Nat) (g : Nat → Nat) (h : Ok s) : Rel f a a g s s :=
  ⟨h, fun f' p => by rw [if_neg]; omega, fun _ => rfl, fun _ => rfl, fun _ => rfl⟩

theorem Rel.trans {f a b c : Nat} {g : Nat → Nat} {s t u : St} (h1 : Rel f a b g s t)
    (h2 : Rel f b c g t u) (hab : a ≤ b) (hbc : b ≤ c) : Rel f a c g s u := by
  refine ⟨h2.ok, fun f' p => ?_, fun f' => (h2.ft2 f').trans (h1.ft2 f'),
    fun f' => (h2.size f').trans (h1.size f'), fun f' => (h2.span f').trans (h1.span f')⟩
  rw [h2.upd, h1.upd]
  by_cases hf : f' = f
  · by_cases hb : b ≤ p ∧ p < c
    · rw [if_pos ⟨hf, hb⟩, if_pos ⟨hf, by omega, hb.2⟩]
    · rw [if_neg (by rintro ⟨_, h⟩; exact hb h)]
      by_cases ha : a ≤ p ∧ p < b
      · rw [if_pos ⟨hf, ha⟩, if_pos ⟨hf, ha.1, by omega⟩]
      · rw [if_neg (by rintro ⟨_, h⟩; exact ha h), if_neg (by omega)]
  · rw [if_neg (by rintro ⟨h, _⟩; exact hf h), if_neg (by rintro ⟨h, _⟩; exact hf h),
      if_neg (by rintro ⟨h, _⟩; exact hf h)]

/-- No content change, as a `Rel` on any file. -/
theorem Rel.of_same {f a : Nat} {g : Nat → Nat} {f' a' : Nat} {g' : Nat → Nat} {s t : St}
    (h : Rel f a a g s t) : Rel f' a' a' g' s t :=
  ⟨h.ok, fun f1 p => by
    rw [h.upd, if_neg (by omega), if_neg (by omega)], h.ft2, h.size, h.span⟩

theorem Rel.comp_same {f a b : Nat} {g : Nat → Nat} {f' a' : Nat} {g' : Nat → Nat} {s t u : St}
    (h1 : Rel f' a' a' g' s t) (h2 : Rel f a b g t u) (hab : a ≤ b) : Rel f a b g s u :=
  (h1.of_same (f' := f) (a' := a) (g' := g)).trans h2 (Nat.le_refl _) hab

theorem Rel.same_comp {f a b : Nat} {g : Nat → Nat} {f' a' : Nat} {g' : Nat → Nat} {s t u : St}
    (h1 : Rel f a b g s t) (h2 : Rel f' a' a' g' t u) (hab : a ≤ b) : Rel f a b g s u :=
  h1.trans (h2.of_same (f' := f) (a' := b) (g' := g)) hab (Nat.le_refl _)

/-! ### Ownership -/

theorem Users.unique {s : St} {b : Nat} {L : List (Nat × Key)} (h : Users s b L) (hl : L.length ≤ 1)
    {f f' : Nat} {k k' : Key} (h1 : (s.file f).leaf k = some b) (h2 : (s.file f').leaf k' = some b) :
    f' = f ∧ k' = k := by
  have m1 := (h.2 f k).1 h1
  have m2 := (h.2 f' k').1 h2
  rcases L with _ | ⟨x, _ | ⟨y, L⟩⟩
  · cases m1
  · have e1 := List.mem_singleton.1 m1
    have e2 := List.mem_singleton.1 m2
    rw [← e1] at e2
    exact Prod.mk.injEq .. ▸ e2
  · simp at hl

theorem Ok.sole {s : St} (h : Ok s) {b : Nat} (hr : (s.blk b).ref ≤ 1) {f f' : Nat} {k k' : Key}
    (h1 : (s.file f).leaf k = some b) (h2 : (s.file f').leaf k' = some b) : f' = f ∧ k' = k := by
  obtain ⟨L, hL, hl⟩ := h.own b
  exact hL.unique (by omega) h1 h2

theorem Ok.ref_pos {s : St} (h : Ok s) {f : Nat} {k : Key} {b : Nat}
    (h1 : (s.file f).leaf k = some b) : 1 ≤ (s.blk b).ref := by
  obtain ⟨L, hL, hl⟩ := h.own b
  have m1 := (hL.2 f k).1 h1
  have : 0 < L.length := List.length_pos_of_mem m1
  omega

theorem Ok.unmapped {s : St} (h : Ok s) {b : Nat} (hr : (s.blk b).ref = 0) (f : Nat) (k : Key) :
    (s.file f).leaf k ≠ some b := by
  intro he
  have := h.ref_pos he
  omega

/-- Changing one block but not its count keeps the invariant. -/
theorem Ok.setBlk {s : St} (h : Ok s) {b : Nat} {x : Blk} (hr : x.ref = (s.blk b).ref)
    (hu : 1 < x.ref → x.unw = false) : Ok (s.setBlk b x) := by
  refine ⟨h.late, h.wf, fun c => ?_, fun c hc => ?_, fun f k c hl hk => ?_, h.cnt⟩
  · obtain ⟨L, hL, hl⟩ := h.own c
    refine ⟨L, hL, ?_⟩
    by_cases hc : c = b
    · subst hc; rw [setBlk_same, hr]; exact hl
    · rw [setBlk_other _ _ hc]; exact hl
  · by_cases hcb : c = b
    · subst hcb; rw [setBlk_same] at hc ⊢; exact hu hc
    · rw [setBlk_other _ _ hcb] at hc ⊢; exact h.shw c hc
  · have := h.head f k c hl hk
    by_cases hcb : c = b
    · subst hcb; rw [setBlk_same, hr]; exact this
    · rw [setBlk_other _ _ hcb]; exact this

theorem byteAt_setBlk_unmapped {s : St} {b : Nat} {x : Blk}
    (h : ∀ f k, (s.file f).leaf k ≠ some b) (f p : Nat) : byteAt (s.setBlk b x) f p = byteAt s f p := by
  unfold byteAt byteIn
  rw [setBlk_file]
  rcases hl : (s.file f).leaf (keyOf (s.file f).ft2 p) with _ | c
  · rfl
  · have : c ≠ b := by rintro rfl; exact h _ _ hl
    simp only [setBlk_other _ _ this]

/-- Content after a block changed, in terms of that block only. -/
theorem byteAt_setBlk (s : St) (b : Nat) (x : Blk) (f p : Nat) :
    byteAt (s.setBlk b x) f p =
      if (s.file f).leaf (keyOf (s.file f).ft2 p) = some b then
        (if x.unw then 0 else x.raw (p % (keyOf (s.file f).ft2 p).size))
      else byteAt s f p := by
  unfold byteAt byteIn
  rw [setBlk_file]
  rcases hl : (s.file f).leaf (keyOf (s.file f).ft2 p) with _ | c
  · simp
  · by_cases hc : c = b
    · subst hc; simp
    · simp only [setBlk_other _ _ hc, Option.some.injEq, if_neg hc]

theorem Shape.setBlk (s : St) (b : Nat) (x : Blk) : Shape s (s.setBlk b x) :=
  ⟨fun _ => rfl, fun _ => rfl, rfl, rfl⟩

/-- A block nobody maps is claimed. -/
theorem claim_rel {s : St} (h : Ok s) {b : Nat} (hr : (s.blk b).ref = 0) (raw : Nat → Nat)
    (f a : Nat) (g : Nat → Nat) : Rel f a a g s (s.setBlk b ⟨raw, true, 1⟩) := by
  refine ⟨⟨h.late, h.wf, fun c => ?_, fun c hc => ?_, fun f k c hl hk => ?_, h.cnt⟩, ?_,
    fun _ => rfl, fun _ => rfl, fun _ => rfl⟩
  · obtain ⟨L, hL, hl⟩ := h.own c
    refine ⟨L, hL, ?_⟩
    by_cases hc : c = b
    · subst hc; rw [setBlk_same]; simp only; omega
    · rw [setBlk_other _ _ hc]; exact hl
  · by_cases hcb : c = b
    · subst hcb; rw [setBlk_same] at hc; simp at hc
    · rw [setBlk_other _ _ hcb] at hc ⊢; exact h.shw c hc
  · by_cases hcb : c = b
    · subst hcb; rw [setBlk_same]; simp
    · rw [setBlk_other _ _ hcb]; exact h.head f k c hl hk
  · intro f' p
    rw [byteAt_setBlk_unmapped (h.unmapped hr), if_neg (by omega)]

/-- A block with spare references (claimed and not mapped) is released. -/
theorem unref_rel {s : St} (h : Ok s) {b : Nat} (hm : ∀ f k, (s.file f).leaf k ≠ some b)
    (f a : Nat) (g : Nat → Nat) :
    Rel f a a g s (s.setBlk b { s.blk b with ref := (s.blk b).ref - 1 }) := by
  refine ⟨⟨h.late, h.wf, fun c => ?_, fun c hc => ?_, fun f k c hl hk => ?_, h.cnt⟩, ?_,
    fun _ => rfl, fun _ => rfl, fun _ => rfl⟩
  · obtain ⟨L, hL, hl⟩ := h.own c
    by_cases hc : c = b
    · subst hc
      have : L = [] := by
        rcases L with _ | ⟨⟨f, k⟩, L⟩
        · rfl
        · exact absurd ((hL.2 f k).2 (by simp)) (hm f k)
      subst this
      exact ⟨[], hL, by simp⟩
    · exact ⟨L, hL, by rw [setBlk_other _ _ hc]; exact hl⟩
  · by_cases hcb : c = b
    · subst hcb; rw [setBlk_same] at hc ⊢
      exact h.shw _ (by simp only at hc; omega)
    · rw [setBlk_other _ _ hcb] at hc ⊢; exact h.shw c hc
  · by_cases hcb : c = b
    · subst hcb; exact absurd hl (hm f k)
    · rw [setBlk_other _ _ hcb]; exact h.head f k c hl hk
  · intro f' p
    rw [byteAt_setBlk_unmapped hm, if_neg (by omega)]

/-! ### Changing one leaf slot -/

theorem setLeaf_file (s : St) (f : Nat) (k : Key) (v : Option Nat) (d : Int) (f' : Nat) (k' : Key) :
    ((s.setFile f ((s.file f).setLeaf k v d)).file f').leaf k' =
      if f' = f ∧ k' = k then v else (s.file f').leaf k' := by
  by_cases hf : f' = f
  · subst hf
    rw [setFile_same]
    by_cases hk : k' = k
    · subst hk; simp [File.setLeaf]
    · simp [File.setLeaf, hk]
  · rw [setFile_other _ _ hf, if_neg (by rintro ⟨h, _⟩; exact hf h)]

theorem Shape.setLeaf (s : St) (f : Nat) (k : Key) (v : Option Nat) (d : Int) :
    Shape s (s.setFile f ((s.file f).setLeaf k v d)) := by
  refine ⟨fun f' => ?_, fun f' => ?_, rfl, rfl⟩ <;>
  · by_cases hf : f' = f
    · subst hf; rw [setFile_same]; rfl
    · rw [setFile_other _ _ hf]

/-- Users of block `b` after leaf `k` of file `f` was set to `v`. -/
theorem Users.setLeaf {s : St} {b : Nat} {L : List (Nat × Key)} (h : Users s b L) (f : Nat) (k : Key)
    (v : Option Nat) (d : Int) :
    Users (s.setFile f ((s.file f).setLeaf k v d)) b
      (if v = some b then (if (f, k) ∈ L then L else (f, k) :: L) else L.erase (f, k)) := by
  constructor
  · split
    · split
      · exact h.1
      · exact List.nodup_cons.2 ⟨by assumption, h.1⟩
    · exact h.1.erase _
  · intro f' k'
    rw [setLeaf_file]
    by_cases he : f' = f ∧ k' = k
    · rw [if_pos he]
      obtain ⟨rfl, rfl⟩ := he
      by_cases hv : v = some b
      · rw [if_pos hv]
        simp only [hv, true_iff]
        split
        · assumption
        · simp
      · rw [if_neg hv]
        simp only [hv, false_iff]
        exact h.1.not_mem_erase
    · rw [if_neg he, h.2]
      have hne : (f', k') ≠ (f, k) := fun h => he (by simpa using h)
      split
      · split
        · rfl
        · simp [hne]
      · exact (List.mem_erase_of_ne hne).symm

theorem WF.setLeaf {x : File} (h : WF x) {k : Key} {v : Option Nat} {d : Int}
    (hk : ∀ i b, k = .tr i → v = some b → x.node 2 (i / 1024) = true) : WF (x.setLeaf k v d) := by
  refine ⟨h.root, h.node, fun i b hl => ?_⟩
  simp only [File.setLeaf] at hl ⊢
  split at hl
  · rename_i he; exact hk i b he.symm hl
  · exact h.leaf i b hl

theorem sum_erase {α : Type} [BEq α] [LawfulBEq α] (g : α → Int) {a : α} :
    ∀ {L : List α}, a ∈ L → (L.map g).sum = g a + ((L.erase a).map g).sum
  | b :: L, h => by
    rw [List.erase_cons]
    by_cases hb : b = a
    · subst hb; simp
    · rw [if_neg (by simpa using hb)]
      have := sum_erase g (L := L) (by simpa [Ne.symm hb] using h)
      simp only [List.map_cons, List.sum_cons, this]
      omega

theorem Counted.bind {x : File} (h : Counted x) {k : Key} (b : Nat) (hk : x.leaf k = none) :
    Counted (x.setLeaf k (some b) k.nkb) := by
  obtain ⟨L, hn, hm, hs⟩ := h
  refine ⟨k :: L, List.nodup_cons.2 ⟨fun hin => ?_, hn⟩, fun k' => ?_, ?_⟩
  · rw [← hm, hk] at hin; cases hin
  · simp only [File.setLeaf]
    by_cases he : k' = k
    · rw [if_pos he]; simp [he]
    · rw [if_neg he, hm]; simp [he]
  · simp only [File.setLeaf, List.map_cons, List.sum_cons]
    rw [← hs]
    cases k <;> simp only [Key.nkb, Key.size] <;> omega

theorem Counted.unbind {x : File} (h : Counted x) {k : Key} {b : Nat} (hk : x.leaf k = some b) :
    Counted (x.setLeaf k none (-k.nkb)) := by
  obtain ⟨L, hn, hm, hs⟩ := h
  have hin : k ∈ L := (hm k).1 (by rw [hk]; rfl)
  refine ⟨L.erase k, hn.erase _, fun k' => ?_, ?_⟩
  · simp only [File.setLeaf]
    by_cases he : k' = k
    · subst he; rw [if_pos rfl]; simp [hn.not_mem_erase]
    · rw [if_neg he, hm, List.mem_erase_of_ne he]
  · have hp := sum_erase (fun k : Key => ((k.size : Nat) : Int)) hin
    simp only [File.setLeaf]
    rw [hp] at hs
    revert hs
    generalize (List.map (fun k : Key => ((k.size : Nat) : Int)) (L.erase k)).sum = S
    intro hs
    cases k <;> simp only [Key.nkb, Key.size] at hs ⊢ <;> omega

theorem Counted.rebind {x : File} (h : Counted x) {k : Key} {b : Nat} (b' : Nat) (hk : x.leaf k = some b) :
    Counted (x.setLeaf k (some b') 0) := by
  obtain ⟨L, hn, hm, hs⟩ := h
  refine ⟨L, hn, fun k' => ?_, by simp only [File.setLeaf]; omega⟩
  simp only [File.setLeaf]
  by_cases he : k' = k
  · subst he; rw [if_pos rfl, ← hm, hk]; simp
  · rw [if_neg he, hm]

theorem Ok.cnt_set {s t : St} (h : Ok s) (ht : t.file = s.file) {f : Nat} {x : File} (hx : Counted x) (f' : Nat) :
    Counted ((t.setFile f x).file f') := by
  by_cases hf : f' = f
  · subst hf; rw [setFile_same]; exact hx
  · rw [setFile_other _ _ hf, ht]; exact h.cnt f'

theorem Ok.cnt_bind {s t : St} (h : Ok s) (ht : t.file = s.file) {f : Nat} {k : Key} {b : Nat}
    (hk : (s.file f).leaf k = none) (f' : Nat) :
    Counted ((t.setFile f ((s.file f).setLeaf k (some b) k.nkb)).file f') :=
  h.cnt_set ht ((h.cnt f).bind b hk) f'

theorem Ok.cnt_unbind {s t : St} (h : Ok s) (ht : t.file = s.file) {f : Nat} {k : Key} {b : Nat}
    (hk : (s.file f).leaf k = some b) (f' : Nat) :
    Counted ((t.setFile f ((s.file f).setLeaf k none (-k.nkb))).file f') :=
  h.cnt_set ht ((h.cnt f).unbind hk) f'

theorem Ok.cnt_rebind {s t : St} (h : Ok s) (ht : t.file = s.file) {f : Nat} {k : Key} {b b' : Nat}
    (hk : (s.file f).leaf k = some b) (f' : Nat) :
    Counted ((t.setFile f ((s.file f).setLeaf k (some b') 0)).file f') :=
  h.cnt_set ht ((h.cnt f).rebind b' hk) f'

theorem Ok.wf_setLeaf {s : St} (h : Ok s) {f : Nat} {k : Key} {v : Option Nat} {d : Int}
    (hk : ∀ i b, k = .tr i → v = some b → (s.file f).node 2 (i / 1024) = true) (f' : Nat) :
    WF ((s.setFile f ((s.file f).setLeaf k v d)).file f') := by
  by_cases hf : f' = f
  · subst hf; rw [setFile_same]; exact (h.wf f').setLeaf hk
  · rw [setFile_other _ _ hf]; exact h.wf f'

/-- Content after a leaf slot changed. -/
theorem byteAt_setLeaf (s : St) (f : Nat) (k : Key) (v : Option Nat) (d : Int) (f' p : Nat) :
    byteAt (s.setFile f ((s.file f).setLeaf k v d)) f' p =
      if f' = f ∧ keyOf (s.file f).ft2 p = k then
        (match v with
          | none => 0
          | some b => if (s.blk b).unw then 0 else (s.blk b).raw (p % k.size))
      else byteAt s f' p := by
  unfold byteAt byteIn
  rw [setFile_blk]
  by_cases hf : f' = f
  · subst hf
    rw [setFile_same]
    by_cases hk : keyOf (s.file f').ft2 p = k
    · rw [if_pos ⟨rfl, hk⟩]
      simp only [File.setLeaf, hk, if_pos]
    · rw [if_neg (fun h => hk h.2)]
      simp only [File.setLeaf, hk, if_false]
  · rw [setFile_other _ _ hf, if_neg (fun h => hf h.1)]

theorem meta_setLeaf (s : St) (f : Nat) (k : Key) (v : Option Nat) (d : Int) (f' : Nat) :
    ((s.setFile f ((s.file f).setLeaf k v d)).file f').ft2 = (s.file f').ft2 ∧
    ((s.setFile f ((s.file f).setLeaf k v d)).file f').size = (s.file f').size ∧
    ((s.setFile f ((s.file f).setLeaf k v d)).file f').span = (s.file f').span := by
  by_cases hf : f' = f
  · subst hf; rw [setFile_same]; exact ⟨rfl, rfl, rfl⟩
  · rw [setFile_other _ _ hf]; exact ⟨rfl, rfl, rfl⟩

/-- A hole becomes an unwritten, privately owned block. -/
theorem bind_rel {s : St} (h : Ok s) {f : Nat} {k : Key} {b : Nat} (hk : (s.file f).leaf k = none)
    (hb : ∀ f' k', (s.file f').leaf k' ≠ some b) (hr : (s.blk b).ref = 1) (hu : (s.blk b).unw = true)
    (hn : ∀ i, k = .tr i → (s.file f).node 2 (i / 1024) = true) (f1 a : Nat) (g : Nat → Nat) :
    Rel f1 a a g s (s.setFile f ((s.file f).setLeaf k (some b) k.nkb)) := by
  refine ⟨⟨h.late, h.wf_setLeaf (fun i b' e _ => hn i e), fun c => ?_, h.shw, ?_, h.cnt_bind rfl hk⟩, ?_,
    fun f' => (meta_setLeaf ..).1, fun f' => (meta_setLeaf ..).2.1, fun f' => (meta_setLeaf ..).2.2⟩
  · obtain ⟨L, hL, hl⟩ := h.own c
    refine ⟨_, hL.setLeaf f k (some b) _, ?_⟩
    rw [setFile_blk]
    by_cases hc : c = b
    · subst hc
      have hLn : L = [] := by
        rcases L with _ | ⟨⟨f', k'⟩, L⟩
        · rfl
        · exact absurd ((hL.2 f' k').2 (by simp)) (hb f' k')
      subst hLn
      simp [hr]
    · rw [if_neg (by simpa using Ne.symm hc)]
      exact Nat.le_trans (List.length_erase_le) hl
  · intro f' k' c hl hh
    rw [setLeaf_file] at hl
    rw [setFile_blk]
    split at hl
    · cases hl; omega
    · exact h.head f' k' c hl hh
  · intro f' p
    rw [byteAt_setLeaf, if_neg (c := f' = f1 ∧ a ≤ p ∧ p < a) (by omega)]
    split
    · rename_i he
      obtain ⟨rfl, hkp⟩ := he
      simp only [hu, if_true]
      unfold byteAt byteIn
      rw [hkp, hk]
    · rfl

/-- A mapped block is unmapped and loses one reference. -/
theorem unbind_rel {s : St} (h : Ok s) {f : Nat} {k : Key} {b : Nat} (hk : (s.file f).leaf k = some b)
    {u : Bool} (hu : 1 < (s.blk b).ref - 1 → u = false) {t : St}
    (hsh : (s.blk b).ref ≤ 1 ∨ u = (s.blk b).unw)
    (ht : t = (s.setBlk b ⟨(s.blk b).raw, u, (s.blk b).ref - 1⟩).setFile f
      ((s.file f).setLeaf k none (-k.nkb))) :
    Ok t ∧ (∀ f' p, byteAt t f' p =
      if f' = f ∧ keyOf (s.file f).ft2 p = k then 0 else byteAt s f' p) := by
  have e : t = (s.setBlk b ⟨(s.blk b).raw, u, (s.blk b).ref - 1⟩).setFile f
      (((s.setBlk b ⟨(s.blk b).raw, u, (s.blk b).ref - 1⟩).file f).setLeaf k none (-k.nkb)) := ht
  constructor
  · refine ⟨by rw [ht]; exact h.late, fun f' => ?_, fun c => ?_, fun c hc => ?_, fun f' k' c hl hh => ?_,
      fun f' => ?_⟩
    · rw [ht]
      by_cases hf : f' = f
      · subst hf; rw [setFile_same]; exact (h.wf f').setLeaf (by intro i b' _ hb; cases hb)
      · rw [setFile_other _ _ hf]; exact h.wf f'
    · obtain ⟨L, hL, hl⟩ := h.own c
      have hL' : Users (s.setBlk b ⟨(s.blk b).raw, u, (s.blk b).ref - 1⟩) c L := hL
      refine ⟨_, by rw [e]; exact hL'.setLeaf f k none _, ?_⟩
      rw [if_neg (by simp), ht, setFile_blk]
      by_cases hc : c = b
      · subst hc
        rw [setBlk_same, List.length_erase_of_mem ((hL.2 f k).1 hk)]
        simp only
        omega
      · rw [setBlk_other _ _ hc]
        exact Nat.le_trans (List.length_erase_le) hl
    · rw [ht, setFile_blk] at hc ⊢
      by_cases hcb : c = b
      · subst hcb; rw [setBlk_same] at hc ⊢; exact hu hc
      · rw [setBlk_other _ _ hcb] at hc ⊢; exact h.shw c hc
    · rw [e, setLeaf_file, setBlk_file] at hl
      rw [ht, setFile_blk]
      split at hl
      · cases hl
      · have := h.head f' k' c hl hh
        by_cases hcb : c = b
        · subst hcb; rw [setBlk_same]; simp only; omega
        · rw [setBlk_other _ _ hcb]; exact this
    · rw [ht]; exact h.cnt_unbind (t := s.setBlk b _) rfl hk f'
  · intro f' p
    rw [e, byteAt_setLeaf, setBlk_file]
    by_cases he : f' = f ∧ keyOf (s.file f).ft2 p = k
    · rw [if_pos he, if_pos he]
    · rw [if_neg he, if_neg he, byteAt_setBlk]
      split
      · rename_i hl
        rcases hsh with hs | hs
        · exfalso
          have := h.sole hs hk hl
          exact he ⟨this.1, by rw [← this.1]; exact this.2⟩
        · simp only [hs]
          unfold byteAt byteIn
          rw [hl]
      · rfl

end Silofs.File
