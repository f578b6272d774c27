/-
One step of a range copy: what happens at one pair of leaves.
-/
import Verif.Model.FileCopy
import Verif.Props.FileOps
import Verif.Props.FileSeek

set_option linter.unusedSimpArgs false
set_option linter.unusedVariables false

namespace Silofs.File

theorem wp_and {α : Type} {m : M α} {Q Q' : α → St → Prop} {E E' : St → Prop} {s : St}
    (h : wp m Q E s) (h' : wp m Q' E' s) :
    wp m (fun a t => Q a t ∧ Q' a t) (fun t => E t ∧ E' t) s := by
  intro o
  have h1 := h o
  have h2 := h' o
  rcases hm : m s o with ⟨r | a, s', o'⟩ <;> rw [hm] at h1 h2 <;> exact ⟨h1, h2⟩

/-! ### What a step leaves alone -/

/-- Leaf tables and blocks are as before. -/
def Keep (s s' : St) : Prop := s'.blk = s.blk ∧ ∀ f k, (s'.file f).leaf k = (s.file f).leaf k

theorem Keep.refl (s : St) : Keep s s := ⟨rfl, fun _ _ => rfl⟩
theorem Keep.trans {s t u : St} (h1 : Keep s t) (h2 : Keep t u) : Keep s u :=
  ⟨h2.1.trans h1.1, fun f k => (h2.2 f k).trans (h1.2 f k)⟩

theorem Keep.setFile {s : St} {f : Nat} {x : File} (h : x.leaf = (s.file f).leaf) : Keep s (s.setFile f x) := by
  refine ⟨rfl, fun f' k => ?_⟩
  by_cases hf : f' = f
  · subst hf; rw [setFile_same, h]
  · rw [setFile_other _ _ hf]

theorem spineLoop_keep {f want : Nat} : ∀ (n : Nat) (s : St),
    wp (spineLoop f want n) (fun _ s' => Keep s s') (fun _ => True) s
  | 0, s => wp_pure (Keep.refl s)
  | n + 1, s => by
    unfold spineLoop
    refine wp_bind (wp_getS ?_)
    simp only
    generalize (if (s.file f).root = 0 then 1 else (s.file f).root) = cur
    split
    · refine wp_bind (wp_chk (wp_bind (wp_modS ?_)) trivial)
      refine wp_mono (spineLoop_keep n _) ?_ (fun _ h => h)
      intro _ s' h
      have hk : Keep s (s.setFile f { (s.file f).setNode (cur + 1) 0 true with root := cur + 1 }) :=
        Keep.setFile rfl
      exact hk.trans h
    · exact wp_pure (Keep.refl s)

theorem requirePath_keep {f off : Nat} : ∀ (t i : Nat) (s : St),
    wp (requirePath f off t i) (fun _ s' => Keep s s') (fun _ => True) s
  | 0, _, s => wp_pure (Keep.refl s)
  | t + 1, i, s => by
    unfold requirePath
    split
    · exact wp_pure (Keep.refl s)
    · refine wp_bind (wp_getS ?_)
      simp only
      refine wp_bind (wp_chk ?_ trivial)
      split
      · exact requirePath_keep t _ s
      · refine wp_bind (wp_modS ?_)
        refine wp_mono (requirePath_keep t _ _) ?_ (fun _ h => h)
        intro _ s' h
        have hk : Keep s (s.setFile f ((s.file f).setNode t (childIdx i (nodeSlot (t + 1) i off)) true)) :=
          Keep.setFile rfl
        exact hk.trans h

theorem requireTree_keep {f off : Nat} (s : St) :
    wp (requireTree f off) (fun _ s' => Keep s s') (fun _ => True) s := by
  unfold requireTree
  have hsp : wp (createSpine f off) (fun _ s' => Keep s s') (fun _ => True) s := by
    unfold createSpine
    refine wp_bind (wp_getS ?_)
    split
    · exact spineLoop_keep _ s
    · exact wp_bind (wp_chk (spineLoop_keep _ s) trivial)
  refine wp_bind (wp_mono hsp ?_ (fun _ h => h))
  intro _ s1 h1
  refine wp_bind (wp_chk (wp_bind (wp_getS ?_)) trivial)
  exact wp_mono (requirePath_keep _ _ s1) (fun _ s' h => h1.trans h) (fun _ h => h)

/-- Only leaf `k` of file `f` and blocks nobody else maps changed; the block of that
leaf is privately owned and not newly marked unwritten. -/
structure Fr (f : Nat) (k : Key) (s s' : St) : Prop where
  leaf : ∀ f' k', ¬ (f' = f ∧ k' = k) → (s'.file f').leaf k' = (s.file f').leaf k'
  blk : ∀ c f' k', ¬ (f' = f ∧ k' = k) → (s.file f').leaf k' = some c → s'.blk c = s.blk c
  mine : ∀ c, (s'.file f).leaf k = some c → (s'.blk c).ref ≤ 1
  unw : ∀ c, (s'.file f).leaf k = some c → (s'.blk c).unw = true →
    (s.file f).leaf k = some c ∧ (s.blk c).unw = true

/-- A privately owned block changed. -/
theorem Fr.setBlk {s : St} (h : Ok s) {f b : Nat} {k : Key} {x : Blk} (hk : (s.file f).leaf k = some b)
    (hr : (s.blk b).ref ≤ 1) (hx : x.ref ≤ 1) (hu : x.unw = true → (s.blk b).unw = true) :
    Fr f k s (s.setBlk b x) := by
  refine ⟨fun _ _ _ => rfl, fun c f' k' hne hl => ?_, fun c hl => ?_, fun c hl hc => ?_⟩
  · have : c ≠ b := by
      rintro rfl
      exact hne (h.sole hr hk hl)
    exact setBlk_other _ _ this
  · rw [setBlk_file] at hl; rw [hk] at hl; cases hl; rw [setBlk_same]; exact hx
  · rw [setBlk_file] at hl; rw [hk] at hl; cases hl
    rw [setBlk_same] at hc
    exact ⟨hk, hu hc⟩

/-- Discarding within a privately owned leaf. -/
theorem discardBy_fr {s : St} (h : Ok s) {f b off end_ : Nat} {k : Key} (hk : (s.file f).leaf k = some b)
    (hr : (s.blk b).ref ≤ 1) :
    wp (discardBy f k (some b) off end_ false) (fun _ s' => Fr f k s s') (fun _ => True) s := by
  unfold discardBy
  have key : wp (if isPartial off end_ k.size then discardPartial f k b false off end_
      else discardEntire f k b) (fun _ s' => Fr f k s s') (fun _ => True) s := by
    split
    · unfold discardPartial unshare
      refine wp_bind (wp_pure (wp_bind (wp_chk (wp_modS ?_) trivial)))
      exact Fr.setBlk h hk hr hr (fun hc => hc)
    · unfold discardEntire delData
      refine wp_bind (wp_bind (wp_chk (wp_bind (wp_getS ?_)) trivial))
      have fin : ∀ (x : Blk), wp (setLeaf f k none (-k.nkb)) (fun _ s' => Fr f k s s') (fun _ => True) (s.setBlk b x) := by
        intro x
        refine wp_modS ?_
        refine ⟨fun f' k' hne => ?_, fun c f' k' hne hl => ?_, fun c hl => ?_, fun c hl _ => ?_⟩
        · rw [setLeaf_file, if_neg hne]; rfl
        · have : c ≠ b := by rintro rfl; exact hne (h.sole hr hk hl)
          rw [setFile_blk, setBlk_other _ _ this]
        · rw [setLeaf_file, if_pos ⟨rfl, rfl⟩] at hl; cases hl
        · rw [setLeaf_file, if_pos ⟨rfl, rfl⟩] at hl; cases hl
      split
      · refine wp_bind (wp_chk (wp_bind (wp_modS (wp_bind (wp_chkLate h.late (wp_modS ?_))))) trivial)
        rw [setBlk_setBlk]
        exact fin _
      · refine wp_bind (wp_chk (wp_modS ?_) trivial)
        exact fin _
  have hd : decide (1 < (s.blk b).ref) = false := by simp; omega
  by_cases ht : k.isTree = true
  · simp only [ht, if_true]
    refine wp_bind (detectShared_wp ?_ trivial)
    rw [hd]
    simpa using key
  · simp only [ht, if_false]
    refine wp_bind (wp_pure ?_)
    simpa using key

/-- Discarding all of a leaf leaves a hole. -/
theorem discardBy_gone {s : St} (h : Ok s) {f b off end_ : Nat} {k : Key} (hk : (s.file f).leaf k = some b)
    (hp : isPartial off end_ k.size = false) :
    wp (discardBy f k (some b) off end_ false) (fun _ s' => (s'.file f).leaf k = none) (fun _ => True) s := by
  unfold discardBy
  have key : wp (discardEntire f k b) (fun _ s' => (s'.file f).leaf k = none) (fun _ => True) s := by
    refine wp_mono (discardEntire_wp h hk) ?_ (fun _ _ => trivial)
    rintro _ s' ⟨_, _, hl, _⟩
    rw [hl, if_pos ⟨rfl, rfl⟩]
  by_cases ht : k.isTree = true
  · simp only [ht, if_true]
    refine wp_bind (detectShared_wp ?_ trivial)
    simpa [hp] using key
  · simp only [ht, if_false]
    refine wp_bind (wp_pure ?_)
    simpa [hp] using key

/-- A hole gets a new block. -/
theorem requireLeaf_fr {s : St} (h : Ok s) {f : Nat} {k : Key} (hk : (s.file f).leaf k = none) :
    wp (requireLeaf f k)
      (fun b s' => (∀ f' k', ¬ (f' = f ∧ k' = k) → (s'.file f').leaf k' = (s.file f').leaf k') ∧
        (∀ c, (s.blk c).ref ≠ 0 → s'.blk c = s.blk c) ∧
        (s'.file f).leaf k = some b ∧ (s'.blk b).ref = 1 ∧ (s.blk b).ref = 0) (fun _ => True) s := by
  unfold requireLeaf
  refine wp_bind (wp_getS ?_)
  rw [hk]
  unfold claimData
  refine wp_bind (wp_bind (wp_claimSpace (fun b raw hr => ?_) trivial))
  refine wp_bind (wp_chk (wp_pure ?_) trivial)
  refine wp_bind (wp_modS (wp_pure ?_))
  refine ⟨fun f' k' hne => ?_, fun c hc => ?_, ?_, ?_, hr⟩
  · rw [setLeaf_file, if_neg hne]; rfl
  · rw [setFile_blk, setBlk_other]; rintro rfl; exact hc hr
  · rw [setLeaf_file, if_pos ⟨rfl, rfl⟩]
  · rw [setFile_blk, setBlk_same]

/-! ### Copying bytes between two blocks -/

theorem preWrite_written {s : St} {b sz : Nat} {part : Bool} {Q : Unit → St → Prop} {E : St → Prop}
    (hu : (s.blk b).unw = false) (hq : Q () s) (he : E s) : wp (preWrite b sz part) Q E s := by
  refine wp_preWrite (fun r1 _ h2 => ?_) he
  rw [h2 hu]
  rw [show (⟨(s.blk b).raw, (s.blk b).unw, (s.blk b).ref⟩ : Blk) = s.blk b from rfl, setBlk_self]
  exact hq

theorem copyOff_eq {off sz len : Nat} (h : off % sz + len ≤ sz) : copyOff off sz len = off % sz := by
  unfold copyOff offInData
  split <;> omega

/-- The bytes of the source appear in the destination; nothing else changes. -/
theorem copyLeaf_wp {s : St} (h : Ok s) {f1 f2 b1 b2 off1 off2 len : Nat} {k1 k2 : Key}
    (hk1 : (s.file f1).leaf k1 = some b1) (hu1 : (s.blk b1).unw = false)
    (hk2 : (s.file f2).leaf k2 = some b2) (hr2 : (s.blk b2).ref ≤ 1)
    (hy1 : keyOf (s.file f1).ft2 off1 = k1) (hy2 : keyOf (s.file f2).ft2 off2 = k2)
    (hl1 : off1 % k1.size + len ≤ k1.size) (hl2 : off2 % k2.size + len ≤ k2.size) :
    wp (copyLeaf b1 k1.size off1 b2 k2.size off2 len)
      (fun _ s' => (Rel f2 off2 (off2 + len) (fun p => byteAt s f1 (off1 + (p - off2))) s s' ∧ Shape s s') ∧
        Fr f2 k2 s s' ∧ (s'.file f2).leaf k2 = some b2 ∧ (s'.blk b2).unw = false)
      (fun s' => Rel f2 off2 off2 (fun _ => 0) s s' ∧ Shape s s') s := by
  have hin2 : ∀ p, off2 ≤ p → p < off2 + len → keyOf (s.file f2).ft2 p = k2 := by
    intro p p1 p2
    rw [← hy2]
    apply key_range <;> rw [hy2] <;> omega
  have hin1 : ∀ p, off1 ≤ p → p < off1 + len → keyOf (s.file f1).ft2 p = k1 := by
    intro p p1 p2
    rw [← hy1]
    apply key_range <;> rw [hy1] <;> omega
  have hsub : ∀ p, keyOf (s.file f2).ft2 p = k2 → p - p % k2.size = off2 - off2 % k2.size := by
    intro p hp
    have := key_sub (ft2 := (s.file f2).ft2) (p := off2) (q := p) (by rw [hy2, hp])
    rw [hy2] at this; exact this.symm
  have hsub1 : ∀ p, keyOf (s.file f1).ft2 p = k1 → p - p % k1.size = off1 - off1 % k1.size := by
    intro p hp
    have := key_sub (ft2 := (s.file f1).ft2) (p := off1) (q := p) (by rw [hy1, hp])
    rw [hy1] at this; exact this.symm
  have herr : ∀ raw, (∀ o, o < k2.size → (s.blk b2).unw = false → raw o = (s.blk b2).raw o) →
      Rel f2 off2 off2 (fun _ => 0) s (s.setBlk b2 ⟨raw, (s.blk b2).unw, (s.blk b2).ref⟩) ∧
      Shape s (s.setBlk b2 ⟨raw, (s.blk b2).unw, (s.blk b2).ref⟩) := by
    intro raw hraw
    refine ⟨setBlk_rel (lo := off2) (hi := off2) h hk2 hr2 (by rfl) (fun p _ _ => by omega) (fun p hp => ?_), Shape.setBlk ..⟩
    rw [if_neg (c := off2 ≤ p ∧ p < off2) (by omega), byteAt_some (b := b2) (by rw [hp]; exact hk2), hp]
    simp only
    by_cases hu : (s.blk b2).unw = true
    · simp [hu]
    · have hu' : (s.blk b2).unw = false := by simpa using hu
      simp only [hu']
      rw [hraw _ (Nat.mod_lt _ k2.size_pos) hu']
  unfold copyLeaf
  refine wp_bind (wp_preWrite (fun r1 hr1 hr1' => ?_) (by
    have := herr (s.blk b2).raw (fun _ _ _ => rfl)
    rw [show (⟨(s.blk b2).raw, (s.blk b2).unw, (s.blk b2).ref⟩ : Blk) = s.blk b2 from rfl, setBlk_self] at this
    exact this))
  have he1 := herr r1 (fun o ho hu => by rw [hr1' hu])
  -- state after the destination was prepared
  have hu1' : ((s.setBlk b2 ⟨r1, (s.blk b2).unw, (s.blk b2).ref⟩).blk b1).unw = false := by
    by_cases hb : b1 = b2
    · subst hb; rw [setBlk_same]; exact hu1
    · rw [setBlk_other _ _ hb]; exact hu1
  have hraw1 : ((s.setBlk b2 ⟨r1, (s.blk b2).unw, (s.blk b2).ref⟩).blk b1).raw = (s.blk b1).raw := by
    by_cases hb : b1 = b2
    · subst hb; rw [setBlk_same]; exact hr1' hu1
    · rw [setBlk_other _ _ hb]
  refine wp_bind (preWrite_written hu1' ?_ he1)
  refine wp_bind (wp_chk (wp_bind (wp_chk (wp_bind (wp_getS (wp_bind (wp_modS ?_)))) he1)) he1)
  rw [hraw1, setBlk_setBlk, setBlk_same, copyOff_eq hl1, copyOff_eq hl2]
  simp only
  -- the final content
  have hbyte : ∀ p, off1 ≤ p → p < off1 + len → byteAt s f1 p = (s.blk b1).raw (p % k1.size) := by
    intro p p1 p2
    rw [byteAt_some (b := b1) (by rw [hin1 p p1 p2]; exact hk1), hu1, hin1 p p1 p2]
    rfl
  generalize hR : (fun o => if off2 % k2.size ≤ o ∧ o < off2 % k2.size + len
    then (s.blk b1).raw (off1 % k1.size + (o - off2 % k2.size)) else r1 o) = R
  have hfin : (Rel f2 off2 (off2 + len) (fun p => byteAt s f1 (off1 + (p - off2))) s
      (s.setBlk b2 ⟨R, false, (s.blk b2).ref⟩) ∧ Shape s (s.setBlk b2 ⟨R, false, (s.blk b2).ref⟩)) ∧
      Fr f2 k2 s (s.setBlk b2 ⟨R, false, (s.blk b2).ref⟩) ∧
      ((s.setBlk b2 ⟨R, false, (s.blk b2).ref⟩).file f2).leaf k2 = some b2 ∧
      ((s.setBlk b2 ⟨R, false, (s.blk b2).ref⟩).blk b2).unw = false := by
    refine ⟨⟨setBlk_rel h hk2 hr2 (by rfl) hin2 (fun p hp => ?_), Shape.setBlk ..⟩,
      Fr.setBlk h hk2 hr2 hr2 (fun hc => by cases hc), hk2, by rw [setBlk_same]⟩
    have hps := hsub p hp
    have hpm := Nat.mod_lt p k2.size_pos
    have hple := Nat.mod_le p k2.size
    have hole := Nat.mod_le off2 k2.size
    have hole1 := Nat.mod_le off1 k1.size
    simp only [Bool.false_eq_true, if_false]
    rw [← hR]
    simp only
    by_cases hc : off2 ≤ p ∧ p < off2 + len
    · rw [if_pos hc, if_pos (by omega), hbyte _ (by omega) (by omega)]
      congr 1
      have h1 := hsub1 (off1 + (p - off2)) (hin1 _ (by omega) (by omega))
      have h2 := Nat.mod_le (off1 + (p - off2)) k1.size
      omega
    · rw [if_neg hc, if_neg (by omega), byteAt_some (b := b2) (by rw [hp]; exact hk2), hp]
      by_cases hpart : len < k2.size
      · rw [hr1 (by simp [hpart]) _ hpm]
      · exfalso; omega
  by_cases hu2 : (s.blk b2).unw = true
  · simp only [hu2, if_true]
    refine wp_bind (wp_chk (wp_modS ?_) ?_)
    · rw [setBlk_setBlk, setBlk_same]
      exact hfin
    · have := herr R (fun o ho hu => by rw [hu2] at hu; cases hu)
      rw [hu2] at this
      exact this
  · have hu2' : (s.blk b2).unw = false := by simpa using hu2
    simp only [hu2', Bool.false_eq_true, if_false]
    exact wp_pure hfin

end Silofs.File
