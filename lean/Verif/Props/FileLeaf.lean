/-
Leaf-level steps of the file data path: what requiring, writing, un-sharing and
discarding one leaf does to file contents.
-/
import Verif.Props.FileBase

set_option linter.unusedSimpArgs false
set_option linter.unusedVariables false

namespace Silofs.File

theorem setBlk_self (s : St) (b : Nat) : s.setBlk b (s.blk b) = s := by
  unfold St.setBlk
  have : (fun b' => if b' = b then s.blk b else s.blk b') = s.blk := by
    funext c; split
    · rename_i h; rw [h]
    · rfl
  rw [this]

theorem setBlk_setBlk (s : St) (b : Nat) (x y : Blk) : (s.setBlk b x).setBlk b y = s.setBlk b y := by
  unfold St.setBlk
  congr 1
  funext c
  simp only
  split <;> rfl

/-! ### Lengths inside a leaf -/

theorem len_facts {off end_ sz : Nat} (hs : 0 < sz) (ho : off < end_) :
    0 < lenOfData off end_ sz ∧ off % sz + lenOfData off end_ sz ≤ sz ∧
    off + lenOfData off end_ sz ≤ end_ ∧
    (isPartial off end_ sz = false → off % sz = 0 ∧ lenOfData off end_ sz = sz) ∧
    (off + lenOfData off end_ sz = end_ ∨ off + lenOfData off end_ sz = off - off % sz + sz) := by
  have hm := Nat.mod_lt off hs
  have hle := Nat.mod_le off sz
  unfold lenOfData isPartial
  rw [offNext_eq off hs, offAlign_eq]
  simp only [Bool.or_eq_false_iff, decide_eq_false_iff_not, Decidable.not_not]
  split <;> refine ⟨by omega, by omega, by omega, fun h => ⟨by omega, by omega⟩, by omega⟩

theorem lenToNext_eq {off sz : Nat} (hs : 0 < sz) : lenToNext off sz = sz - off % sz := by
  have hm := Nat.mod_lt off hs
  have hle := Nat.mod_le off sz
  unfold lenToNext
  rw [offNext_eq off hs]
  omega

/-- Positions of the same leaf differ as their offsets in the leaf. -/
theorem key_sub {ft2 : Bool} {p q : Nat} (h : keyOf ft2 q = keyOf ft2 p) :
    p - p % (keyOf ft2 p).size = q - q % (keyOf ft2 p).size := by
  have h' := (C06_same_leaf ft2 p q).1 h
  have h1 := Nat.div_add_mod p (keyOf ft2 p).size
  have h2 := Nat.div_add_mod q (keyOf ft2 p).size
  rw [h'] at h2
  omega

/-- A position in the same aligned leaf range has the same key. -/
theorem key_range {ft2 : Bool} {p q : Nat} (h1 : p - p % (keyOf ft2 p).size ≤ q)
    (h2 : q < p - p % (keyOf ft2 p).size + (keyOf ft2 p).size) : keyOf ft2 q = keyOf ft2 p := by
  rw [C06_same_leaf]
  have hs := (keyOf ft2 p).size_pos
  generalize (keyOf ft2 p).size = sz at *
  have h3 := Nat.div_add_mod p sz
  have h5 : sz * (p / sz) ≤ q := by omega
  have h6 : q < sz * (p / sz + 1) := by rw [Nat.mul_add, Nat.mul_one]; omega
  have a1 : p / sz ≤ q / sz := (Nat.le_div_iff_mul_le hs).2 (by rw [Nat.mul_comm]; exact h5)
  have a2 : q / sz < p / sz + 1 := (Nat.div_lt_iff_lt_mul hs).2 (by rw [Nat.mul_comm]; exact h6)
  omega

theorem byteAt_some {s : St} {f p b : Nat}
    (h : (s.file f).leaf (keyOf (s.file f).ft2 p) = some b) :
    byteAt s f p = if (s.blk b).unw then 0 else (s.blk b).raw (p % (keyOf (s.file f).ft2 p).size) := by
  unfold byteAt byteIn
  rw [h]

theorem byteAt_none {s : St} {f p : Nat}
    (h : (s.file f).leaf (keyOf (s.file f).ft2 p) = none) : byteAt s f p = 0 := by
  unfold byteAt byteIn
  rw [h]

/-! ### Changing a privately owned block -/

theorem setBlk_rel {s : St} (h : Ok s) {f b : Nat} {k : Key} {x : Blk}
    (hk : (s.file f).leaf k = some b) (hr : (s.blk b).ref ≤ 1) (hxr : x.ref = (s.blk b).ref)
    {lo hi : Nat} {g : Nat → Nat} (hin : ∀ p, lo ≤ p → p < hi → keyOf (s.file f).ft2 p = k)
    (hx : ∀ p, keyOf (s.file f).ft2 p = k →
      (if x.unw then 0 else x.raw (p % k.size)) = if lo ≤ p ∧ p < hi then g p else byteAt s f p) :
    Rel f lo hi g s (s.setBlk b x) := by
  refine ⟨h.setBlk hxr (by omega), fun f' p => ?_, fun _ => rfl, fun _ => rfl, fun _ => rfl⟩
  rw [byteAt_setBlk]
  split
  · rename_i hl
    obtain ⟨rfl, hkp⟩ := h.sole hr hk hl
    rw [hkp, hx p hkp]
    simp
  · rename_i hl
    rw [if_neg]
    rintro ⟨rfl, h1, h2⟩
    rw [hin p h1 h2] at hl
    exact hl hk

theorem wp_preWrite {s : St} {b sz : Nat} {part : Bool} {Q : Unit → St → Prop} {E : St → Prop}
    (hq : ∀ r1, (part = true → ∀ o, o < sz → r1 o = if (s.blk b).unw then 0 else (s.blk b).raw o) →
      ((s.blk b).unw = false → r1 = (s.blk b).raw) →
      Q () (s.setBlk b ⟨r1, (s.blk b).unw, (s.blk b).ref⟩)) (he : E s) :
    wp (preWrite b sz part) Q E s := by
  unfold preWrite
  refine wp_bind (wp_chk (wp_bind (wp_getS ?_)) he)
  split
  · rename_i hc
    refine wp_bind (wp_chk (wp_modS (hq _ (fun _ o ho => ?_) (fun hu => ?_))) he)
    · simp only; rw [if_pos ho, if_pos hc.1]
    · rw [hu] at hc; exact absurd hc.1 (by simp)
  · rename_i hc
    refine wp_pure ?_
    have := hq (s.blk b).raw (fun hp o _ => ?_) (fun _ => rfl)
    · rwa [setBlk_self] at this
    · rw [if_neg]; exact fun hu => hc ⟨hu, hp⟩

/-- Writing one privately owned leaf. -/
theorem writeLeaf_wp {s : St} (h : Ok s) {f b off end_ sz : Nat} {k : Key} {dat : Nat → Nat}
    (hk : (s.file f).leaf k = some b) (hkey : keyOf (s.file f).ft2 off = k) (hsz : k.size = sz)
    (hr : (s.blk b).ref ≤ 1) (ho : off < end_) :
    wp (writeLeaf b sz off end_ dat)
      (fun _ s' => Rel f off (off + lenOfData off end_ sz) dat s s' ∧ Shape s s')
      (fun s' => Rel f off off dat s s' ∧ Shape s s') s := by
  subst hsz
  obtain ⟨l1, l2, l3, l4, l5⟩ := len_facts k.size_pos ho
  have hkk : ∀ p, keyOf (s.file f).ft2 p = k → p - p % k.size = off - off % k.size := by
    intro p hp
    have := key_sub (ft2 := (s.file f).ft2) (p := off) (q := p) (by rw [hkey, hp])
    rw [hkey] at this; exact this.symm
  have hin : ∀ p, off ≤ p → p < off + lenOfData off end_ k.size → keyOf (s.file f).ft2 p = k := by
    intro p h1 h2
    rw [← hkey]
    apply key_range <;> rw [hkey] <;> omega
  have herr : Rel f off off dat s s ∧ Shape s s := ⟨Rel.refl _ _ _ h, Shape.refl _⟩
  unfold writeLeaf
  refine wp_bind (wp_preWrite (fun r1 p1 p2 => ?_) herr)
  have hsame : ∀ r, (∀ o, (s.blk b).unw = false → r o = (s.blk b).raw o) →
      Rel f off off dat s (s.setBlk b ⟨r, (s.blk b).unw, (s.blk b).ref⟩) := by
    intro r hrr
    refine setBlk_rel h hk hr (by rfl) (by omega) (fun p hp => ?_)
    rw [if_neg (c := off ≤ p ∧ p < off) (by omega), byteAt_some (by rw [hp]; exact hk)]
    rw [hp]
    simp only
    by_cases hu : (s.blk b).unw = true
    · simp [hu]
    · rw [if_neg hu, if_neg hu, hrr _ (by simpa using hu)]
  have he1 := hsame r1 (fun o hu => by rw [p2 hu])
  refine wp_bind (wp_chk (wp_bind (wp_chk (wp_bind (wp_modS ?_)) ⟨he1, Shape.setBlk ..⟩)) ⟨he1, Shape.setBlk ..⟩)
  rw [setBlk_setBlk, setBlk_same]
  refine wp_bind (wp_chkLate h.late (wp_modS ⟨?_, ?_⟩))
  · rw [setBlk_setBlk, setBlk_same]
    refine setBlk_rel h hk hr (by rfl) hin (fun p hp => ?_)
    have hb := hkk p hp
    have hm := Nat.mod_le p k.size
    have hm' := Nat.mod_le off k.size
    have hlt := Nat.mod_lt p k.size_pos
    have hoid : offInData off k.size = off % k.size := rfl
    simp only [Bool.false_eq_true, if_false]
    by_cases hc : off ≤ p ∧ p < off + lenOfData off end_ k.size
    · rw [if_pos hc, if_pos (by omega)]
      congr 1; omega
    · rw [if_neg hc, if_neg (by omega), byteAt_some (by rw [hp]; exact hk), hp]
      by_cases hpart : isPartial off end_ k.size = true
      · exact p1 hpart _ hlt
      · have := l4 (by simpa using hpart)
        exfalso; omega
  · rw [setBlk_setBlk]; exact Shape.setBlk ..

/-- The block of a leaf, claimed as unwritten if it was a hole. -/
theorem requireLeaf_wp {s : St} (h : Ok s) {f : Nat} {k : Key}
    (hn : ∀ i, k = .tr i → (s.file f).node 2 (i / 1024) = true) (f1 a : Nat) (g : Nat → Nat) :
    wp (requireLeaf f k)
      (fun b s' => Rel f1 a a g s s' ∧ Shape s s' ∧ (s'.file f).leaf k = some b)
      (fun s' => Rel f1 a a g s s' ∧ Shape s s') s := by
  have herr : Rel f1 a a g s s ∧ Shape s s := ⟨Rel.refl _ _ _ h, Shape.refl _⟩
  unfold requireLeaf
  refine wp_bind (wp_getS ?_)
  rcases hl : (s.file f).leaf k with _ | b
  · simp only [claimData]
    refine wp_bind (wp_bind (wp_claimSpace (fun b raw hb => ?_) herr))
    have hc := claim_rel h hb raw f1 a g
    refine wp_bind (wp_chk (wp_pure (wp_bind (wp_modS (wp_pure ?_)))) ⟨hc, Shape.setBlk ..⟩)
    have hbind := bind_rel hc.ok (f := f) (k := k) (b := b) hl (h.unmapped hb) (by simp) (by simp)
      hn f1 a g
    refine ⟨hc.trans hbind (Nat.le_refl _) (Nat.le_refl _), (Shape.setBlk ..).trans (Shape.setLeaf ..), ?_⟩
    rw [setLeaf_file, if_pos ⟨rfl, rfl⟩]
  · simp only
    exact wp_bind (wp_chk (wp_pure ⟨herr.1, herr.2, hl⟩) herr)

/-- Rebinding a shared leaf to a private copy. -/
theorem rebind_rel {s : St} (h : Ok s) {f : Nat} {k : Key} {b b' : Nat} (hkt : k.isTree = true)
    (hk : (s.file f).leaf k = some b) (hb' : ∀ f1 k1, (s.file f1).leaf k1 ≠ some b')
    (hr1 : (s.blk b').ref = 1) (hsh : 1 < (s.blk b).ref)
    (hsame : ∀ o, o < k.size → (if (s.blk b').unw then 0 else (s.blk b').raw o) =
      (if (s.blk b).unw then 0 else (s.blk b).raw o)) (f1 a : Nat) (g : Nat → Nat) :
    Rel f1 a a g s ((s.setBlk b { s.blk b with ref := (s.blk b).ref - 1 }).setFile f
      ((s.file f).setLeaf k (some b') 0)) := by
  have hne : b' ≠ b := by rintro rfl; exact hb' f k hk
  have hfile : ∀ (x : Blk) f' k', (((s.setBlk b x).setFile f
      ((s.file f).setLeaf k (some b') 0)).file f').leaf k' =
        if f' = f ∧ k' = k then some b' else (s.file f').leaf k' := by
    intro x f' k'
    exact setLeaf_file (s.setBlk b x) f k (some b') _ f' k'
  refine ⟨⟨h.late, fun f' => ?_, fun c => ?_, fun c hc => ?_, fun f' k' c hl hh => ?_,
    h.cnt_rebind (t := s.setBlk b _) rfl hk⟩, ?_, ?_, ?_, ?_⟩
  · by_cases hf : f' = f
    · subst hf
      rw [setFile_same]
      refine (h.wf f').setLeaf (fun i b0 e _ => ?_)
      subst e
      exact (h.wf f').leaf i b hk
    · rw [setFile_other _ _ hf]; exact h.wf f'
  · obtain ⟨L, hL, hl⟩ := h.own c
    have hL0 : Users (s.setBlk b { s.blk b with ref := (s.blk b).ref - 1 }) c L := hL
    refine ⟨_, hL0.setLeaf f k (some b') _, ?_⟩
    rw [setFile_blk]
    by_cases hcb' : c = b'
    · subst hcb'
      have hLn : L = [] := by
        rcases L with _ | ⟨⟨f', k'⟩, L⟩
        · rfl
        · exact absurd ((hL.2 f' k').2 (by simp)) (hb' f' k')
      subst hLn
      rw [setBlk_other _ _ hne]
      simp [hr1]
    · rw [if_neg (by simpa using Ne.symm hcb')]
      by_cases hcb : c = b
      · subst hcb
        rw [setBlk_same, List.length_erase_of_mem ((hL.2 f k).1 hk)]
        simp only
        omega
      · rw [setBlk_other _ _ hcb]
        exact Nat.le_trans (List.length_erase_le) hl
  · rw [setFile_blk] at hc ⊢
    by_cases hcb : c = b
    · subst hcb; rw [setBlk_same] at hc ⊢; exact h.shw _ hsh
    · rw [setBlk_other _ _ hcb] at hc ⊢; exact h.shw c hc
  · rw [hfile] at hl
    rw [setFile_blk]
    split at hl
    · rename_i he; rw [he.2, hkt] at hh; cases hh
    · have := h.head f' k' c hl hh
      by_cases hcb : c = b
      · subst hcb; rw [setBlk_same]; simp only; omega
      · rw [setBlk_other _ _ hcb]; exact this
  · intro f' p
    rw [if_neg (c := f' = f1 ∧ a ≤ p ∧ p < a) (by omega)]
    have := byteAt_setLeaf (s.setBlk b { s.blk b with ref := (s.blk b).ref - 1 }) f k (some b') 0 f' p
    rw [setBlk_file] at this
    rw [this]
    by_cases he : f' = f ∧ keyOf (s.file f).ft2 p = k
    · rw [if_pos he]
      obtain ⟨rfl, hkp⟩ := he
      simp only
      rw [setBlk_other _ _ hne, hsame _ (Nat.mod_lt _ k.size_pos), byteAt_some (by rw [hkp]; exact hk), hkp]
    · rw [if_neg he, byteAt_setBlk]
      split
      · rename_i hl; rw [byteAt_some hl]
      · rfl
  · exact fun f' => (meta_setLeaf (s.setBlk b _) f k (some b') _ f').1
  · exact fun f' => (meta_setLeaf (s.setBlk b _) f k (some b') _ f').2.1
  · exact fun f' => (meta_setLeaf (s.setBlk b _) f k (some b') _ f').2.2

/-- A block changed that nobody maps. -/
theorem setBlk_unmapped_rel {s : St} (h : Ok s) {b : Nat} {x : Blk}
    (hm : ∀ f k, (s.file f).leaf k ≠ some b) (hx : x.ref = (s.blk b).ref) (hr : x.ref ≤ 1)
    (f a : Nat) (g : Nat → Nat) : Rel f a a g s (s.setBlk b x) :=
  ⟨h.setBlk hx (by omega), fun f' p => by rw [byteAt_setBlk_unmapped hm, if_neg (by omega)],
    fun _ => rfl, fun _ => rfl, fun _ => rfl⟩

/-- Un-sharing: afterwards the leaf is privately owned, contents are as before. -/
theorem unshare_wp {s : St} (h : Ok s) {f b : Nat} {k : Key} (hk : (s.file f).leaf k = some b)
    (hkt : k.isTree = true) {sh : Bool} (hsh : sh = decide (1 < (s.blk b).ref))
    (f1 a : Nat) (g : Nat → Nat) :
    wp (unshare f k b sh)
      (fun b' s' => Rel f1 a a g s s' ∧ Shape s s' ∧ (s'.file f).leaf k = some b' ∧ (s'.blk b').ref ≤ 1)
      (fun s' => Rel f1 a a g s s' ∧ Shape s s') s := by
  have herr : Rel f1 a a g s s ∧ Shape s s := ⟨Rel.refl _ _ _ h, Shape.refl _⟩
  unfold unshare
  subst hsh
  by_cases hs : 1 < (s.blk b).ref
  · simp only [hs, decide_true, if_true]
    simp only [claimData]
    refine wp_bind (wp_bind (wp_claimSpace (fun b' raw hb => ?_) herr))
    have hne : b ≠ b' := by rintro rfl; omega
    have hc := claim_rel h hb raw f1 a g
    refine wp_bind (wp_chk (wp_pure ?_) ⟨hc, Shape.setBlk ..⟩)
    -- the state with the new block holding anything
    have hany : ∀ (r : Nat → Nat) (u : Bool), Rel f1 a a g s (s.setBlk b' ⟨r, u, 1⟩) := by
      intro r u
      have := setBlk_unmapped_rel hc.ok (b := b') (x := ⟨r, u, 1⟩) (h.unmapped hb) (by simp) (by simp) f1 a g
      rw [setBlk_setBlk] at this
      exact hc.trans this (Nat.le_refl _) (Nat.le_refl _)
    have hundo : ∀ (r : Nat → Nat) (u : Bool),
        wp (reclaimData b') (fun _ s' => Rel f1 a a g s s' ∧ Shape s s')
          (fun s' => Rel f1 a a g s s' ∧ Shape s s') (s.setBlk b' ⟨r, u, 1⟩) := by
      intro r u
      refine wp_bind (wp_chk (wp_modS ⟨?_, ?_⟩) ⟨hany r u, Shape.setBlk ..⟩)
      · exact (hany r u).trans (unref_rel (hany r u).ok (h.unmapped hb) f1 a g) (Nat.le_refl _) (Nat.le_refl _)
      · rw [setBlk_setBlk]; exact Shape.setBlk ..
    refine wp_bind (wp_onErr ?_)
    unfold copyWhole
    refine wp_bind (wp_chk (wp_bind (wp_chk (wp_bind (wp_getS (wp_bind (wp_modS ?_)))) ?_)) ?_)
    rotate_left
    · exact hundo _ _
    · exact hundo _ _
    rw [setBlk_setBlk, setBlk_same, setBlk_other _ _ hne]
    refine wp_bind (wp_chk (wp_modS ?_) (hundo _ _))
    rw [setBlk_setBlk, setBlk_same]
    simp only
    have hgood := hany (s.blk b).raw false
    refine wp_bind (wp_bind (wp_chk (wp_modS (wp_bind (wp_modS (wp_pure ?_)))) ⟨hgood, Shape.setBlk ..⟩))
    have hreb := rebind_rel hgood.ok (f := f) (k := k) (b := b) (b' := b') hkt hk (h.unmapped hb)
      (by simp) (by rw [setBlk_other _ _ hne]; exact hs)
      (by
        intro o _
        rw [setBlk_same, setBlk_other _ _ hne, h.shw b hs]) f1 a g
    refine ⟨hgood.trans hreb (Nat.le_refl _) (Nat.le_refl _), ?_, ?_, ?_⟩
    · exact (Shape.setBlk s b' _).trans ((Shape.setBlk _ b _).trans (Shape.setLeaf _ f k _ _))
    · rw [setLeaf_file, if_pos ⟨rfl, rfl⟩]
    · rw [setFile_blk, setBlk_other _ _ (Ne.symm hne), setBlk_same]
      simp
  · simp only [hs, decide_false, Bool.false_eq_true, if_false]
    exact wp_pure ⟨herr.1, herr.2, hk, by omega⟩

theorem detectShared_wp {s : St} {b : Nat} {Q : Bool → St → Prop} {E : St → Prop}
    (hq : Q (decide (1 < (s.blk b).ref)) s) (he : E s) : wp (detectShared b) Q E s := by
  unfold detectShared
  exact wp_bind (wp_chk (wp_bind (wp_getS (wp_pure hq))) he)

end Silofs.File
