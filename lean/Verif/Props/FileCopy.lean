/-
C04 and C03: a range copy within the documented use copies exactly the bytes of
the source, and later requests see byte arrays again.
-/
import Verif.Props.FileCopyStep
import Verif.Props.FileCopyBad

set_option linter.unusedSimpArgs false
set_option linter.unusedVariables false

namespace Silofs.File

open FileSpec (AFile FS)

/-! ### Sharing a block -/

/-- A tree leaf that was a hole is bound to the block of another leaf. -/
theorem share_rel {s : St} (h : Ok s) {f1 f2 b : Nat} {k1 k2 : Key}
    (hk1 : (s.file f1).leaf k1 = some b) (hu : (s.blk b).unw = false) (ht1 : k1.isTree = true)
    (hk2 : (s.file f2).leaf k2 = none) (ht2 : k2.isTree = true)
    (hn : ∀ i, k2 = .tr i → (s.file f2).node 2 (i / 1024) = true) {t : St}
    (ht : t = (s.setBlk b { s.blk b with ref := (s.blk b).ref + 1 }).setFile f2
      ((s.file f2).setLeaf k2 (some b) k2.nkb)) :
    Ok t ∧ (∀ f' p, byteAt t f' p =
      if f' = f2 ∧ keyOf (s.file f2).ft2 p = k2 then (s.blk b).raw (p % k2.size) else byteAt s f' p) := by
  have e : t = (s.setBlk b { s.blk b with ref := (s.blk b).ref + 1 }).setFile f2
      (((s.setBlk b { s.blk b with ref := (s.blk b).ref + 1 }).file f2).setLeaf k2 (some b) k2.nkb) := ht
  have hb1 := h.ref_pos hk1
  constructor
  · refine ⟨by rw [ht]; exact h.late, fun f' => ?_, fun c => ?_, fun c hc => ?_, fun f' k' c hl hh => ?_,
      fun f' => by rw [ht]; exact h.cnt_bind (t := s.setBlk b _) rfl hk2 f'⟩
    · rw [ht]
      by_cases hf : f' = f2
      · subst hf; rw [setFile_same]; exact (h.wf f').setLeaf (fun i _ e _ => hn i e)
      · rw [setFile_other _ _ hf]; exact h.wf f'
    · obtain ⟨L, hL, hl⟩ := h.own c
      have hL' : Users (s.setBlk b { s.blk b with ref := (s.blk b).ref + 1 }) c L := hL
      refine ⟨_, by rw [e]; exact hL'.setLeaf f2 k2 (some b) _, ?_⟩
      rw [ht, setFile_blk]
      by_cases hc : c = b
      · subst hc
        rw [setBlk_same, if_pos rfl]
        simp only
        split
        · omega
        · rw [List.length_cons]; omega
      · rw [setBlk_other _ _ hc, if_neg (by simpa using Ne.symm hc)]
        exact Nat.le_trans (List.length_erase_le) hl
    · rw [ht, setFile_blk] at hc ⊢
      by_cases hcb : c = b
      · subst hcb; rw [setBlk_same]; exact hu
      · rw [setBlk_other _ _ hcb] at hc ⊢; exact h.shw c hc
    · rw [e, setLeaf_file, setBlk_file] at hl
      rw [ht, setFile_blk]
      split at hl
      · rename_i hc; rw [hc.2, ht2] at hh; cases hh
      · have hne : c ≠ b := by
          rintro rfl
          have hr := h.head f' k' c hl hh
          have := h.sole hr hk1 hl
          rw [this.2, ht1] at hh; cases hh
        rw [setBlk_other _ _ hne]
        exact h.head f' k' c hl hh
  · intro f' p
    rw [e, byteAt_setLeaf, setBlk_file]
    by_cases he : f' = f2 ∧ keyOf (s.file f2).ft2 p = k2
    · rw [if_pos he, if_pos he]
      simp only [setBlk_same, hu, Bool.false_eq_true, if_false]
    · rw [if_neg he, if_neg he, byteAt_setBlk]
      split
      · rename_i hl
        rw [byteAt_some hl]
      · rfl

/-! ### One step -/

/-- What a copy of `[off1,end1)` of file `f1` to `[off2,end2)` of file `f2` needs: ranges of
the same length that do not overlap, no unwritten leaf in the source and no shared
leaf in the destination. -/
structure CpPre (f1 off1 end1 f2 off2 end2 : Nat) (s : St) : Prop where
  ok : Ok s
  le1 : off1 ≤ end1
  le2 : off2 ≤ end2
  len : end1 - off1 = end2 - off2
  sep : f1 ≠ f2 ∨ end2 ≤ off1 ∨ end1 ≤ off2
  max : end2 ≤ sizeMax + 1
  src : ∀ p b, off1 ≤ p → p < end1 → (s.file f1).leaf (keyOf (s.file f1).ft2 p) = some b →
    (s.blk b).unw = false
  dst : ∀ p b, off2 ≤ p → p < end2 → (s.file f2).leaf (keyOf (s.file f2).ft2 p) = some b →
    (s.blk b).ref ≤ 1

/-- Contents changed at most in `[lo,hi)` of file `f`. -/
structure CpOut (f lo hi : Nat) (s s' : St) : Prop where
  ok : Ok s'
  keep : ∀ f' p, ¬ (f' = f ∧ lo ≤ p ∧ p < hi) → byteAt s' f' p = byteAt s f' p
  ft2 : ∀ f', (s'.file f').ft2 = (s.file f').ft2
  size : ∀ f', (s'.file f').size = (s.file f').size
  span : ∀ f', (s'.file f').span = (s.file f').span

theorem CpOut.refl {s : St} (h : Ok s) (f lo hi : Nat) : CpOut f lo hi s s :=
  ⟨h, fun _ _ _ => rfl, fun _ => rfl, fun _ => rfl, fun _ => rfl⟩

theorem CpOut.trans {f lo hi : Nat} {s t u : St} (h1 : CpOut f lo hi s t) (h2 : CpOut f lo hi t u) :
    CpOut f lo hi s u :=
  ⟨h2.ok, fun f' p hp => (h2.keep f' p hp).trans (h1.keep f' p hp), fun f' => (h2.ft2 f').trans (h1.ft2 f'),
    fun f' => (h2.size f').trans (h1.size f'), fun f' => (h2.span f').trans (h1.span f')⟩

theorem CpOut.wide {f lo hi lo' hi' : Nat} {s t : St} (h : CpOut f lo hi s t) (h1 : lo' ≤ lo) (h2 : hi ≤ hi') :
    CpOut f lo' hi' s t :=
  ⟨h.ok, fun f' p hp => h.keep f' p (fun ⟨a, b, c⟩ => hp ⟨a, by omega, by omega⟩), h.ft2, h.size, h.span⟩

theorem Rel.out {f a b lo hi : Nat} {g : Nat → Nat} {s t : St} (h : Rel f a b g s t) (h1 : lo ≤ a ∨ b ≤ a)
    (h2 : b ≤ hi ∨ b ≤ a) : CpOut f lo hi s t :=
  ⟨h.ok, fun f' p hp => by rw [h.upd, if_neg (fun ⟨x, y, z⟩ => hp ⟨x, by omega, by omega⟩)], h.ft2, h.size,
    h.span⟩

/-- Effect of one step over `L` bytes. -/
structure CpStep (f1 off1 end1 f2 off2 end2 L : Nat) (s s' : St) : Prop where
  out : CpOut f2 off2 end2 s s'
  pos : PosSame s s'
  byte : ∀ i, i < L → byteAt s' f2 (off2 + i) = byteAt s f1 (off1 + i)
  src : ∀ p b, off1 + L ≤ p → p < end1 → (s'.file f1).leaf (keyOf (s.file f1).ft2 p) = some b →
    (s'.blk b).unw = false
  dst : ∀ p b, off2 + L ≤ p → p < end2 → (s'.file f2).leaf (keyOf (s.file f2).ft2 p) = some b →
    (s'.blk b).ref ≤ 1

theorem CpStep.of_fr {f1 off1 end1 f2 off2 end2 L : Nat} {s s' : St} {k : Key}
    (h : CpPre f1 off1 end1 f2 off2 end2 s) (ho : CpOut f2 off2 end2 s s') (hp : PosSame s s')
    (hb : ∀ i, i < L → byteAt s' f2 (off2 + i) = byteAt s f1 (off1 + i)) (hf : Fr f2 k s s') :
    CpStep f1 off1 end1 f2 off2 end2 L s s' := by
  refine ⟨ho, hp, hb, fun p b p1 p2 hl => ?_, fun p b p1 p2 hl => ?_⟩
  · by_cases hk : f1 = f2 ∧ keyOf (s.file f1).ft2 p = k
    · cases hu : (s'.blk b).unw
      · rfl
      · obtain ⟨hk1, hk2⟩ := hk
        rw [hk2, hk1] at hl
        obtain ⟨c1, c2⟩ := hf.unw b hl hu
        rw [h.src p b (by omega) p2 (by rw [hk2, hk1]; exact c1)] at c2
        cases c2
    · rw [hf.leaf _ _ hk] at hl
      rw [hf.blk b _ _ hk hl]
      exact h.src p b (by omega) p2 hl
  · by_cases hk : keyOf (s.file f2).ft2 p = k
    · rw [hk] at hl; exact hf.mine b hl
    · have hk' : ¬ (f2 = f2 ∧ keyOf (s.file f2).ft2 p = k) := fun hh => hk hh.2
      rw [hf.leaf _ _ hk'] at hl
      rw [hf.blk b _ _ hk' hl]
      exact h.dst p b (by omega) p2 hl

theorem copyLen_eq {ft2 : Bool} {off end_ : Nat} (h : off < end_) :
    copyLen ft2 off end_ = lenOfData off end_ (keyOf ft2 off).size := by
  rw [lenOfData_eq (keyOf ft2 off).size_pos h]
  unfold copyLen distToNext
  omega

theorem tree_size {k : Key} (h : k.isTree = true) : k.size = 65536 := by
  cases k <;> first | rfl | cases h

theorem tree_key {ft2 : Bool} {p : Nat} (h : (keyOf ft2 p).isTree = true) : keyOf ft2 p = .tr (p / 65536) := by
  rcases keyOf_cases ft2 p with ⟨_, _, hk⟩ | ⟨_, _, _, hk⟩ | ⟨_, hk⟩
  · rw [hk] at h; cases h
  · rw [hk] at h; cases h
  · exact hk

theorem mayShare_iff {k : Key} {off end_ : Nat} (ho : off < end_) (h : mayShare k off end_ = true) :
    k.isTree = true ∧ off % 65536 = 0 ∧ off + 65536 ≤ end_ ∧ lenOfData off end_ 65536 = 65536 := by
  unfold mayShare at h
  simp only [Bool.and_eq_true, Bool.not_eq_true'] at h
  obtain ⟨_, _, l3, l4, _⟩ := len_facts (sz := 65536) (by omega) ho
  have := l4 h.2
  exact ⟨h.1, this.1, by omega, this.2⟩

/-- Step of a copy by sharing; `t` is the state in which the destination is a hole. -/
theorem share_step {f1 off1 end1 f2 off2 end2 b1 : Nat} {s t : St} {k2 : Key}
    (h : CpPre f1 off1 end1 f2 off2 end2 s)
    (a1 : off1 % 65536 = 0) (a2 : off2 % 65536 = 0) (e1 : off1 + 65536 ≤ end1) (e2 : off2 + 65536 ≤ end2)
    (t1 : (keyOf (s.file f1).ft2 off1).isTree = true) (hk2 : keyOf (s.file f2).ft2 off2 = k2)
    (t2 : k2.isTree = true)
    (hb1 : (s.file f1).leaf (keyOf (s.file f1).ft2 off1) = some b1)
    (ho : CpOut f2 off2 end2 s t) (hp : PosSame s t)
    (hl : ∀ f' k', ¬ (f' = f2 ∧ k' = k2) → (t.file f').leaf k' = (s.file f').leaf k')
    (hbk : ∀ c f' k', ¬ (f' = f2 ∧ k' = k2) → (s.file f').leaf k' = some c → t.blk c = s.blk c)
    (hh : (t.file f2).leaf k2 = none) (hn : ∀ i, k2 = .tr i → (t.file f2).node 2 (i / 1024) = true) :
    wp (shareLeaf f2 k2 b1) (fun _ s' => CpStep f1 off1 end1 f2 off2 end2 65536 s s')
      (fun s' => CpOut f2 off2 end2 s s') t := by
  have hkt1 : keyOf (s.file f1).ft2 off1 = .tr (off1 / 65536) := tree_key t1
  have hkt2 : k2 = .tr (off2 / 65536) := by rw [← hk2] at t2 ⊢; exact tree_key t2
  have hne : ¬ (f1 = f2 ∧ keyOf (s.file f1).ft2 off1 = k2) := by
    rintro ⟨x, y⟩
    rw [hkt1, hkt2] at y
    injection y with y
    rcases h.sep with h | h | h
    · exact h x
    · omega
    · omega
  have hb1t : (t.file f1).leaf (keyOf (s.file f1).ft2 off1) = some b1 := by rw [hl _ _ hne]; exact hb1
  have hblk : t.blk b1 = s.blk b1 := hbk b1 _ _ hne hb1
  have hu : (s.blk b1).unw = false := h.src off1 b1 (Nat.le_refl _) (by omega) hb1
  unfold shareLeaf shareData
  refine wp_bind (wp_bind (wp_chk (wp_modS (wp_modS ?_)) ho))
  rw [setBlk_file]
  generalize hT : (t.setBlk b1 { t.blk b1 with ref := (t.blk b1).ref + 1 }).setFile f2
      ((t.file f2).setLeaf k2 (some b1) k2.nkb) = T
  obtain ⟨hok, hby⟩ := share_rel ho.ok hb1t (by rw [hblk]; exact hu) t1 hh t2 hn hT.symm
  rw [ho.ft2 f2, hblk] at hby
  have hreg : ∀ p, keyOf (s.file f2).ft2 p = k2 → off2 ≤ p ∧ p < off2 + 65536 := by
    intro p hpk
    have := key_sub (ft2 := (s.file f2).ft2) (p := off2) (q := p) (by rw [hk2, hpk])
    rw [hk2, tree_size t2] at this
    have := Nat.mod_lt p (show 0 < 65536 by omega)
    omega
  have hreg' : ∀ p, off2 ≤ p → p < off2 + 65536 → keyOf (s.file f2).ft2 p = k2 := by
    intro p p1 p2
    rw [← hk2]
    apply key_range <;> rw [hk2, tree_size t2] <;> omega
  have hreg1 : ∀ p, off1 ≤ p → p < off1 + 65536 →
      keyOf (s.file f1).ft2 p = keyOf (s.file f1).ft2 off1 := by
    intro p p1 p2
    apply key_range <;> rw [tree_size t1] <;> omega
  have hmeta := meta_setLeaf (t.setBlk b1 { t.blk b1 with ref := (t.blk b1).ref + 1 }) f2 k2 (some b1) k2.nkb
  have hmeta' : ∀ f', (T.file f').ft2 = (t.file f').ft2 ∧ (T.file f').size = (t.file f').size ∧
      (T.file f').span = (t.file f').span := by
    intro f'; rw [← hT]; exact hmeta f'
  have hTl : ∀ f' k', (T.file f').leaf k' = if f' = f2 ∧ k' = k2 then some b1 else (t.file f').leaf k' := by
    intro f' k'
    rw [← hT]
    exact setLeaf_file (t.setBlk b1 { t.blk b1 with ref := (t.blk b1).ref + 1 }) f2 k2 (some b1) _ f' k'
  refine ⟨⟨hok, fun f' p hp' => ?_, fun f' => (hmeta' f').1.trans (ho.ft2 f'),
    fun f' => (hmeta' f').2.1.trans (ho.size f'), fun f' => (hmeta' f').2.2.trans (ho.span f')⟩,
    ?_, fun i hi => ?_, fun p b p1 p2 hlp => ?_, fun p b p1 p2 hlp => ?_⟩
  · rw [hby, if_neg]
    · exact ho.keep f' p hp'
    · rintro ⟨x, y⟩
      have := hreg p y
      exact hp' ⟨x, by omega, by omega⟩
  · rw [← hT]; exact hp
  · rw [hby, if_pos ⟨rfl, hreg' _ (by omega) (by omega)⟩, byteAt_some (b := b1)
      (by rw [hreg1 _ (by omega) (by omega)]; exact hb1), hu, hreg1 _ (by omega) (by omega),
      tree_size t1, tree_size t2]
    simp only [Bool.false_eq_true, if_false]
    congr 1
    omega
  · -- remaining source leaves
    rw [hTl] at hlp
    have hTb : (T.blk b).unw = (t.blk b).unw := by
      rw [← hT, setFile_blk]
      by_cases hc : b = b1
      · subst hc; rw [setBlk_same]
      · rw [setBlk_other _ _ hc]
    rw [hTb]
    split at hlp
    · cases hlp; rw [hblk]; exact hu
    · rename_i hc
      rw [hl _ _ hc] at hlp
      rw [hbk b _ _ hc hlp]
      exact h.src p b (by omega) p2 hlp
  · rw [hTl] at hlp
    split at hlp
    · rename_i hc
      have := hreg p hc.2
      omega
    · rename_i hc
      rw [hl _ _ hc] at hlp
      have hr := h.dst p b (by omega) p2 hlp
      have hbne : b ≠ b1 := by
        rintro rfl
        obtain ⟨x, y⟩ := h.ok.sole hr hlp hb1
        rw [x] at y
        have hy := key_sub (ft2 := (s.file f2).ft2) (p := off1) (q := p) y.symm
        rw [x] at t1
        rw [tree_size t1] at hy
        have := Nat.mod_lt p (show 0 < 65536 by omega)
        rcases h.sep with h | h | h
        · exact h x
        · omega
        · omega
      rw [← hT, setFile_blk, setBlk_other _ _ hbne, hbk b _ _ hc hlp]
      exact hr

theorem copyAt_wp {f1 off1 end1 f2 off2 end2 : Nat} {s : St} {r1 r2 : LeafRef}
    (h : CpPre f1 off1 end1 f2 off2 end2 s) (hlt1 : off1 < end1)
    (hr1 : r1 = ⟨keyOf (s.file f1).ft2 off1, (s.file f1).leaf (keyOf (s.file f1).ft2 off1)⟩)
    (hr2 : r2 = ⟨keyOf (s.file f2).ft2 off2, (s.file f2).leaf (keyOf (s.file f2).ft2 off2)⟩) {L : Nat}
    (hL : L = min (copyLen (s.file f1).ft2 off1 end1) (copyLen (s.file f2).ft2 off2 end2)) :
    wp (copyAt f2 r1 off1 end1 r2 off2 end2 L)
      (fun _ s' => CpStep f1 off1 end1 f2 off2 end2 L s s')
      (fun s' => CpOut f2 off2 end2 s s') s := by
  have hlt2 : off2 < end2 := by have := h.len; omega
  rw [copyLen_eq hlt1, copyLen_eq hlt2] at hL
  have lf1 := len_facts (keyOf (s.file f1).ft2 off1).size_pos hlt1
  have lf2 := len_facts (keyOf (s.file f2).ft2 off2).size_pos hlt2
  generalize hk1 : keyOf (s.file f1).ft2 off1 = k1 at *
  generalize hk2 : keyOf (s.file f2).ft2 off2 = k2 at *
  have hmk1 : ∀ p, off1 ≤ p → p < off1 + L → keyOf (s.file f1).ft2 p = k1 := by
    intro p p1 p2
    rw [← hk1]
    apply key_range <;> rw [hk1] <;> omega
  have hmk2 : ∀ p, off2 ≤ p → p < off2 + L → keyOf (s.file f2).ft2 p = k2 := by
    intro p p1 p2
    rw [← hk2]
    apply key_range <;> rw [hk2] <;> omega
  have herr : CpOut f2 off2 end2 s s := CpOut.refl h.ok _ _ _
  have hmax2 : off2 ≤ sizeMax := by have := h.max; omega
  rcases hb1 : (s.file f1).leaf k1 with _ | b1 <;> rcases hb2 : (s.file f2).leaf k2 with _ | b2 <;>
    rw [hb1] at hr1 <;> rw [hb2] at hr2 <;> subst hr1 <;> subst hr2 <;> unfold copyAt <;> simp only
  · -- hole, hole
    refine wp_pure (CpStep.of_fr (k := k2) h herr (PosSame.refl _) (fun i hi => ?_)
      ⟨fun _ _ _ => rfl, fun _ _ _ _ _ => rfl, fun c hc => ?_, fun c hc hu => ⟨hc, hu⟩⟩)
    · rw [byteAt_none, byteAt_none]
      · rw [hmk1 _ (by omega) (by omega)]; exact hb1
      · rw [hmk2 _ (by omega) (by omega)]; exact hb2
    · rw [hb2] at hc; cases hc
  · -- hole, data
    refine wp_bind (wp_chk ?_ herr)
    have hr := h.dst off2 b2 (Nat.le_refl _) hlt2 (by rw [hk2]; exact hb2)
    refine wp_mono (wp_and (discardBy_wp h.ok hk2 hb2 hlt2) (discardBy_fr h.ok hb2 hr)) ?_ ?_
    · rintro _ s' ⟨⟨a1, a2⟩, a3⟩
      refine CpStep.of_fr h (a1.out (.inl (Nat.le_refl _)) (.inl (by omega))) a2.posSame (fun i hi => ?_) a3
      rw [a1.upd, if_pos ⟨rfl, by omega, by omega⟩, byteAt_none (p := off1 + i)]
      · rfl
      · rw [hmk1 _ (by omega) (by omega)]; exact hb1
    · rintro s' ⟨⟨a1, a2⟩, a3⟩
      exact a1.out (.inr (Nat.le_refl _)) (.inr (Nat.le_refl _))
  · -- data, hole
    have hu1 := h.src off1 b1 (Nat.le_refl _) hlt1 (by rw [hk1]; exact hb1)
    refine wp_bind (wp_ask (fun m1 => ?_) herr)
    split
    · rename_i hc
      obtain ⟨c1, _, c2⟩ := hc
      obtain ⟨t1, x1, y1, z1⟩ := mayShare_iff hlt1 c1
      obtain ⟨t2, x2, y2, z2⟩ := mayShare_iff hlt2 c2
      refine wp_bind (wp_mono (wp_and (requireTree_wp h.ok hmax2 f2 off2 (fun _ => 0)) (requireTree_keep s)) ?_ ?_)
      · rintro j t ⟨⟨a1, a2, a3, a4⟩, a5⟩
        have hkj : bottomKey j off2 = k2 := by
          rw [bottomKey_eq a3, ← hk2]
          rw [← hk2] at t2
          exact (tree_key t2).symm
        rw [hkj]
        have hL' : L = 65536 := by rw [hL, tree_size t1, tree_size t2, z1, z2]; rfl
        rw [hL']
        refine share_step h x1 x2 y1 y2 (by rw [hk1]; exact t1) hk2 t2 (by rw [hk1]; exact hb1)
          (a1.out (.inr (Nat.le_refl _)) (.inr (Nat.le_refl _))) a2
          (fun f' k' _ => a5.2 f' k') (fun c f' k' _ _ => by rw [a5.1]) (by rw [a5.2]; exact hb2) ?_
        intro i hi
        rw [← hkj, bottomKey_eq a3] at hi
        injection hi with hi
        rw [← hi, ← cover_one, div_cover_succ (h := 1) (by omega), ← a3]
        exact a4
      · rintro t ⟨⟨a1, _⟩, _⟩
        exact a1.out (.inr (Nat.le_refl _)) (.inr (Nat.le_refl _))
    · rename_i hc
      -- the new leaf
      have hleaf : ∀ (t : St), Rel f2 off2 off2 (fun _ => 0) s t → PosSame s t → Keep s t →
          (∀ i, k2 = .tr i → (t.file f2).node 2 (i / 1024) = true) →
          wp (requireLeaf f2 k2)
            (fun b u => wp (do
              chk
              copyLeaf b1 k1.size off1 b k2.size off2 L)
              (fun _ s' => CpStep f1 off1 end1 f2 off2 end2 L s s')
              (fun s' => CpOut f2 off2 end2 s s') u)
            (fun s' => CpOut f2 off2 end2 s s') t := by
        intro t ht hpt hkt hnt
        have hout := ht.out (lo := off2) (hi := end2) (.inl (Nat.le_refl _)) (.inr (Nat.le_refl _))
        have hb2t : (t.file f2).leaf k2 = none := by rw [hkt.2]; exact hb2
        refine wp_mono (wp_and (requireLeaf_wp ht.ok hnt f2 off2 (fun _ => 0))
          (requireLeaf_fr ht.ok hb2t)) ?_ ?_
        · rintro b u ⟨⟨a1, a2, a3⟩, a4, a5, _, a7, a8⟩
          have hou := hout.trans (a1.out (lo := off2) (hi := end2) (.inl (Nat.le_refl _)) (.inr (Nat.le_refl _)))
          have hne : ¬ (f1 = f2 ∧ k1 = k2) := by
            rintro ⟨x, y⟩
            rw [x, y, hb2] at hb1; cases hb1
          have hb1t : (t.file f1).leaf k1 = some b1 := by rw [hkt.2]; exact hb1
          have hb1u : (u.file f1).leaf k1 = some b1 := by rw [a4 _ _ hne]; exact hb1t
          have hbb : ∀ c f' k', (t.file f').leaf k' = some c → u.blk c = t.blk c := fun c f' k' hc =>
            a5 c (by have := ht.ok.ref_pos hc; omega)
          have hu1u : (u.blk b1).unw = false := by
            rw [hbb _ _ _ hb1t, hkt.1]; exact hu1
          refine wp_bind (wp_chk ?_ hou)
          refine wp_mono (copyLeaf_wp a1.ok hb1u hu1u a3 (by omega)
            (by rw [a1.ft2, ht.ft2]; exact hk1) (by rw [a1.ft2, ht.ft2]; exact hk2) (by omega) (by omega)) ?_ ?_
          · rintro _ s' ⟨⟨c1, c2⟩, c3, c4, c5⟩
            refine CpStep.of_fr (k := k2) h (hou.trans (c1.out (.inl (Nat.le_refl _)) (.inl (by omega))))
              ((hpt.trans a2.posSame).trans c2.posSame) (fun i hi => ?_) ?_
            · rw [c1.upd, if_pos ⟨rfl, by omega, by omega⟩, show off1 + (off2 + i - off2) = off1 + i by omega,
                a1.upd, if_neg (by omega), ht.upd, if_neg (by omega)]
            · refine ⟨fun f' k' hn => ?_, fun c f' k' hn hl => ?_, c3.mine, fun c hl hu => ?_⟩
              · rw [c3.leaf _ _ hn, a4 _ _ hn, hkt.2]
              · have hlt : (t.file f').leaf k' = some c := by rw [hkt.2]; exact hl
                rw [c3.blk c f' k' hn (by rw [a4 _ _ hn]; exact hlt), hbb _ _ _ hlt, hkt.1]
              · rw [c4] at hl
                cases hl
                rw [c5] at hu; cases hu
          · rintro s' ⟨c1, c2⟩
            exact hou.trans (c1.out (.inl (Nat.le_refl _)) (.inr (Nat.le_refl _)))
        · rintro u ⟨⟨a1, a2⟩, _⟩
          exact hout.trans (a1.out (.inl (Nat.le_refl _)) (.inr (Nat.le_refl _)))
      unfold requireLeafAt
      refine wp_bind (wp_bind (wp_getS ?_))
      split
      · rename_i hd
        have hkf : keyOf false off2 = k2 := by rw [← hk2, hd.1]
        rw [hkf]
        have hnt2 : k2.isTree = false := by rw [← hkf]; exact keyOf_head hd.2
        refine wp_bind (wp_mono (hleaf s (Rel.refl _ _ _ h.ok) (PosSame.refl _) (Keep.refl _)
          (not_tree_node hnt2 _)) ?_ (fun _ h => h))
        intro b u hu
        exact wp_pure hu
      · rename_i hd
        have htr : (s.file f2).ft2 = true ∨ 65536 ≤ off2 := by
          by_cases hf : (s.file f2).ft2 = true
          · exact .inl hf
          · exact .inr (by
              have : ¬ off2 < 65536 := fun hh => hd ⟨by simpa using hf, hh⟩
              omega)
        refine wp_bind (wp_mono (wp_and (requireTree_wp h.ok hmax2 f2 off2 (fun _ => 0)) (requireTree_keep s)) ?_ ?_)
        · rintro j t ⟨⟨a1, a2, a3, a4⟩, a5⟩
          have hkj : bottomKey j off2 = k2 := by
            rw [bottomKey_eq a3, ← hk2]
            exact (keyOf_tree htr).symm
          rw [hkj]
          refine wp_bind (wp_mono (hleaf t a1 a2 a5 ?_) ?_ (fun _ h => h))
          · intro i hi
            rw [← hkj, bottomKey_eq a3] at hi
            injection hi with hi
            rw [← hi, ← cover_one, div_cover_succ (h := 1) (by omega), ← a3]
            exact a4
          · intro b u hu
            exact wp_pure hu
        · rintro t ⟨⟨a1, _⟩, _⟩
          exact a1.out (.inr (Nat.le_refl _)) (.inr (Nat.le_refl _))
  · -- data, data
    have hu1 := h.src off1 b1 (Nat.le_refl _) hlt1 (by rw [hk1]; exact hb1)
    have hr2 := h.dst off2 b2 (Nat.le_refl _) hlt2 (by rw [hk2]; exact hb2)
    refine wp_bind (wp_chk (wp_bind (wp_ask (fun m1 => wp_bind (wp_ask (fun m2 => ?_) herr)) herr)) herr)
    split
    · rename_i hc
      obtain ⟨c1, _, c2, _⟩ := hc
      obtain ⟨t1, x1, y1, z1⟩ := mayShare_iff hlt1 c1
      obtain ⟨t2, x2, y2, z2⟩ := mayShare_iff hlt2 c2
      have hL' : L = 65536 := by rw [hL, tree_size t1, tree_size t2, z1, z2]; rfl
      have hpt : isPartial off2 end2 k2.size = false := by
        unfold mayShare at c2
        simp only [Bool.and_eq_true, Bool.not_eq_true'] at c2
        rw [tree_size t2]; exact c2.2
      refine wp_bind (wp_mono (wp_and (wp_and (discardBy_wp h.ok hk2 hb2 hlt2) (discardBy_fr h.ok hb2 hr2))
        (discardBy_gone h.ok hb2 hpt)) ?_ ?_)
      · rintro _ t ⟨⟨⟨a1, a2⟩, a3⟩, a4⟩
        rw [hL']
        refine share_step h x1 x2 y1 y2 (by rw [hk1]; exact t1) hk2 t2 (by rw [hk1]; exact hb1)
          (a1.out (.inl (Nat.le_refl _)) (.inl (by omega))) a2.posSame a3.leaf a3.blk a4 ?_
        intro i hi
        rw [a2.node]
        exact (h.ok.wf f2).leaf i b2 (by rw [← hi]; exact hb2)
      · rintro t ⟨⟨⟨a1, a2⟩, a3⟩, _⟩
        exact a1.out (.inr (Nat.le_refl _)) (.inr (Nat.le_refl _))
    · refine wp_mono (copyLeaf_wp h.ok hb1 hu1 hb2 hr2 hk1 hk2 (by omega) (by omega)) ?_ ?_
      · rintro _ s' ⟨⟨c1, c2⟩, c3, c4, c5⟩
        refine CpStep.of_fr h (c1.out (.inl (Nat.le_refl _)) (.inl (by omega))) c2.posSame (fun i hi => ?_) c3
        rw [c1.upd, if_pos ⟨rfl, by omega, by omega⟩, show off1 + (off2 + i - off2) = off1 + i by omega]
      · rintro s' ⟨c1, c2⟩
        exact c1.out (.inl (Nat.le_refl _)) (.inr (Nat.le_refl _))

/-! ### The whole copy -/

theorem resolve_wp {s : St} (h : Ok s) {f off end_ : Nat} (ho : off < end_) :
    wp (resolve f off end_)
      (fun r s' => s' = s ∧
        r = ⟨keyOf (s.file f).ft2 off, (s.file f).leaf (keyOf (s.file f).ft2 off)⟩)
      (fun s' => s' = s) s := by
  unfold resolve
  refine wp_bind (wp_getS ?_)
  split
  · rename_i hc
    exact wp_pure ⟨rfl, by rw [hc.1]⟩
  · rename_i hc
    have htr : (s.file f).ft2 = true ∨ 65536 ≤ off := by
      by_cases hf : (s.file f).ft2 = true
      · exact .inl hf
      · exact .inr (by
          have : ¬ off < 65536 := fun hh => hc ⟨by simpa using hf, ho, hh⟩
          omega)
    refine wp_bind (wp_mono (stageByTree_wp h f off) ?_ (fun _ h => h))
    rintro j s' ⟨e, hj⟩
    rw [e]
    rw [keyOf_tree htr]
    rcases j with _ | j
    · refine wp_pure ⟨rfl, ?_⟩
      have : (s.file f).leaf (.tr (off / 65536)) = none := by
        rcases hl : (s.file f).leaf (.tr (off / 65536)) with _ | b
        · rfl
        · have := (h.wf f).leaf_node hl
          rw [this] at hj; cases hj
      rw [this]
    · refine wp_pure ⟨rfl, ?_⟩
      rw [bottomKey_eq hj.1]

theorem copyIter_wp {f1 f2 end1 end2 : Nat} : ∀ (n : Nat) (s : St),
    CpPre f1 s.pos end1 f2 s.pos2 end2 s → end2 - s.pos2 < n →
    wp (copyIter f1 f2 end1 end2 n)
      (fun _ s' => CpOut f2 s.pos2 end2 s s' ∧ s'.pos2 = end2 ∧
        ∀ i, i < end1 - s.pos → byteAt s' f2 (s.pos2 + i) = byteAt s f1 (s.pos + i))
      (fun s' => CpOut f2 s.pos2 end2 s s') s
  | 0, _, _, hn => by omega
  | n + 1, s, h, hn => by
    have herr : CpOut f2 s.pos2 end2 s s := CpOut.refl h.ok _ _ _
    have hlen := h.len
    have hle1 := h.le1
    have hle2 := h.le2
    unfold copyIter
    refine wp_bind (wp_getS ?_)
    split
    · rename_i hc
      obtain ⟨hlt1, hlt2⟩ := hc
      refine wp_bind (wp_mono (resolve_wp h.ok hlt1) ?_ (fun s' e => by rw [e]; exact herr))
      rintro r1 _ ⟨rfl, e1⟩
      refine wp_bind (wp_mono (resolve_wp h.ok hlt2) ?_ (fun s' e => by rw [e]; exact herr))
      rintro r2 s0 ⟨rfl, e2⟩
      have lf1 := len_facts (keyOf (s0.file f1).ft2 s0.pos).size_pos hlt1
      have lf2 := len_facts (keyOf (s0.file f2).ft2 s0.pos2).size_pos hlt2
      rw [← copyLen_eq hlt1] at lf1
      rw [← copyLen_eq hlt2] at lf2
      generalize hL : min (copyLen (s0.file f1).ft2 s0.pos end1) (copyLen (s0.file f2).ft2 s0.pos2 end2) = L
      have hL0 : 0 < L := by omega
      have hL1 : s0.pos + L ≤ end1 := by omega
      have hL2 : s0.pos2 + L ≤ end2 := by omega
      refine wp_bind (wp_mono (copyAt_wp h hlt1 e1 e2 hL.symm) ?_ (fun _ h => h))
      intro _ s1 st
      refine wp_bind (wp_modS ?_)
      have ha1 : advTo s0.pos end1 (s0.pos + L) = s0.pos + L := by unfold advTo; omega
      have ha2 : advTo s0.pos2 end2 (s0.pos2 + L) = s0.pos2 + L := by unfold advTo; omega
      rw [ha1, ha2]
      have hpre : CpPre f1 (s0.pos + L) end1 f2 (s0.pos2 + L) end2
          { s1 with pos := s0.pos + L, pos2 := s0.pos2 + L } := by
        refine ⟨⟨st.out.ok.late, st.out.ok.wf, st.out.ok.own, st.out.ok.shw, st.out.ok.head, st.out.ok.cnt⟩, hL1, hL2,
          by omega, ?_, h.max, fun p b p1 p2 hl => ?_, fun p b p1 p2 hl => ?_⟩
        · rcases h.sep with h | h | h
          · exact .inl h
          · exact .inr (.inl (by omega))
          · exact .inr (.inr (by omega))
        · have hl' : (s1.file f1).leaf (keyOf (s1.file f1).ft2 p) = some b := hl
          rw [st.out.ft2] at hl'
          exact st.src p b p1 p2 hl'
        · have hl' : (s1.file f2).leaf (keyOf (s1.file f2).ft2 p) = some b := hl
          rw [st.out.ft2] at hl'
          exact st.dst p b p1 p2 hl'
      refine wp_mono (copyIter_wp n _ hpre (by show end2 - (s0.pos2 + L) < n; omega)) ?_ ?_
      · rintro _ s' ⟨o, q, by_⟩
        have o' : CpOut f2 (s0.pos2 + L) end2 s1 s' := ⟨o.ok, o.keep, o.ft2, o.size, o.span⟩
        refine ⟨st.out.trans (o'.wide (by omega) (Nat.le_refl _)), q, fun i hi => ?_⟩
        by_cases hiL : i < L
        · rw [o'.keep f2 _ (by omega)]
          exact st.byte i hiL
        · have := by_ (i - L) (by show i - L < end1 - (s0.pos + L); omega)
          have this' : byteAt s' f2 (s0.pos2 + L + (i - L)) = byteAt s1 f1 (s0.pos + L + (i - L)) := this
          rw [show s0.pos2 + L + (i - L) = s0.pos2 + i by omega,
            show s0.pos + L + (i - L) = s0.pos + i by omega] at this'
          rw [this']
          apply st.out.keep
          rintro ⟨x, y, z⟩
          rcases h.sep with h | h | h
          · exact h x
          · omega
          · omega
      · intro s' o
        have o' : CpOut f2 (s0.pos2 + L) end2 s1 s' := ⟨o.ok, o.keep, o.ft2, o.size, o.span⟩
        exact st.out.trans (o'.wide (by omega) (Nat.le_refl _))
    · exact wp_pure ⟨herr, by omega, fun i hi => by omega⟩

theorem dataPos_wp {s : St} (h : Ok s) {f off end_ : Nat} :
    wp (dataPos f off end_)
      (fun d s' => OnlyPos s s' ∧ ∀ p, off ≤ p → p < end_ → p < d → ¬ Backed (s.file f) p)
      (OnlyPos s) s := by
  unfold dataPos
  refine wp_bind (wp_modS ?_)
  refine wp_bind (wp_mono (lseekLeaf_wp (s := { s with pos := off }) (h.setPos off)) ?_ ?_)
  · rintro r s' ⟨⟨q, e⟩, hr⟩
    subst e
    refine wp_pure ⟨⟨q, rfl⟩, fun p p1 p2 p3 hb => ?_⟩
    rcases r with _ | d
    · exact hr p p1 p2 ((hit_data (s := { s with pos := off }) (h.setPos off)).2 hb)
    · exact hr.2.2.2 p p1 p3 ((hit_data (s := { s with pos := off }) (h.setPos off)).2 hb)
  · rintro s' ⟨q, e⟩
    exact ⟨q, e⟩

/-- A copy the code handles: the source range lies within the file and has no unwritten
leaf, the destination range lies within the maximal file size and has no shared leaf. -/
structure Plain (s : St) (f1 off1 f2 off2 len : Nat) : Prop where
  pos : 0 < len
  eof : off1 + len ≤ (s.file f1).size
  max : off2 + len ≤ sizeMax
  src : ∀ p b, off1 ≤ p → p < off1 + len → (s.file f1).leaf (keyOf (s.file f1).ft2 p) = some b →
    (s.blk b).unw = false
  dst : ∀ p b, off2 ≤ p → p < off2 + len → (s.file f2).leaf (keyOf (s.file f2).ft2 p) = some b →
    (s.blk b).ref ≤ 1

theorem copyRange_wp {s : St} (h : Ok s) {f1 off1 f2 off2 len : Nat} (hp : Plain s f1 off1 f2 off2 len)
    (hsep : f1 ≠ f2 ∨ off2 + len ≤ off1 ∨ off1 + len ≤ off2) :
    wp (copyRange f1 off1 f2 off2 len)
      (fun n s' => n = len ∧ ∃ t, CpOut f2 off2 (off2 + len) s t ∧
        (∀ i, i < len → byteAt t f2 (off2 + i) = byteAt s f1 (off1 + i)) ∧
        s' = t.setFile f2 { t.file f2 with
          size := max (off2 + len) (s.file f2).size, span := max (off2 + len) (s.file f2).span })
      (fun s' => CpOut f2 off2 (off2 + len) s s') s := by
  have herr : CpOut f2 off2 (off2 + len) s s := CpOut.refl h _ _ _
  have hpp := hp.pos
  have hpm := hp.max
  have hpe := hp.eof
  unfold copyRange
  refine wp_bind (wp_chk (wp_bind (wp_chk (wp_bind (wp_getS ?_)) herr)) herr)
  have he1 : min (off1 + len) (s.file f1).size = off1 + len := by omega
  simp only [he1]
  have hpos : ∀ q q2 : Nat, CpOut f2 off2 (off2 + len) s { s with pos := q, pos2 := q2 } := fun q q2 =>
    ⟨⟨h.late, h.wf, h.own, h.shw, h.head, h.cnt⟩, fun _ _ _ => rfl, fun _ => rfl, fun _ => rfl, fun _ => rfl⟩
  have hpos' : ∀ s', OnlyPos s s' → CpOut f2 off2 (off2 + len) s s' := by
    rintro s' ⟨q, e⟩
    rw [e]
    exact hpos q s.pos2
  have hstart : wp (copyStart f1 off1 (off1 + len) f2 off2 (off2 + len))
      (fun _ s' => ∃ k, k ≤ len ∧ s' = { s with pos := off1 + k, pos2 := off2 + k } ∧
        ∀ i, i < k → byteAt s f1 (off1 + i) = 0 ∧ byteAt s f2 (off2 + i) = 0)
      (fun s' => CpOut f2 off2 (off2 + len) s s') s := by
    unfold copyStart
    refine wp_bind (wp_mono (dataPos_wp h) ?_ hpos')
    rintro d1 _ ⟨⟨q1, rfl⟩, hd1⟩
    refine wp_bind (wp_mono (dataPos_wp (s := { s with pos := q1 }) (h.setPos q1)) ?_ ?_)
    · rintro d2 _ ⟨⟨q2, rfl⟩, hd2⟩
      simp only
      generalize hk : min (d1 - off1) (d2 - off2) = k
      refine wp_modS ⟨min k len, by omega, ?_, fun i hi => ⟨?_, ?_⟩⟩
      · have a1 : advTo off1 (off1 + len) (off1 + k) = off1 + min k len := by unfold advTo; omega
        have a2 : advTo off2 (off2 + len) (off2 + k) = off2 + min k len := by unfold advTo; omega
        rw [a1, a2]
        split
        · rfl
        · have : min k len = 0 := by omega
          rw [this]; rfl
      · exact not_backed_zero (hd1 _ (by omega) (by omega) (by omega))
      · exact not_backed_zero (s := s) (hd2 _ (by omega) (by omega) (by omega))
    · rintro s' ⟨q2, e⟩
      exact hpos' s' ⟨q2, e⟩
  refine wp_bind (wp_mono hstart ?_ (fun _ h => h))
  rintro _ _ ⟨k, hk, rfl, hz⟩
  have hpre : CpPre f1 (off1 + k) (off1 + len) f2 (off2 + k) (off2 + len)
      { s with pos := off1 + k, pos2 := off2 + k } := by
    refine ⟨(hpos _ _).ok, by omega, by omega, by omega, ?_, by omega,
      fun p b p1 p2 hl => hp.src p b (by omega) (by omega) hl, fun p b p1 p2 hl => hp.dst p b (by omega) (by omega) hl⟩
    rcases hsep with h | h | h
    · exact .inl h
    · exact .inr (.inl (by omega))
    · exact .inr (.inr (by omega))
  refine wp_bind (wp_mono (copyIter_wp _ _ hpre (by show off2 + len - (off2 + k) < _; omega)) ?_ ?_)
  · rintro _ t ⟨o, q, hb⟩
    have o' : CpOut f2 (off2 + k) (off2 + len) s t := ⟨o.ok, o.keep, o.ft2, o.size, o.span⟩
    refine wp_bind (wp_modS (wp_bind (wp_getS (wp_pure ⟨?_, t, o'.wide (by omega) (Nat.le_refl _), fun i hi => ?_, ?_⟩))))
    · show t.pos2 - off2 = len
      omega
    · by_cases hik : i < k
      · rw [o'.keep f2 _ (by omega), (hz i hik).1, (hz i hik).2]
      · have hb' := hb (i - k) (by show i - k < off1 + len - (off1 + k); omega)
        have hb2 : byteAt t f2 (off2 + k + (i - k)) = byteAt s f1 (off1 + k + (i - k)) := hb'
        rw [show off2 + k + (i - k) = off2 + i by omega, show off1 + k + (i - k) = off1 + i by omega] at hb2
        exact hb2
    · rw [q, o'.size, o'.span]
  · intro t o
    have o' : CpOut f2 (off2 + k) (off2 + len) s t := ⟨o.ok, o.keep, o.ft2, o.size, o.span⟩
    exact o'.wide (by omega) (Nat.le_refl _)

/-- C04: a range copy within the conditions of `Plain` copies all bytes asked for, exactly
as a read followed by a write would, and when it fails on the way it changes nothing but
bytes in the destination range.  Missing for the full claim: the cases of
FileCopyBad.lean (`C04_eof_violated`, `C04_overrun_violated`, `C04_unwritten_violated`,
`C03_copy_violated`, `C04_fail_violated`). -/
theorem C04_copy_partial {s : St} (h : Inv s) {f1 f2 len : Nat} {off1 off2 : Int}
    (hp : Plain s f1 off1.toNat f2 off2.toNat len) (o : List Ans) :
    match opCopy f1 off1 f2 off2 len s o with
    | (.ok n, s') => n = len ∧ Inv s' ∧ abs s' = (abs s).copy f1 off1.toNat f2 off2.toNat len
    | (.failed _, s') => (off2.toNat + len ≤ (s.file f2).size → Inv s') ∧
        (∀ f, (abs s' f).size = (abs s f).size) ∧
        ∀ f (p : Nat), ¬ (f = f2 ∧ off2 ≤ (p : Int) ∧ (p : Int) < off2 + len) → (abs s' f).byte p = (abs s f).byte p
    | (.rejected _, s') => s' = s := by
  have hpp := hp.pos
  have hpm := hp.max
  have hpe := hp.eof
  unfold opCopy
  cases hc : checkCopy f1 off1 (s.file f1).size f2 off2 (s.file f2).size len with
  | some e => rfl
  | none =>
    unfold checkCopy at hc
    rw [opt_or_none, opt_or_none] at hc
    obtain ⟨c1, c2, c3⟩ := hc
    have hl64 : len < 2 ^ 64 := by unfold sizeMax at hpm; omega
    have r1 := (C07_copy hl64).1 c1
    have r2 := (C07_copy hl64).1 c2
    have hsep : f1 ≠ f2 ∨ off2.toNat + len ≤ off1.toNat ∨ off1.toNat + len ≤ off2.toNat := by
      by_cases hf : f1 = f2
      · right
        have : ¬ (off2 + len > off1 ∧ off2 < off1 + len) := by
          intro hx
          rw [if_pos ⟨hf, hx.1, hx.2⟩] at c3
          cases c3
        omega
      · exact .inl hf
    have hw := copyRange_wp h.ok hp hsep o
    simp only
    rcases hx : copyRange f1 off1.toNat f2 off2.toNat len s o with ⟨e | n, s', o'⟩
    · rw [hx] at hw
      refine ⟨fun hsz => ⟨hw.ok, fun f p hfp => ?_, fun f => ?_, fun f => ?_⟩, fun f => hw.size f,
        fun f p hfp => ?_⟩
      · rw [hw.size] at hfp
        rw [hw.keep f p (by rintro ⟨x, y, z⟩; subst x; omega)]
        exact h.tail f p hfp
      · rw [hw.size]; exact h.size f
      · rw [hw.span]; exact h.span f
      · exact hw.keep f p (by rintro ⟨x, y, z⟩; exact hfp ⟨x, by omega, by omega⟩)
    · rw [hx] at hw
      obtain ⟨hn, t, ho, hb, e⟩ := hw
      have hbyte : ∀ f p, byteAt s' f p = byteAt t f p := by
        intro f p; rw [e]; exact byteAt_setMeta ..
      have hsize : ∀ f, (s'.file f).size = if f = f2 then max (off2.toNat + len) (s.file f2).size
          else (s.file f).size := by
        intro f
        rw [e]
        by_cases hf : f = f2
        · subst hf; rw [setFile_same, if_pos rfl]
        · rw [setFile_other _ _ hf, if_neg hf, ho.size]
      have hspan : ∀ f, (s'.file f).span = if f = f2 then max (off2.toNat + len) (s.file f2).span
          else (s.file f).span := by
        intro f
        rw [e]
        by_cases hf : f = f2
        · subst hf; rw [setFile_same, if_pos rfl]
        · rw [setFile_other _ _ hf, if_neg hf, ho.span]
      refine ⟨hn, ⟨by rw [e]; exact ho.ok.setMeta _ _ _, fun f p hfp => ?_, fun f => ?_, fun f => ?_⟩, ?_⟩
      · rw [hbyte]
        rw [hsize] at hfp
        rw [ho.keep f p (by rintro ⟨x, y, z⟩; rw [if_pos x] at hfp; omega)]
        apply h.tail
        split at hfp
        · rename_i hf; subst hf; omega
        · exact hfp
      · rw [hsize]; split
        · have := h.size f2; omega
        · exact h.size f
      · rw [hspan]; split
        · have := h.span f2; omega
        · exact h.span f
      · funext f
        have hrl : ((abs s f1).read off1.toNat len).length = len := by
          unfold AFile.read
          rw [List.length_map, List.length_range]
          show min len ((s.file f1).size - off1.toNat) = len
          omega
        have hne : (abs s f1).read off1.toNat len ≠ [] := by
          intro hx
          rw [hx] at hrl
          simp at hrl
          omega
        unfold FileSpec.FS.copy FileSpec.FS.set AFile.write
        rw [if_neg hne, hrl]
        by_cases hf : f = f2
        · rw [if_pos hf]
          subst hf
          apply afile_ext
          · show (s'.file f).size = _
            rw [hsize, if_pos rfl]
            show _ = max (s.file f).size _
            omega
          · intro p
            show byteAt s' f p = if off2.toNat ≤ p ∧ p < off2.toNat + len then _ else byteAt s f p
            rw [hbyte]
            by_cases hc : off2.toNat ≤ p ∧ p < off2.toNat + len
            · rw [if_pos hc]
              have := hb (p - off2.toNat) (by omega)
              rw [show off2.toNat + (p - off2.toNat) = p by omega] at this
              rw [this]
              unfold AFile.read
              rw [List.getD_eq_getElem?_getD, List.getElem?_map, List.getElem?_range (by
                show p - off2.toNat < min len ((s.file f1).size - off1.toNat)
                omega)]
              rfl
            · rw [if_neg hc]
              exact ho.keep f p (by rintro ⟨_, y⟩; exact hc y)
        · rw [if_neg hf]
          apply afile_ext
          · show (s'.file f).size = (s.file f).size
            rw [hsize, if_neg hf]
          · intro p
            show byteAt s' f p = byteAt s f p
            rw [hbyte]
            exact ho.keep f p (by rintro ⟨x, _⟩; exact hf x)

/-! ### C03 -/

/-- States reached from a new file system by requests and by range copies within the
conditions of `C04_copy_partial` that did not fail, or failed within the file. -/
inductive Reached (raw : Nat → Nat → Nat) : St → Prop
  | init : Reached raw (St.init raw)
  | op {s : St} (f : Nat) (op : FOp) (o : List Ans) : Reached raw s → op.Arg → Reached raw (op.run f s o).2
  | copy {s : St} {f1 f2 len : Nat} {off1 off2 : Int} (o : List Ans) : Reached raw s →
      Plain s f1 off1.toNat f2 off2.toNat len →
      ((∀ e, (opCopy f1 off1 f2 off2 len s o).1 ≠ .failed e) ∨ off2.toNat + len ≤ (s.file f2).size) →
      Reached raw (opCopy f1 off1 f2 off2 len s o).2

theorem Reached.inv {raw : Nat → Nat → Nat} {s : St} (h : Reached raw s) : Inv s := by
  induction h with
  | init => exact Inv.init raw
  | op f op o _ ha ih => exact (C01_request_partial ih f op ha o).1
  | copy o _ hp hx ih =>
    rename_i s f1 f2 len off1 off2 _
    have := C04_copy_partial ih hp o
    rcases hr : opCopy f1 off1 f2 off2 len s o with ⟨n | e | e, s'⟩
    · rw [hr] at this; exact this.2.1
    · rw [hr] at this hx
      rcases hx with hx | hx
      · exact absurd rfl (hx e)
      · exact this.1 hx
    · rw [hr] at this; rw [show (CopyRes.rejected e, s').2 = s' from rfl, this]; exact ih

/-- C03: whatever blocks files came to share by range copies, a later request on one
file does to it what it does to a byte array and changes no other file.  Missing for the
full claim: histories with copies outside of `Plain` (`C03_copy_violated`,
`C02_shared_unwritten_violated`). -/
theorem C03_request_partial {raw : Nat → Nat → Nat} {s : St} (h : Reached raw s) (f : Nat) (op : FOp)
    (harg : op.Arg) (o : List Ans) :
    FileSpec.Step (abs s) f op.spec (op.run f s o).1.spec (abs (op.run f s o).2) ∧
    ∀ f', f' ≠ f → abs (op.run f s o).2 f' = abs s f' := by
  obtain ⟨_, hst⟩ := C01_request_partial h.inv f op harg o
  exact ⟨hst, fun f' hf => hst.1 f' hf⟩

/-- C03: a range copy changes no byte of a file other than its destination, nor bytes of the
destination outside of the range, whether or not it fails.  Missing: as above. -/
theorem C03_copy_partial {raw : Nat → Nat → Nat} {s : St} (h : Reached raw s) {f1 f2 len : Nat}
    {off1 off2 : Int} (hp : Plain s f1 off1.toNat f2 off2.toNat len) (o : List Ans) (f p : Nat)
    (hf : ¬ (f = f2 ∧ off2.toNat ≤ p ∧ p < off2.toNat + len)) :
    (abs (opCopy f1 off1 f2 off2 len s o).2 f).byte p = (abs s f).byte p := by
  have := C04_copy_partial h.inv hp o
  rcases hr : opCopy f1 off1 f2 off2 len s o with ⟨n | e | e, s'⟩ <;> rw [hr] at this
  · show (abs s' f).byte p = _
    rw [this.2.2]
    unfold FileSpec.FS.copy FileSpec.FS.set
    split
    · rename_i he
      subst he
      unfold AFile.write
      split
      · rfl
      · have hlen : ((abs s f1).read off1.toNat len).length ≤ len := by
          unfold AFile.read; rw [List.length_map, List.length_range]; omega
        simp only
        rw [if_neg]
        rintro ⟨x, y⟩
        exact hf ⟨rfl, x, by omega⟩
    · rfl
  · exact this.2.2 f p (by rintro ⟨x, y, z⟩; exact hf ⟨x, by omega, by omega⟩)
  · show (abs s' f).byte p = _
    rw [this]

/-- A file with two bytes, and a destination that has a byte of its own: the conditions of
`Plain` hold and the copy succeeds. -/
def plainCase : St :=
  (FOp.run 1 (.write 0 [9] false) (FOp.run 0 (.write 0 [5, 6] false) cpInit (granted 0)).2 (granted 20)).2

example : Plain plainCase 0 0 1 0 2 ∧ (cpRun 0 0 1 0 2 40 plainCase).1 = .ok 2 ∧
    cpRead 1 0 2 (cpRun 0 0 1 0 2 40 plainCase).2 = .ok [5, 6] := by
  refine ⟨⟨by decide, by decide +kernel, by decide +kernel, fun p b p1 p2 hl => ?_, fun p b p1 p2 hl => ?_⟩,
    by decide +kernel, by decide +kernel⟩
  · have hp : ∀ p < 2, ((plainCase.file 0).leaf (keyOf (plainCase.file 0).ft2 p)).all
        (fun b => !(plainCase.blk b).unw) = true := by decide +kernel
    have := hp p p2
    rw [hl] at this
    simpa using this
  · have hp : ∀ p < 2, ((plainCase.file 1).leaf (keyOf (plainCase.file 1).ft2 p)).all
        (fun b => decide ((plainCase.blk b).ref ≤ 1)) = true := by decide +kernel
    have := hp p p2
    rw [hl] at this
    simpa using this

example : Reached (fun _ _ => 0) plainCase :=
  .op _ _ _ (.op _ _ _ (.op _ _ _ (.op _ _ _ (.op _ _ _ .init trivial) trivial) trivial) (by unfold FOp.Arg Off64; decide)) (by unfold FOp.Arg Off64; decide)

end Silofs.File
