/-
Discarding data: punch-hole, zero-range, truncate and removal of all data.
-/
import Verif.Props.FileWrite

set_option linter.unusedSimpArgs false
set_option linter.unusedVariables false

namespace Silofs.File

/-- The constant zero byte. -/
def zeroB : Nat → Nat := fun _ => 0

/-- Bytes that are already as wanted need no change. -/
theorem Rel.already {s : St} (h : Ok s) {f a b : Nat} {g : Nat → Nat}
    (hz : ∀ p, a ≤ p → p < b → byteAt s f p = g p) : Rel f a b g s s := by
  refine ⟨h, fun f' p => ?_, fun _ => rfl, fun _ => rfl, fun _ => rfl⟩
  split
  · rename_i hc; obtain ⟨rfl, h1, h2⟩ := hc; exact hz p h1 h2
  · rfl

/-- Un-sharing any leaf, with the mark computed as `filc_detect_shared_by` does. -/
theorem unshare_any_wp {s : St} (h : Ok s) {f b : Nat} {k : Key} (hk : (s.file f).leaf k = some b)
    {sh : Bool} (hsh : sh = decide (1 < (s.blk b).ref)) (f1 a : Nat) (g : Nat → Nat) :
    wp (unshare f k b sh)
      (fun b' s' => Rel f1 a a g s s' ∧ Shape s s' ∧ (s'.file f).leaf k = some b' ∧ (s'.blk b').ref ≤ 1)
      (fun s' => Rel f1 a a g s s' ∧ Shape s s') s := by
  by_cases hkt : k.isTree = true
  · exact unshare_wp h hk hkt hsh f1 a g
  · have hr := h.head f k b hk (by simpa using hkt)
    have : sh = false := by rw [hsh]; simp; omega
    subst this
    unfold unshare
    exact wp_pure ⟨Rel.refl _ _ _ h, Shape.refl _, hk, hr⟩

/-- Space of a leaf is given back and its slot reset. -/
theorem discardEntire_wp {s : St} (h : Ok s) {f b : Nat} {k : Key} (hk : (s.file f).leaf k = some b) :
    wp (discardEntire f k b)
      (fun _ s' => Ok s' ∧ Shape s s' ∧
        (∀ f' k', (s'.file f').leaf k' = if f' = f ∧ k' = k then none else (s.file f').leaf k') ∧
        (∀ f' p, byteAt s' f' p = if f' = f ∧ keyOf (s.file f).ft2 p = k then 0 else byteAt s f' p) ∧
        (∀ f', (s'.file f').ft2 = (s.file f').ft2 ∧ (s'.file f').size = (s.file f').size ∧
          (s'.file f').span = (s.file f').span) ∧ (∀ f', f' ≠ f → s'.file f' = s.file f'))
      (fun s' => s' = s) s := by
  have key : ∀ (u : Bool) t, (1 < (s.blk b).ref - 1 → u = false) → ((s.blk b).ref ≤ 1 ∨ u = (s.blk b).unw) →
      t = (s.setBlk b ⟨(s.blk b).raw, u, (s.blk b).ref - 1⟩).setFile f ((s.file f).setLeaf k none (-k.nkb)) →
      Ok t ∧ Shape s t ∧
        (∀ f' k', (t.file f').leaf k' = if f' = f ∧ k' = k then none else (s.file f').leaf k') ∧
        (∀ f' p, byteAt t f' p = if f' = f ∧ keyOf (s.file f).ft2 p = k then 0 else byteAt s f' p) ∧
        (∀ f', (t.file f').ft2 = (s.file f').ft2 ∧ (t.file f').size = (s.file f').size ∧
          (t.file f').span = (s.file f').span) ∧ (∀ f', f' ≠ f → t.file f' = s.file f') := by
    intro u t hu hsh ht
    obtain ⟨h1, h2⟩ := unbind_rel h hk hu hsh ht
    refine ⟨h1, ?_, ?_, h2, ?_, fun f' hf => by rw [ht, setFile_other _ _ hf]; rfl⟩
    · rw [ht]; exact (Shape.setBlk s b _).trans (Shape.setLeaf _ f k none _)
    · rw [ht]; exact fun f' k' => setLeaf_file (s.setBlk b _) f k none _ f' k'
    · rw [ht]; exact fun f' => meta_setLeaf (s.setBlk b _) f k none _ f'
  unfold discardEntire delData
  refine wp_bind (wp_bind (wp_chk (wp_bind (wp_getS ?_)) rfl))
  split
  · rename_i hc
    refine wp_bind (wp_chk ?_ rfl)
    refine wp_bind (wp_modS (wp_bind (wp_chkLate h.late (wp_modS (wp_modS ?_)))))
    rw [setBlk_setBlk, setBlk_same]
    refine key false _ (fun _ => rfl) (.inl ?_) rfl
    rcases hc with hc | hc
    · omega
    · exact h.head f k b hk hc
  · rename_i hc
    refine wp_bind (wp_chk (wp_modS (wp_modS ?_)) rfl)
    refine key (s.blk b).unw _ (fun hh => h.shw b (by omega)) (.inr rfl) rfl

theorem lenOfData_eq {off end_ sz : Nat} (hs : 0 < sz) (ho : off < end_) :
    lenOfData off end_ sz = min (lenToNext off sz) (end_ - off) := by
  have hm := Nat.mod_lt off hs
  have hle := Nat.mod_le off sz
  rw [lenToNext_eq hs]
  unfold lenOfData
  rw [offNext_eq off hs]
  split <;> omega

/-- Discarding within one leaf zeroes exactly the part of the range in it. -/
theorem discardBy_wp {s : St} (h : Ok s) {f off end_ : Nat} {k : Key} {ob : Option Nat} {zero : Bool}
    (hkey : keyOf (s.file f).ft2 off = k) (hob : (s.file f).leaf k = ob) (ho : off < end_) :
    wp (discardBy f k ob off end_ zero)
      (fun _ s' => Rel f off (off + lenOfData off end_ k.size) zeroB s s' ∧ Shape s s')
      (fun s' => Rel f off off zeroB s s' ∧ Shape s s') s := by
  obtain ⟨l1, l2, l3, l4, l5⟩ := len_facts k.size_pos ho
  have hin : ∀ p, off ≤ p → p < off + lenOfData off end_ k.size → keyOf (s.file f).ft2 p = k := by
    intro p h1 h2
    rw [← hkey]
    apply key_range <;> rw [hkey] <;> omega
  have hkk : ∀ p, keyOf (s.file f).ft2 p = k → p - p % k.size = off - off % k.size := by
    intro p hp
    have := key_sub (ft2 := (s.file f).ft2) (p := off) (q := p) (by rw [hkey, hp])
    rw [hkey] at this; exact this.symm
  have hwhole : isPartial off end_ k.size = false → ∀ p, keyOf (s.file f).ft2 p = k →
      off ≤ p ∧ p < off + lenOfData off end_ k.size := by
    intro hp p hkp
    have := hkk p hkp
    have := l4 hp
    have := Nat.mod_lt p k.size_pos
    have := Nat.mod_le p k.size
    omega
  have herr : Rel f off off zeroB s s ∧ Shape s s := ⟨Rel.refl _ _ _ h, Shape.refl _⟩
  unfold discardBy
  rcases ob with _ | b
  · refine wp_pure ⟨Rel.already h (fun p h1 h2 => ?_), Shape.refl _⟩
    exact byteAt_none (by rw [hin p h1 h2]; exact hob)
  · simp only
    have hsh0 : k.isTree = false → false = decide (1 < (s.blk b).ref) := by
      intro hkt
      have := h.head f k b hob hkt
      simp; omega
    suffices hK : ∀ sh, sh = decide (1 < (s.blk b).ref) →
        wp (if isPartial off end_ k.size = true then discardPartial f k b sh off end_
          else if (!sh && zero) = true then (do chk; setUnw b true) else discardEntire f k b)
        (fun _ s' => Rel f off (off + lenOfData off end_ k.size) zeroB s s' ∧ Shape s s')
        (fun s' => Rel f off off zeroB s s' ∧ Shape s s') s by
      split
      · exact wp_bind (detectShared_wp (hK _ rfl) herr)
      · rename_i hkt
        exact wp_bind (wp_pure (hK false (hsh0 (by simpa using hkt))))
    intro sh hshd
    by_cases hpart : isPartial off end_ k.size = true
    · rw [if_pos hpart]
      unfold discardPartial
      refine wp_bind (wp_mono (unshare_any_wp h hob hshd f off zeroB) ?_ (fun _ h => h))
      rintro b' s1 ⟨r1, sh1, hl1, hr1⟩
      refine wp_bind (wp_chk (wp_modS ⟨r1.trans ?_ (Nat.le_refl _) (by omega), sh1.trans (Shape.setBlk ..)⟩) ⟨r1, sh1⟩)
      refine setBlk_rel r1.ok hl1 hr1 (by rfl) ?_ (fun p hp => ?_)
      · intro p h1 h2; rw [r1.ft2]; exact hin p h1 h2
      · rw [r1.ft2] at hp
        have hb := hkk p hp
        have hm := Nat.mod_le p k.size
        have hm' := Nat.mod_le off k.size
        have hlt := Nat.mod_lt p k.size_pos
        have hoid : offInData off k.size = off % k.size := rfl
        simp only [zeroB]
        by_cases hc : off ≤ p ∧ p < off + lenOfData off end_ k.size
        · rw [if_pos hc]
          split
          · rfl
          · rw [if_pos (by omega)]
        · rw [if_neg hc, if_neg (c := offInData off k.size ≤ p % k.size ∧ _) (by omega),
            byteAt_some (by rw [r1.ft2, hp]; exact hl1), r1.ft2, hp]
    · rw [if_neg hpart]
      have hpart' : isPartial off end_ k.size = false := by simpa using hpart
      have hw := hwhole hpart'
      split
      · rename_i hz
        have hr : (s.blk b).ref ≤ 1 := by
          rw [hshd] at hz
          simp at hz; omega
        refine wp_bind (wp_chk (wp_modS ⟨?_, Shape.setBlk ..⟩) herr)
        refine setBlk_rel h hob hr (by rfl) hin (fun p hp => ?_)
        rw [if_pos (hw p hp)]
        simp [zeroB]
      · refine wp_mono (discardEntire_wp h hob) ?_ (fun s' e => e ▸ herr)
        rintro _ s' ⟨q1, q2, _, q3, q4, _⟩
        refine ⟨⟨q1, fun f' p => ?_, fun f' => (q4 f').1, fun f' => (q4 f').2.1, fun f' => (q4 f').2.2⟩, q2⟩
        rw [q3]
        by_cases hc : f' = f ∧ keyOf (s.file f).ft2 p = k
        · rw [if_pos hc, if_pos ⟨hc.1, hw p hc.2⟩]; rfl
        · rw [if_neg hc, if_neg]
          rintro ⟨e, h1, h2⟩
          exact hc ⟨e, hin p h1 h2⟩

theorem discardHeads_wp {f end_ : Nat} {zero : Bool} : ∀ (n : Nat) (s : St), Ok s → end_ - s.pos < n →
    wp (discardHeads f end_ zero n)
      (fun _ s' => Prog f end_ zeroB s s' ∧ (s'.pos < end_ → (s.file f).ft2 = true ∨ 65536 ≤ s'.pos))
      (fun s' => Prog f end_ zeroB s s') s
  | 0, _, _, hn => by omega
  | n + 1, s, h, hn => by
    have herr := Prog.refl f end_ zeroB h
    unfold discardHeads
    refine wp_bind (wp_getS ?_)
    split
    · rename_i hc
      obtain ⟨hft, hlt, hhd⟩ := hc
      refine wp_bind (wp_mono (discardBy_wp h (k := keyOf false s.pos) (by rw [hft]) rfl hlt) ?_ ?_)
      · rintro _ s1 ⟨r1, sh1⟩
        have lf := len_facts (keyOf false s.pos).size_pos hlt
        have le := lenOfData_eq (keyOf false s.pos).size_pos hlt
        refine wp_bind (wp_modS ?_)
        have hadv : advTo s1.pos end_ (s.pos + lenToNext s.pos (keyOf false s.pos).size) =
            s.pos + lenOfData s.pos end_ (keyOf false s.pos).size := by
          rw [sh1.pos]; unfold advTo; omega
        rw [hadv]
        have pu : Prog f end_ zeroB s { s1 with pos := s.pos + lenOfData s.pos end_ (keyOf false s.pos).size } :=
          ⟨r1.setPos _, by show s.pos ≤ s.pos + _; omega, by show s.pos + _ ≤ _; omega, sh1.pos2⟩
        refine wp_mono (discardHeads_wp n _ pu.rel.ok (by show end_ - (s.pos + _) < n; omega)) ?_ ?_
        · rintro _ s' ⟨q1, q2⟩
          exact ⟨pu.trans q1, fun hh => by rw [← pu.rel.ft2]; exact q2 hh⟩
        · intro s' q1; exact pu.trans q1
      · rintro s1 ⟨r1, sh1⟩
        exact Prog.same r1 sh1.posSame
    · rename_i hc
      refine wp_pure ⟨herr, fun hlt => ?_⟩
      by_cases hft : (s.file f).ft2 = true
      · exact .inl hft
      · refine .inr ?_
        have : ¬ s.pos < 65536 := fun hh => hc ⟨by simpa using hft, hlt, hh⟩
        omega

/-- Bytes `[s.pos, q)` are zeroed, for some `q` not beyond the end. -/
def ZeroPart (f end_ : Nat) (s s' : St) : Prop :=
  ∃ q, s.pos ≤ q ∧ q ≤ max s.pos end_ ∧ Rel f s.pos q zeroB s s'

theorem Prog.zeroPart {f end_ : Nat} {s s' : St} (h : Prog f end_ zeroB s s') : ZeroPart f end_ s s' :=
  ⟨s'.pos, h.le, h.hi, h.rel⟩

theorem ZeroPart.after {f end_ : Nat} {s t u : St} (h1 : Prog f end_ zeroB s t)
    (h2 : ZeroPart f end_ t u) : ZeroPart f end_ s u := by
  obtain ⟨q, q1, q2, q3⟩ := h2
  exact ⟨q, Nat.le_trans h1.le q1, by have := h1.le; have := h1.hi; omega, h1.rel.trans q3 h1.le q1⟩

/-- A tree position where nothing is mapped reads as zero. -/
theorem not_found_zero {s : St} (h : Ok s) {f p : Nat} (ht : (s.file f).ft2 = true ∨ 65536 ≤ p)
    (hn : ¬ Found (s.file f) false p) : byteAt s f p = 0 := by
  apply byteAt_none
  rw [keyOf_tree ht]
  rcases hl : (s.file f).leaf (.tr (p / 65536)) with _ | b
  · rfl
  · exact absurd ⟨by rw [hl]; rfl, (h.wf f).leaf_node hl⟩ hn

theorem tree_mono {P : Prop} {a b : Nat} (h : P ∨ 65536 ≤ a) (hab : a ≤ b) : P ∨ 65536 ≤ b := by
  rcases h with h | h
  · exact .inl h
  · exact .inr (by omega)

theorem tree_step {q end_ : Nat} (hq : q < end_) :
    q < q + lenOfData q end_ 65536 ∧ q + lenOfData q end_ 65536 ≤ end_ ∧
      advTo q end_ (q + lenToNext q 65536) = q + lenOfData q end_ 65536 := by
  have lf := len_facts (sz := 65536) (by omega) hq
  have le := lenOfData_eq (sz := 65536) (by omega) hq
  generalize lenOfData q end_ 65536 = L at *
  generalize lenToNext q 65536 = N at *
  unfold advTo
  omega

theorem discardTreeLoop_wp {f end_ : Nat} {zero : Bool} : ∀ (n : Nat) (s : St), Ok s → end_ - s.pos < n →
    (s.pos < end_ → (s.file f).ft2 = true ∨ 65536 ≤ s.pos) →
    wp (discardTreeLoop f end_ zero n)
      (fun _ s' => Rel f s.pos (max s.pos end_) zeroB s s')
      (fun s' => ZeroPart f end_ s s') s
  | 0, _, _, hn, _ => by omega
  | n + 1, s, h, hn, hpre => by
    have herr : ZeroPart f end_ s s := (Prog.refl f end_ zeroB h).zeroPart
    unfold discardTreeLoop
    refine wp_bind (wp_getS ?_)
    split
    · rename_i hlt
      have htr := hpre hlt
      refine wp_bind (wp_mono (seekByTree_wp h (f := f) (hole := false) hlt) ?_ ?_)
      · rintro r s1 ⟨q, e, q1, q2, q3⟩
        subst e
        rcases r with _ | ⟨j, slot⟩
        · refine wp_pure ?_
          rw [show max s.pos end_ = end_ by omega]
          refine (Rel.already h (fun p p1 p2 => ?_)).setPos q
          exact not_found_zero h (tree_mono htr p1)
            (q3.2 p p1 p2 p2)
        · obtain ⟨hq, hj, hslot, hfd, hno⟩ := q3
          have htq : (s.file f).ft2 = true ∨ 65536 ≤ q := by
            rcases htr with t | t
            · exact .inl t
            · exact .inr (by omega)
          simp only
          refine wp_bind (wp_getS ?_)
          have hls : leafSlot q = nodeSlot 2 j q := C06_leaf_slot hj.symm
          have hkk : Key.tr (childIdx j (leafSlot q)) = .tr (q / 65536) := by
            rw [hls]; exact bottomKey_eq hj
          simp only
          rw [hkk, hslot]
          -- the part skipped by the seek
          have pskip : Prog f end_ zeroB s { s with pos := q } := by
            refine ⟨(Rel.already h (fun p p1 p2 => ?_)).setPos q, q1, by show q ≤ _; omega, rfl⟩
            exact not_found_zero h (tree_mono htr p1)
              (hno p p1 p2)
          refine wp_bind (wp_mono (discardBy_wp (s := { s with pos := q }) (h.setPos q) (f := f) (off := q)
            (k := .tr (q / 65536)) (keyOf_tree htq) rfl hq) ?_ ?_)
          · rintro _ s2 ⟨r2, sh2⟩
            refine wp_bind (wp_modS ?_)
            have hd : distToNext (s.file f).ft2 q = lenToNext q 65536 := by
              unfold distToNext; rw [keyOf_tree htq]; rfl
            obtain ⟨g1, g2, g3⟩ := tree_step hq
            have hp2 : s2.pos = q := sh2.pos
            have hsz : (Key.tr (q / 65536)).size = 65536 := rfl
            rw [hsz] at r2
            show wp (discardTreeLoop f end_ zero n) _ _
              { s2 with pos := advTo s2.pos end_ (q + distToNext (s.file f).ft2 q) }
            rw [hp2, hd, g3]
            generalize q + lenOfData q end_ 65536 = m at g1 g2 r2
            clear g3 hd hls hkk hslot hsz hj
            have pu : Prog f end_ zeroB { s with pos := q } { s2 with pos := m } :=
              ⟨r2.setPos _, Nat.le_of_lt g1, by show m ≤ max q end_; omega, sh2.pos2⟩
            have pall := pskip.trans pu
            refine wp_mono (discardTreeLoop_wp n _ pall.rel.ok (by show end_ - m < n; omega) ?_) ?_ ?_
            · intro _
              rw [pall.rel.ft2]
              exact tree_mono htq (Nat.le_of_lt g1)
            · intro _ s' hr
              have hr' : Rel f m (max m end_) zeroB _ s' := hr
              have hm : max m end_ = max s.pos end_ := by omega
              have := pall.rel.trans hr' (by show s.pos ≤ m; omega) (by show m ≤ _; omega)
              rwa [hm] at this
            · intro s' hz; exact ZeroPart.after pall hz
          · rintro s2 ⟨r2, sh2⟩
            exact (pskip.trans (Prog.same r2 sh2.posSame)).zeroPart
      · rintro s1 ⟨q, e⟩
        subst e
        exact ⟨s.pos, Nat.le_refl _, by omega, (Rel.refl f s.pos zeroB h).setPos q⟩
    · refine wp_pure ?_
      rw [show max s.pos end_ = s.pos by omega]
      exact Rel.refl _ _ _ h

theorem discardTree_wp {f end_ : Nat} {zero : Bool} {s : St} (h : Ok s)
    (hpre : s.pos < end_ → (s.file f).ft2 = true ∨ 65536 ≤ s.pos) :
    wp (discardTree f end_ zero)
      (fun _ s' => Rel f s.pos (max s.pos end_) zeroB s s')
      (fun s' => ZeroPart f end_ s s') s := by
  unfold discardTree
  refine wp_bind (wp_getS ?_)
  split
  · rename_i hr
    refine wp_pure (Rel.already h (fun p p1 p2 => ?_))
    have ht := hpre (by omega)
    refine not_found_zero h (tree_mono ht p1) ?_
    intro hfd
    have := (h.wf f).below hfd.2
    omega
  · exact discardTreeLoop_wp (end_ + 1) s h (by omega) hpre

/-- Discarding `[s.pos, end_)` zeroes that range. -/
theorem discardData_wp {f end_ : Nat} {zero : Bool} {s : St} (h : Ok s) :
    wp (discardData f end_ zero)
      (fun _ s' => Rel f s.pos (max s.pos end_) zeroB s s')
      (fun s' => ZeroPart f end_ s s') s := by
  unfold discardData
  refine wp_bind (wp_mono (discardHeads_wp (end_ + 1) s h (by omega)) ?_ (fun _ h => h.zeroPart))
  rintro _ s1 ⟨p1, h1⟩
  refine wp_mono (discardTree_wp p1.rel.ok (fun hlt => by rw [p1.rel.ft2]; exact h1 hlt)) ?_ ?_
  · intro _ s' hr
    have hle := p1.le
    have hhi := p1.hi
    have := p1.rel.trans hr hle (by omega)
    rwa [show max s1.pos end_ = max s.pos end_ by omega] at this
  · intro s' hz; exact ZeroPart.after p1 hz

/-! ### Removing all data -/

/-- Some leaves and nodes of file `f` are gone, nothing else changed. -/
structure Zap (f : Nat) (s s' : St) : Prop where
  ok : Ok s'
  other : ∀ f', f' ≠ f → s'.file f' = s.file f' ∧ ∀ p, byteAt s' f' p = byteAt s f' p
  mine : ∀ p, byteAt s' f p = byteAt s f p ∨ byteAt s' f p = 0
  ft2 : (s'.file f).ft2 = (s.file f).ft2
  size : (s'.file f).size = (s.file f).size
  span : (s'.file f).span = (s.file f).span
  leaf : ∀ k, (s.file f).leaf k = none → (s'.file f).leaf k = none
  node : ∀ t i, (s.file f).node t i = false → (s'.file f).node t i = false
  pos : s'.pos = s.pos
  pos2 : s'.pos2 = s.pos2

theorem Zap.refl {s : St} (f : Nat) (h : Ok s) : Zap f s s :=
  ⟨h, fun _ _ => ⟨rfl, fun _ => rfl⟩, fun _ => .inl rfl, rfl, rfl, rfl, fun _ h => h, fun _ _ h => h, rfl, rfl⟩

theorem Zap.trans {f : Nat} {s t u : St} (h1 : Zap f s t) (h2 : Zap f t u) : Zap f s u := by
  refine ⟨h2.ok, fun f' hf => ?_, fun p => ?_, h2.ft2.trans h1.ft2, h2.size.trans h1.size,
    h2.span.trans h1.span, fun k hk => h2.leaf k (h1.leaf k hk), fun t i hn => h2.node t i (h1.node t i hn),
    h2.pos.trans h1.pos, h2.pos2.trans h1.pos2⟩
  · exact ⟨(h2.other f' hf).1.trans (h1.other f' hf).1, fun p =>
      ((h2.other f' hf).2 p).trans ((h1.other f' hf).2 p)⟩
  · rcases h2.mine p with h | h
    · rcases h1.mine p with h' | h'
      · exact .inl (h.trans h')
      · exact .inr (h.trans h')
    · exact .inr h

theorem dropKey_wp {s : St} (h : Ok s) (f : Nat) (k : Key) :
    wp (dropKey f k)
      (fun _ s' => Zap f s s' ∧ (s'.file f).leaf k = none ∧ (s'.file f).root = (s.file f).root ∧
        (s'.file f).node = (s.file f).node)
      (fun s' => Zap f s s') s := by
  unfold dropKey
  refine wp_bind (wp_getS ?_)
  rcases hl : (s.file f).leaf k with _ | b
  · exact wp_pure ⟨Zap.refl f h, hl, rfl, rfl⟩
  · refine wp_mono (discardEntire_wp h hl) ?_ (fun s' e => by rw [e]; exact Zap.refl f h)
    rintro _ s' ⟨q1, q2, q3, q4, q5, q6⟩
    refine ⟨⟨q1, fun f' hf => ⟨q6 f' hf, fun p => ?_⟩, fun p => ?_, (q5 f).1, (q5 f).2.1, (q5 f).2.2,
      fun k' hk' => ?_, fun t i hn => ?_, q2.pos, q2.pos2⟩, ?_, q2.root f, q2.node f⟩
    · rw [q4, if_neg (fun h => hf h.1)]
    · rw [q4]
      split
      · exact .inr rfl
      · exact .inl rfl
    · rw [q3]
      split
      · rfl
      · exact hk'
    · rw [q2.node]; exact hn
    · rw [q3, if_pos ⟨rfl, rfl⟩]

theorem dropKeys_wp (f : Nat) : ∀ (ks : List Key) (s : St), Ok s →
    wp (dropKeys f ks)
      (fun _ s' => Zap f s s' ∧ (∀ k ∈ ks, (s'.file f).leaf k = none) ∧
        (s'.file f).root = (s.file f).root ∧ (s'.file f).node = (s.file f).node)
      (fun s' => Zap f s s') s
  | [], s, h => wp_pure ⟨Zap.refl f h, by simp, rfl, rfl⟩
  | k :: ks, s, h => by
    unfold dropKeys
    refine wp_bind (wp_mono (dropKey_wp h f k) ?_ (fun _ h => h))
    rintro _ s1 ⟨z1, h1, r1, n1⟩
    refine wp_mono (dropKeys_wp f ks s1 z1.ok) ?_ (fun s' z => z1.trans z)
    rintro _ s' ⟨z2, h2, r2, n2⟩
    refine ⟨z1.trans z2, fun k' hk' => ?_, r2.trans r1, n2.trans n1⟩
    rcases List.mem_cons.1 hk' with rfl | hk'
    · exact z2.leaf _ h1
    · exact h2 k' hk'

/-- Nothing is left strictly below node `i` of height `t`. -/
def Empty (x : File) (t i : Nat) : Prop :=
  ∀ p, p / cover t = i → (∀ t', 2 ≤ t' → t' < t → x.node t' (p / cover t') = false) ∧
    x.leaf (.tr (p / 65536)) = none

theorem Zap.empty {f : Nat} {s s' : St} (h : Zap f s s') {t i : Nat} (he : Empty (s.file f) t i) :
    Empty (s'.file f) t i :=
  fun p hp => ⟨fun t' h1 h2 => h.node _ _ ((he p hp).1 t' h1 h2), h.leaf _ (he p hp).2⟩

theorem mul_div_cover (i t : Nat) : i * cover t / cover t = i := Nat.mul_div_cancel _ (cover_pos t)

/-- An empty node other than the root may be removed. -/
theorem WF.delNode {x : File} (h : WF x) {t c : Nat} (h2 : 2 ≤ t) (hr : t < x.root) (he : Empty x t c) :
    WF (x.setNode t c false) := by
  refine ⟨?_, fun t' i' hn => ?_, fun j b hl => ?_⟩
  · rcases h.root with h0 | ⟨r2, r5, rn⟩
    · exact .inl h0
    · refine .inr ⟨r2, r5, ?_⟩
      rw [setNode_node, if_neg]
      · exact rn
      · rintro ⟨e, _⟩
        have e' : x.root = t := e
        omega
  · rw [setNode_node] at hn
    split at hn
    · cases hn
    · rename_i hne
      obtain ⟨q1, q2, q3, q4⟩ := h.node _ _ hn
      refine ⟨q1, q2, q3, fun hlt => ?_⟩
      rw [setNode_node, if_neg]
      · exact q4 hlt
      · rintro ⟨e1, e2⟩
        have hp : i' * cover t' / cover t = c := by
          rw [← e1, ← div_cover_succ (by omega), mul_div_cover, e2]
        have := (he _ hp).1 t' q1 (by omega)
        rw [mul_div_cover, hn] at this
        cases this
  · have hl' : x.leaf (.tr j) = some b := hl
    rw [setNode_node, if_neg]
    · exact h.leaf j b hl
    · rintro ⟨e1, e2⟩
      have hp : j * cover 1 / cover t = c := by
        rw [← e1, show (2 : Nat) = 1 + 1 from rfl, ← div_cover_succ (by omega), mul_div_cover, e2]
      have := (he _ hp).2
      rw [cover_one, Nat.mul_div_cancel _ (by omega), hl'] at this
      cases this

/-- Removing an empty node changes no content. -/
theorem delNode_zap {s : St} (h : Ok s) {f t c : Nat} (h2 : 2 ≤ t) (hr : t < (s.file f).root)
    (he : Empty (s.file f) t c) : Zap f s (s.setFile f ((s.file f).setNode t c false)) := by
  have r := tree_rel h (f := f) (x := (s.file f).setNode t c false) rfl rfl rfl rfl rfl
    ((h.wf f).delNode h2 hr he) f 0 zeroB
  refine ⟨r.ok, fun f' hf => ⟨setFile_other _ _ hf, fun p => ?_⟩, fun p => .inl ?_, r.ft2 f, r.size f,
    r.span f, fun k hk => ?_, fun t' i hn => ?_, rfl, rfl⟩
  · rw [r.upd, if_neg (by omega)]
  · rw [r.upd, if_neg (by omega)]
  · rw [setFile_same]; exact hk
  · rw [setFile_same, setNode_node]
    split
    · rfl
    · exact hn

theorem dropChilds_wp {f t i : Nat} {rec : Nat → M Unit} (ht2 : 2 ≤ t)
    (hrec : ∀ (c : Nat) (s : St), Ok s → t ≤ (s.file f).root → (s.file f).node t c = true →
      wp (rec c) (fun _ s' => Zap f s s' ∧ Empty (s'.file f) t c ∧ (s'.file f).root = (s.file f).root)
        (fun s' => Zap f s s') s) :
    ∀ (n slot : Nat) (s : St), Ok s → slot + n = 1024 → t < (s.file f).root →
    (∀ sl, sl < slot → Empty (s.file f) t (childIdx i sl) ∧ (s.file f).node t (childIdx i sl) = false) →
    wp (dropChilds f rec (t + 1) i n slot)
      (fun _ s' => Zap f s s' ∧ (s'.file f).root = (s.file f).root ∧
        ∀ sl, sl < 1024 → Empty (s'.file f) t (childIdx i sl) ∧ (s'.file f).node t (childIdx i sl) = false)
      (fun s' => Zap f s s') s
  | 0, slot, s, h, hs, hr, hd => by
    unfold dropChilds
    refine wp_pure ⟨Zap.refl f h, rfl, fun sl hsl => hd sl (by omega)⟩
  | n + 1, slot, s, h, hs, hr, hd => by
    unfold dropChilds
    refine wp_bind (wp_getS ?_)
    rw [Nat.add_sub_cancel]
    split
    · rename_i hnode
      refine wp_bind (wp_chk ?_ (Zap.refl f h))
      refine wp_bind (wp_mono (hrec _ s h (Nat.le_of_lt hr) hnode) ?_ (fun _ h => h))
      rintro _ s1 ⟨z1, e1, r1⟩
      refine wp_bind (wp_chk ?_ z1)
      refine wp_bind (wp_modS ?_)
      have z2 := delNode_zap z1.ok ht2 (by rw [r1]; exact hr) e1
      refine wp_mono (dropChilds_wp ht2 hrec n (slot + 1) _ z2.ok (by omega) ?_ ?_) ?_ ?_
      · rw [setFile_same]; show t < (s1.file f).root; rw [r1]; exact hr
      · intro sl hsl
        by_cases hlt : sl < slot
        · have hh := hd sl hlt
          exact ⟨z2.empty (z1.empty hh.1), z2.node _ _ (z1.node _ _ hh.2)⟩
        · have : sl = slot := by omega
          subst this
          refine ⟨z2.empty e1, ?_⟩
          rw [setFile_same, setNode_node, if_pos ⟨rfl, rfl⟩]
      · rintro _ s' ⟨z3, r3, e3⟩
        refine ⟨z1.trans (z2.trans z3), ?_, e3⟩
        rw [r3, setFile_same]; exact r1
      · intro s' z3; exact z1.trans (z2.trans z3)
    · rename_i hnode
      have hnf : (s.file f).node t (childIdx i slot) = false := by simpa using hnode
      refine dropChilds_wp ht2 hrec n (slot + 1) s h (by omega) hr ?_
      intro sl hsl
      by_cases hlt : sl < slot
      · exact hd sl hlt
      · have : sl = slot := by omega
        subst this
        refine ⟨fun p hp => ?_, hnf⟩
        have hno : ∀ t', 2 ≤ t' → t' ≤ t → (s.file f).node t' (p / cover t') = false := by
          intro t' q1 q2
          by_cases hb : (s.file f).node t' (p / cover t') = true
          · exfalso
            have up : ∀ d, t' + d ≤ t → (s.file f).node (t' + d) (p / cover (t' + d)) = true := by
              intro d
              induction d with
              | zero => intro _; exact hb
              | succ d ih =>
                intro hdt
                have := ((h.wf f).node _ _ (ih (by omega))).2.2.2 (by omega)
                rwa [div_cover_succ (by omega)] at this
            have := up (t - t') (by omega)
            rw [show t' + (t - t') = t by omega, hp, hnf] at this
            cases this
          · simpa using hb
        refine ⟨fun t' q1 q2 => hno t' q1 (by omega), ?_⟩
        rcases hl : (s.file f).leaf (.tr (p / 65536)) with _ | b
        · rfl
        · have := (h.wf f).leaf_node hl
          rw [hno 2 (by omega) ht2] at this
          cases this

theorem dropRec_wp {f : Nat} : ∀ (t : Nat), 2 ≤ t → ∀ (i : Nat) (s : St), Ok s → t ≤ (s.file f).root →
    (s.file f).node t i = true →
    wp (dropRec f t i)
      (fun _ s' => Zap f s s' ∧ Empty (s'.file f) t i ∧ (s'.file f).root = (s.file f).root)
      (fun s' => Zap f s s') s
  | 0, h2, _, _, _, _, _ => by omega
  | t + 1, h2, i, s, h, hr, hn => by
    have hr5 : (s.file f).root ≤ 5 := by
      rcases (h.wf f).root with h0 | ⟨_, h1, _⟩ <;> omega
    unfold dropRec
    split
    · have ht : t = 1 := by omega
      subst ht
      generalize hL : (List.range 1024).map (fun s => Key.tr (childIdx i s)) = ks
      refine wp_mono (dropKeys_wp f ks s h) ?_ (fun _ h => h)
      rintro _ s' ⟨z, hk, r, nn⟩
      refine ⟨z, fun p hp => ⟨fun t' q1 q2 => by omega, hk _ ?_⟩, r⟩
      rw [← hL]
      rw [List.mem_map]
      refine ⟨p / 65536 % 1024, List.mem_range.2 (Nat.mod_lt _ (by omega)), ?_⟩
      rw [cover_two] at hp
      have hc : childIdx i (p / 65536 % 1024) = p / 65536 := by
        unfold childIdx
        omega
      rw [hc]
    · rename_i hnb
      refine wp_mono (dropChilds_wp (t := t) (by omega) (fun c s0 h0 hr0 hn0 => dropRec_wp t (by omega) c s0 h0 hr0 hn0)
        1024 0 s h (Nat.zero_add _) (by omega) (fun sl hsl => by omega)) ?_ (fun _ h => h)
      rintro _ s' ⟨z, r, hall⟩
      refine ⟨z, fun p hp => ?_, r⟩
      have hidx : p / cover t = childIdx i (p / cover t % 1024) := by
        unfold childIdx
        have := div_cover_succ (h := t) (off := p) (by omega)
        rw [hp] at this
        omega
      obtain ⟨e1, e2⟩ := hall (p / cover t % 1024) (Nat.mod_lt _ (by omega))
      refine ⟨fun t' q1 q2 => ?_, (e1 p hidx).2⟩
      by_cases ht' : t' = t
      · rw [ht', hidx]; exact e2
      · exact (e1 p hidx).1 t' q1 (by omega)

/-- File `f` has no tree left. -/
structure NoTree (x : File) : Prop where
  root : x.root = 0
  leaf : ∀ i, x.leaf (.tr i) = none

theorem dropTree_wp {s : St} (h : Ok s) (f : Nat) :
    wp (dropTree f) (fun _ s' => Zap f s s' ∧ NoTree (s'.file f)) (fun s' => Zap f s s') s := by
  unfold dropTree
  refine wp_bind (wp_getS ?_)
  split
  · rename_i hr
    refine wp_pure ⟨Zap.refl f h, hr, fun i => ?_⟩
    rcases hl : (s.file f).leaf (.tr i) with _ | b
    · rfl
    · have := (h.wf f).node _ _ ((h.wf f).leaf i b hl)
      omega
  · rename_i hr
    rcases (h.wf f).root with h0 | ⟨r2, r5, rn⟩
    · omega
    refine wp_bind (wp_chk ?_ (Zap.refl f h))
    refine wp_bind (wp_mono (dropRec_wp _ r2 0 s h (Nat.le_refl _) rn) ?_ (fun _ h => h))
    rintro _ s1 ⟨z1, e1, rr⟩
    refine wp_bind (wp_chk ?_ z1)
    refine wp_modS ?_
    rw [← rr]
    rw [← rr] at e1
    have hleaf : ∀ i, (s1.file f).leaf (.tr i) = none := by
      intro i
      rcases hl : (s1.file f).leaf (.tr i) with _ | b
      · rfl
      · have hl' : (s1.file f).leaf (.tr (i * 65536 / 65536)) = some b := by
          rw [Nat.mul_div_cancel _ (by omega)]; exact hl
        have hb := (z1.ok.wf f).below ((z1.ok.wf f).leaf_node hl')
        have := (e1 (i * 65536) (Nat.div_eq_of_lt hb.2.2)).2
        rw [hl'] at this; cases this
    have hnode : ∀ t i, ((s1.file f).setNode (s1.file f).root 0 false).node t i = false := by
      intro t i
      rw [setNode_node]
      split
      · rfl
      · rename_i hne
        by_cases hb : (s1.file f).node t i = true
        · exfalso
          obtain ⟨q1, q2, q3, _⟩ := (z1.ok.wf f).node _ _ hb
          have hlt : i * cover t < cover (s1.file f).root := by
            rw [Nat.add_one_mul] at q3
            have := cover_pos t
            omega
          by_cases ht : t < (s1.file f).root
          · have := (e1 (i * cover t) (Nat.div_eq_of_lt hlt)).1 t q1 ht
            rw [mul_div_cover, hb] at this; cases this
          · have ht' : t = (s1.file f).root := by omega
            subst ht'
            have hi : i = 0 := by
              rcases Nat.eq_zero_or_pos i with h0 | h1
              · exact h0
              · have := Nat.mul_le_mul_right (cover (s1.file f).root) h1
                omega
            exact hne ⟨rfl, hi⟩
        · simpa using hb
    have r := tree_rel z1.ok (f := f)
      (x := { (s1.file f).setNode (s1.file f).root 0 false with root := 0 }) rfl rfl rfl rfl rfl
      ⟨.inl rfl, fun t i hn => by
          have : ((s1.file f).setNode (s1.file f).root 0 false).node t i = true := hn
          rw [hnode] at this; exact absurd this (by decide),
        fun i b hl => by
          have : (s1.file f).leaf (.tr i) = some b := hl
          rw [hleaf] at this; exact absurd this (by simp)⟩ f 0 zeroB
    refine ⟨z1.trans ⟨r.ok, fun f' hf => ⟨setFile_other _ _ hf, fun p => ?_⟩, fun p => .inl ?_, r.ft2 f,
      r.size f, r.span f, fun k hk => ?_, fun t i hn => ?_, rfl, rfl⟩, ?_, ?_⟩
    · rw [r.upd, if_neg (by omega)]
    · rw [r.upd, if_neg (by omega)]
    · rw [setFile_same]; exact hk
    · rw [setFile_same]; exact hnode t i
    · rw [setFile_same]
    · rw [setFile_same]; exact hleaf

theorem headKeys_mem {p : Nat} (h : p < 65536) : keyOf false p ∈ headKeys := by
  unfold headKeys
  rcases keyOf_cases false p with ⟨hf, h1, hk⟩ | ⟨hf, h0, h1, hk⟩ | ⟨hf, hk⟩
  · rw [hk]
    exact List.mem_append_left _ (List.mem_map_of_mem (List.mem_range.2 (by omega)))
  · rw [hk]
    exact List.mem_append_right _ (List.mem_map_of_mem (List.mem_range.2 (by omega)))
  · rcases hf with hf | hf
    · cases hf
    · omega

/-- Removing all data: every byte is zero and no position is mapped. -/
theorem dropAll_wp {s : St} (h : Ok s) (f : Nat) :
    wp (dropAll f)
      (fun _ s' => Zap f s s' ∧ NoTree (s'.file f) ∧
        ∀ p, (s'.file f).leaf (keyOf (s'.file f).ft2 p) = none)
      (fun s' => Zap f s s') s := by
  unfold dropAll
  have hheads : wp (dropHeads f) (fun _ s' => Zap f s s' ∧
      ∀ p, (s.file f).ft2 = false → p < 65536 → (s'.file f).leaf (keyOf false p) = none)
      (fun s' => Zap f s s') s := by
    unfold dropHeads
    refine wp_bind (wp_getS ?_)
    split
    · rename_i hft
      exact wp_pure ⟨Zap.refl f h, fun p hf => by rw [hft] at hf; cases hf⟩
    · refine wp_mono (dropKeys_wp f headKeys s h) ?_ (fun _ h => h)
      rintro _ s' ⟨z, hk, _⟩
      exact ⟨z, fun p _ hp => hk _ (headKeys_mem hp)⟩
  refine wp_bind (wp_mono hheads ?_ (fun _ h => h))
  rintro _ s1 ⟨z1, h1⟩
  refine wp_mono (dropTree_wp z1.ok f) ?_ (fun s' z => z1.trans z)
  rintro _ s' ⟨z2, nt⟩
  refine ⟨z1.trans z2, nt, fun p => ?_⟩
  rw [z2.ft2, z1.ft2]
  by_cases hft : (s.file f).ft2 = true
  · rw [keyOf_tree (.inl hft)]; exact nt.leaf _
  · have hff : (s.file f).ft2 = false := by simpa using hft
    by_cases hp : p < 65536
    · rw [hff]; exact z2.leaf _ (h1 p hff hp)
    · rw [keyOf_tree (.inr (by omega))]; exact nt.leaf _

end Silofs.File
