/-
Large writes in two phases: what collecting the leaves does to file contents, and
that the block of a collected leaf stays where it is while other requests read and
write.
-/
import Verif.Model.FileAsync
import Verif.Props.FileCopyStep

set_option linter.unusedSimpArgs false
set_option linter.unusedVariables false

namespace Silofs.File

/-! ### Blocks that stay -/

/-- Block `c` is that of leaf `k` of file `f`, its only one, and written. -/
def Held (s : St) (f : Nat) (k : Key) (c : Nat) : Prop :=
  (s.file f).leaf k = some c ∧ (s.blk c).ref ≤ 1 ∧ (s.blk c).unw = false

/-- Written private blocks stay where they are. -/
def Hold (s s' : St) : Prop := ∀ f k c, Held s f k c → Held s' f k c

theorem Hold.refl (s : St) : Hold s s := fun _ _ _ h => h
theorem Hold.trans {s t u : St} (h1 : Hold s t) (h2 : Hold t u) : Hold s u :=
  fun f k c h => h2 f k c (h1 f k c h)

theorem Keep.hold {s s' : St} (h : Keep s s') : Hold s s' := by
  intro f k c ⟨h1, h2, h3⟩
  exact ⟨by rw [h.2]; exact h1, by rw [h.1]; exact h2, by rw [h.1]; exact h3⟩

/-- A block changes that is not such a block. -/
theorem Hold.setBlk_not {s : St} {b : Nat} (x : Blk) (h : ∀ f k, ¬ Held s f k b) : Hold s (s.setBlk b x) := by
  intro f k c hc
  have hne : c ≠ b := by rintro rfl; exact h f k hc
  exact ⟨hc.1, by rw [setBlk_other _ _ hne]; exact hc.2.1, by rw [setBlk_other _ _ hne]; exact hc.2.2⟩

/-- The content of a block changes, or it becomes written. -/
theorem Hold.setBlk_soft {s : St} {b : Nat} {x : Blk} (hr : x.ref = (s.blk b).ref)
    (hu : (s.blk b).unw = false → x.unw = false) : Hold s (s.setBlk b x) := by
  intro f k c hc
  by_cases hne : c = b
  · subst hne
    exact ⟨hc.1, by rw [setBlk_same, hr]; exact hc.2.1, by rw [setBlk_same]; exact hu hc.2.2⟩
  · exact ⟨hc.1, by rw [setBlk_other _ _ hne]; exact hc.2.1, by rw [setBlk_other _ _ hne]; exact hc.2.2⟩

/-- A leaf slot changes that holds no such block. -/
theorem Hold.setLeaf {s : St} {f : Nat} {k : Key} (v : Option Nat) (d : Int) (h : ∀ c, ¬ Held s f k c) :
    Hold s (s.setFile f ((s.file f).setLeaf k v d)) := by
  intro f' k' c hc
  refine ⟨?_, hc.2⟩
  rw [setLeaf_file, if_neg]
  · exact hc.1
  · rintro ⟨rfl, rfl⟩; exact h c hc

theorem Hold.setPos {s t : St} (h : Hold s t) (q : Nat) : Hold s { t with pos := q } := h

theorem Ok.not_held {s : St} (h : Ok s) {b : Nat} (hb : (s.blk b).ref = 0) (f : Nat) (k : Key) : ¬ Held s f k b :=
  fun hc => h.unmapped hb f k hc.1

theorem requireLeaf_hold {s : St} (h : Ok s) (f : Nat) (k : Key) :
    wp (requireLeaf f k) (fun _ s' => Hold s s') (Hold s) s := by
  unfold requireLeaf
  refine wp_bind (wp_getS ?_)
  rcases hl : (s.file f).leaf k with _ | b
  · simp only [claimData]
    refine wp_bind (wp_bind (wp_claimSpace (fun b raw hb => ?_) (Hold.refl s)))
    have h1 : Hold s (s.setBlk b ⟨raw, true, 1⟩) := Hold.setBlk_not _ (h.not_held hb)
    refine wp_bind (wp_chk (wp_pure (wp_bind (wp_modS (wp_pure ?_)))) h1)
    refine h1.trans (Hold.setLeaf _ _ ?_)
    intro c hc
    have : (s.file f).leaf k = some c := hc.1
    rw [hl] at this; cases this
  · simp only
    exact wp_bind (wp_chk (wp_pure (Hold.refl s)) (Hold.refl s))

theorem preWrite_hold {s : St} {b sz : Nat} {part : Bool} :
    wp (preWrite b sz part) (fun _ s' => Hold s s') (Hold s) s := by
  refine wp_preWrite (fun r1 _ _ => ?_) (Hold.refl s)
  exact Hold.setBlk_soft rfl (fun h => h)

theorem writeLeaf_hold {s : St} (hl : s.late = false) {b sz off end_ : Nat} {dat : Nat → Nat} :
    wp (writeLeaf b sz off end_ dat) (fun _ s' => Hold s s') (Hold s) s := by
  unfold writeLeaf
  refine wp_bind (wp_preWrite (fun r1 _ _ => ?_) (Hold.refl s))
  have h1 : Hold s (s.setBlk b ⟨r1, (s.blk b).unw, (s.blk b).ref⟩) := Hold.setBlk_soft rfl (fun h => h)
  refine wp_bind (wp_chk (wp_bind (wp_chk (wp_bind (wp_modS ?_)) h1)) h1)
  rw [setBlk_setBlk, setBlk_same]
  refine wp_bind (wp_chkLate hl (wp_modS ?_))
  rw [setBlk_setBlk, setBlk_same]
  exact Hold.setBlk_soft rfl (fun _ => rfl)

theorem unshare_hold {s : St} (h : Ok s) {f b : Nat} {k : Key} (hk : (s.file f).leaf k = some b)
    {sh : Bool} (hsh : sh = decide (1 < (s.blk b).ref)) :
    wp (unshare f k b sh) (fun _ s' => Hold s s') (Hold s) s := by
  unfold unshare
  subst hsh
  by_cases hs : 1 < (s.blk b).ref
  · simp only [hs, decide_true, if_true]
    simp only [claimData]
    refine wp_bind (wp_bind (wp_claimSpace (fun b' raw hb => ?_) (Hold.refl s)))
    have hne : b ≠ b' := by rintro rfl; omega
    have hany : ∀ x : Blk, Hold s (s.setBlk b' x) := fun x => Hold.setBlk_not _ (h.not_held hb)
    refine wp_bind (wp_chk (wp_pure ?_) (hany _))
    have hundo : ∀ x : Blk, wp (reclaimData b') (fun _ s' => Hold s s') (Hold s) (s.setBlk b' x) := by
      intro x
      refine wp_bind (wp_chk (wp_modS ?_) (hany _))
      rw [setBlk_setBlk]; exact hany _
    refine wp_bind (wp_onErr ?_)
    unfold copyWhole
    refine wp_bind (wp_chk (wp_bind (wp_chk (wp_bind (wp_getS (wp_bind (wp_modS ?_)))) ?_)) ?_)
    rotate_left
    · exact hundo _
    · exact hundo _
    rw [setBlk_setBlk, setBlk_same, setBlk_other _ _ hne]
    refine wp_bind (wp_chk (wp_modS ?_) (hundo _))
    rw [setBlk_setBlk, setBlk_same]
    simp only
    refine wp_bind (wp_bind (wp_chk (wp_modS (wp_bind (wp_modS (wp_pure ?_)))) (hany _)))
    intro f' k' c hc
    have hcb : c ≠ b := by rintro rfl; have := hc.2.1; omega
    have hcb' : c ≠ b' := by rintro rfl; exact h.not_held hb _ _ hc
    refine ⟨?_, ?_, ?_⟩
    · rw [setLeaf_file, if_neg]
      · exact hc.1
      · rintro ⟨rfl, rfl⟩
        have := hc.1
        rw [hk] at this; cases this; exact hcb rfl
    · rw [setFile_blk, setBlk_other _ _ hcb, setBlk_other _ _ hcb']; exact hc.2.1
    · rw [setFile_blk, setBlk_other _ _ hcb, setBlk_other _ _ hcb']; exact hc.2.2
  · simp only [hs, decide_false, Bool.false_eq_true, if_false]
    exact wp_pure (Hold.refl s)

theorem spineLoop_kept {f want : Nat} : ∀ (n : Nat) (s : St),
    wp (spineLoop f want n) (fun _ s' => Keep s s') (Keep s) s
  | 0, s => wp_pure (Keep.refl s)
  | n + 1, s => by
    unfold spineLoop
    refine wp_bind (wp_getS ?_)
    simp only
    generalize (if (s.file f).root = 0 then 1 else (s.file f).root) = cur
    split
    · refine wp_bind (wp_chk (wp_bind (wp_modS ?_)) (Keep.refl s))
      have hk : Keep s (s.setFile f { (s.file f).setNode (cur + 1) 0 true with root := cur + 1 }) :=
        Keep.setFile rfl
      exact wp_mono (spineLoop_kept n _) (fun _ s' h => hk.trans h) (fun s' h => hk.trans h)
    · exact wp_pure (Keep.refl s)

theorem requirePath_kept {f off : Nat} : ∀ (t i : Nat) (s : St),
    wp (requirePath f off t i) (fun _ s' => Keep s s') (Keep s) s
  | 0, _, s => wp_pure (Keep.refl s)
  | t + 1, i, s => by
    unfold requirePath
    split
    · exact wp_pure (Keep.refl s)
    · refine wp_bind (wp_getS ?_)
      simp only
      refine wp_bind (wp_chk ?_ (Keep.refl s))
      split
      · exact requirePath_kept t _ s
      · refine wp_bind (wp_modS ?_)
        have hk : Keep s (s.setFile f ((s.file f).setNode t (childIdx i (nodeSlot (t + 1) i off)) true)) :=
          Keep.setFile rfl
        exact wp_mono (requirePath_kept t _ _) (fun _ s' h => hk.trans h) (fun s' h => hk.trans h)

theorem requireTree_kept {f off : Nat} (s : St) :
    wp (requireTree f off) (fun _ s' => Keep s s') (Keep s) s := by
  unfold requireTree
  have hsp : wp (createSpine f off) (fun _ s' => Keep s s') (Keep s) s := by
    unfold createSpine
    refine wp_bind (wp_getS ?_)
    split
    · exact spineLoop_kept _ s
    · exact wp_bind (wp_chk (spineLoop_kept _ s) (Keep.refl s))
  refine wp_bind (wp_mono hsp ?_ (fun _ h => h))
  intro _ s1 h1
  refine wp_bind (wp_chk (wp_bind (wp_getS ?_)) h1)
  exact wp_mono (requirePath_kept _ _ s1) (fun _ s' h => h1.trans h) (fun s' h => h1.trans h)

/-! ### Ordinary writes and reads keep such blocks -/

/-- The cursor moves forward within the range. -/
theorem advance_to {end_ to : Nat} {t : St} (h1 : t.pos ≤ to) (h2 : to ≤ end_) {Q : Unit → St → Prop}
    {E : St → Prop} (hq : Q () { t with pos := to }) : wp (advance end_ to) Q E t := by
  refine wp_modS ?_
  have hadv : advTo t.pos end_ to = to := by unfold advTo; omega
  rw [hadv]
  exact hq

/-- Not at a boundary of bottom nodes: the next leaf is below the same node. -/
theorem next_leaf {j a len end_ : Nat} {x y : File} (hj : j = a / cover 2) (htr : x.ft2 = true ∨ 65536 ≤ a)
    (hft : y.ft2 = x.ft2) (hlen : 0 < len) (hb : ¬ isMapBoundary (a + len) = true)
    (hl : a + len = end_ ∨ a + len = a - a % 65536 + 65536) (hlt' : a + len < end_) :
    j = (a + len) / cover 2 ∧ (y.ft2 = true ∨ 65536 ≤ a + len) := by
  unfold isMapBoundary at hb
  rw [hft]
  rw [cover_two] at hj ⊢
  have hb' : ¬ (a + len) % 67108864 = 0 := by simpa using hb
  refine ⟨by omega, ?_⟩
  rcases htr with htr | htr
  · exact .inl htr
  · exact .inr (by omega)

theorem writeHeads_hold {f end_ : Nat} {dat : Nat → Nat} : ∀ (n : Nat) (s : St), Ok s →
    wp (writeHeads f end_ dat n) (fun _ s' => Hold s s') (Hold s) s
  | 0, s, _ => wp_throw (Hold.refl s)
  | n + 1, s, h => by
    unfold writeHeads
    refine wp_bind (wp_getS ?_)
    split
    · rename_i hc
      obtain ⟨hft, hlt, hhd⟩ := hc
      have hkt := keyOf_head hhd
      refine wp_bind (wp_mono (wp_and (requireLeaf_wp h (not_tree_node hkt _) f s.pos dat) (requireLeaf_hold h f _)) ?_ ?_)
      · rintro b s1 ⟨⟨r1, sh1, hl1⟩, d1⟩
        have hsole := r1.ok.head f _ b hl1 hkt
        have hkey : keyOf (s1.file f).ft2 s.pos = keyOf false s.pos := by rw [r1.ft2, hft]
        refine wp_bind (wp_mono (wp_and (writeLeaf_wp r1.ok hl1 hkey rfl hsole hlt) (writeLeaf_hold r1.ok.late)) ?_ ?_)
        · rintro _ s2 ⟨⟨r2, sh2⟩, d2⟩
          refine wp_bind (wp_modS ?_)
          exact wp_mono (writeHeads_hold n _ (r2.ok.setPos _)) (fun _ s' h => (d1.trans d2).trans h)
            (fun s' h => (d1.trans d2).trans h)
        · rintro s2 ⟨_, d2⟩
          exact d1.trans d2
      · rintro s1 ⟨_, d1⟩
        exact d1
    · exact wp_pure (Hold.refl s)

theorem writeTreeLeaves_hold {f j end_ : Nat} {dat : Nat → Nat} : ∀ (n : Nat) (s : St), Ok s →
    (s.file f).node 2 j = true →
    (s.pos < end_ → j = s.pos / cover 2 ∧ ((s.file f).ft2 = true ∨ 65536 ≤ s.pos)) →
    wp (writeTreeLeaves f j end_ dat n) (fun _ s' => Hold s s') (Hold s) s
  | 0, s, _, _, _ => wp_throw (Hold.refl s)
  | n + 1, s, h, hnode, hpre => by
    unfold writeTreeLeaves
    refine wp_bind (wp_getS ?_)
    split
    · rename_i hlt
      obtain ⟨hj, htr⟩ := hpre hlt
      rw [bottomKey_eq hj]
      have hkey0 := keyOf_tree htr
      have hnk : ∀ i, Key.tr (s.pos / 65536) = .tr i → (s.file f).node 2 (i / 1024) = true := by
        intro i e
        cases e
        rw [← cover_one, div_cover_succ (h := 1) (by omega), show 1 + 1 = 2 from rfl, ← hj]; exact hnode
      refine wp_bind (wp_mono (wp_and (requireLeaf_wp h hnk f s.pos dat) (requireLeaf_hold h f _)) ?_ ?_)
      · rintro b s1 ⟨⟨r1, sh1, hl1⟩, d1⟩
        refine wp_bind (detectShared_wp ?_ d1)
        refine wp_bind (wp_mono (wp_and (unshare_wp r1.ok hl1 rfl rfl f s.pos dat) (unshare_hold r1.ok hl1 rfl)) ?_ ?_)
        · rintro b' s2 ⟨⟨r2, sh2, hl2, hr2⟩, d2⟩
          have r12 := r1.trans r2 (Nat.le_refl _) (Nat.le_refl _)
          have hkey : keyOf (s2.file f).ft2 s.pos = .tr (s.pos / 65536) := by rw [r12.ft2, hkey0]
          have d12 := d1.trans d2
          refine wp_bind (wp_mono (wp_and (writeLeaf_wp r2.ok hl2 hkey rfl hr2 hlt) (writeLeaf_hold r2.ok.late)) ?_ ?_)
          · rintro _ s3 ⟨⟨r3, sh3⟩, d3⟩
            have lf := len_facts (sz := 65536) (by omega) hlt
            have r13 := r12.trans r3 (Nat.le_refl _) (by omega)
            have sh13 := (sh1.trans sh2).trans sh3
            have d13 := d12.trans d3
            refine wp_bind (advance_to (by rw [sh13.pos]; omega) (by omega) ?_)
            refine wp_bind (wp_getS ?_)
            split
            · exact wp_pure (d13.setPos _)
            · rename_i hb
              refine wp_mono (writeTreeLeaves_hold n _ (r3.ok.setPos _) ?_ ?_) (fun _ s' h => (d13.setPos _).trans h)
                (fun s' h => (d13.setPos _).trans h)
              · show (s3.file f).node 2 j = true
                rw [sh13.node]; exact hnode
              · exact next_leaf hj htr (r13.ft2 f) (by omega) hb lf.2.2.2.2
          · rintro s3 ⟨_, d3⟩
            exact d12.trans d3
        · rintro s2 ⟨_, d2⟩
          exact d1.trans d2
      · rintro s1 ⟨_, d1⟩
        exact d1
    · exact wp_pure (Hold.refl s)

theorem writeTree_hold {f end_ : Nat} {dat : Nat → Nat} (hmax : end_ ≤ sizeMax + 1) : ∀ (n : Nat) (s : St),
    Ok s → (s.pos < end_ → (s.file f).ft2 = true ∨ 65536 ≤ s.pos) →
    wp (writeTree f end_ dat n) (fun _ s' => Hold s s') (Hold s) s
  | 0, s, _, _ => wp_throw (Hold.refl s)
  | n + 1, s, h, hpre => by
    unfold writeTree
    refine wp_bind (wp_getS ?_)
    split
    · rename_i hlt
      refine wp_bind (wp_mono (wp_and (requireTree_wp h (off := s.pos) (by omega) f s.pos dat) (requireTree_kept s)) ?_ ?_)
      · rintro j s1 ⟨⟨r1, ps1, hj, hn1⟩, k1⟩
        have d1 := k1.hold
        have hp : s1.pos < end_ → j = s1.pos / cover 2 ∧ ((s1.file f).ft2 = true ∨ 65536 ≤ s1.pos) := by
          intro _
          rw [ps1.1, r1.ft2]
          exact ⟨hj, hpre hlt⟩
        refine wp_bind (wp_mono (wp_and (writeTreeLeaves_wp (end_ + 1) s1 r1.ok (by omega) hn1 hp)
          (writeTreeLeaves_hold (end_ + 1) s1 r1.ok hn1 hp)) ?_ ?_)
        · rintro _ s2 ⟨⟨p2, hprog⟩, d2⟩
          have hle := p2.le
          refine wp_mono (writeTree_hold hmax n s2 p2.rel.ok ?_) (fun _ s' h => (d1.trans d2).trans h)
            (fun s' h => (d1.trans d2).trans h)
          intro _
          rw [p2.rel.ft2, r1.ft2]
          rw [ps1.1] at hle
          rcases hpre hlt with hh | hh
          · exact .inl hh
          · exact .inr (by omega)
        · rintro s2 ⟨_, d2⟩
          exact d1.trans d2
      · rintro s1 ⟨_, k1⟩
        exact k1.hold
    · exact wp_pure (Hold.refl s)

theorem writeData_hold {f end_ : Nat} {dat : Nat → Nat} (hmax : end_ ≤ sizeMax + 1) {s : St} (h : Ok s) :
    wp (writeData f end_ dat) (fun _ s' => Hold s s') (Hold s) s := by
  unfold writeData
  refine wp_bind (wp_mono (wp_and (writeHeads_wp (end_ + 1) s h (by omega)) (writeHeads_hold (end_ + 1) s h)) ?_
    (fun _ h => h.2))
  rintro _ s1 ⟨⟨p1, h1⟩, d1⟩
  refine wp_mono (writeTree_hold hmax (end_ + 1) s1 p1.rel.ok ?_) (fun _ s' h => d1.trans h) (fun s' h => d1.trans h)
  intro hlt; rw [p1.rel.ft2]; exact h1 hlt

theorem Hold.setMeta {s t : St} (h : Hold s t) (f sz sp : Nat) :
    Hold s (t.setFile f { t.file f with size := sz, span := sp }) := by
  refine h.trans (Keep.hold (Keep.setFile rfl))

theorem writeIter_hold {s : St} (h : Ok s) (f beg end_ : Nat) (dat : Nat → Nat) (sync : Bool)
    (hmax : end_ ≤ sizeMax + 1) :
    wp (writeIter f beg end_ dat sync) (fun _ s' => Hold s s') (Hold s) s := by
  unfold writeIter
  refine wp_bind (wp_modS (wp_andThen (wp_bind ?_)))
  refine wp_mono (writeData_hold (s := { s with pos := beg }) hmax (h.setPos beg)) ?_ ?_
  · intro _ t ht
    have : Hold s (postWrite f t) := Hold.setMeta (s := s) (t := t) ht f _ _
    split
    · exact wp_chk this this
    · exact wp_pure this
  · intro t ht
    exact Hold.setMeta (s := s) (t := t) ht f _ _

theorem OnlyPos.hold {s s' : St} (h : OnlyPos s s') : Hold s s' := by
  obtain ⟨q, rfl⟩ := h
  exact Hold.refl s

/-! ### Collecting -/

/-- Contents changed from `s` to `s'` at most in `[a,b)` of file `f`. -/
structure Unk (f a b : Nat) (s s' : St) : Prop where
  ok : Ok s'
  upd : ∀ f' p, ¬ (f' = f ∧ a ≤ p ∧ p < b) → byteAt s' f' p = byteAt s f' p
  ft2 : ∀ f', (s'.file f').ft2 = (s.file f').ft2
  size : ∀ f', (s'.file f').size = (s.file f').size
  span : ∀ f', (s'.file f').span = (s.file f').span

theorem Rel.unk {f a b : Nat} {g : Nat → Nat} {s s' : St} (h : Rel f a b g s s') : Unk f a b s s' :=
  ⟨h.ok, fun f' p hn => by rw [h.upd, if_neg hn], h.ft2, h.size, h.span⟩

theorem Unk.trans {f a b c : Nat} {s t u : St} (h1 : Unk f a b s t) (h2 : Unk f b c t u)
    (hab : a ≤ b) (hbc : b ≤ c) : Unk f a c s u := by
  refine ⟨h2.ok, fun f' p hn => ?_, fun f' => (h2.ft2 f').trans (h1.ft2 f'),
    fun f' => (h2.size f').trans (h1.size f'), fun f' => (h2.span f').trans (h1.span f')⟩
  rw [h2.upd f' p (by rintro ⟨h, h'⟩; exact hn ⟨h, by omega, by omega⟩),
    h1.upd f' p (by rintro ⟨h, h'⟩; exact hn ⟨h, by omega, by omega⟩)]

theorem Unk.setPos {f a b : Nat} {s t : St} (h : Unk f a b s t) (q : Nat) : Unk f a b s { t with pos := q } :=
  ⟨h.ok.setPos q, h.upd, h.ft2, h.size, h.span⟩

/-- Piece `p` lies in the leaf of its file position, and its block stays there. -/
structure Good (s : St) (f : Nat) (p : Piece) : Prop where
  off : p.off = p.pos % (keyOf (s.file f).ft2 p.pos).size
  fit : p.off + p.len ≤ (keyOf (s.file f).ft2 p.pos).size
  held : Held s f (keyOf (s.file f).ft2 p.pos) p.blk

theorem Good.hold {s s' : St} {f : Nat} {p : Piece} (h : Good s f p) (hd : Hold s s')
    (hft : (s'.file f).ft2 = (s.file f).ft2) : Good s' f p :=
  ⟨by rw [hft]; exact h.off, by rw [hft]; exact h.fit, by rw [hft]; exact hd _ _ _ h.held⟩

/-- The pieces follow each other and cover `[lo, hi)`; none is empty. -/
def Cover : Nat → Nat → List Piece → Prop
  | lo, hi, [] => lo = hi
  | lo, hi, x :: l => x.pos = lo ∧ 0 < x.len ∧ Cover (lo + x.len) hi l

theorem Cover.append : ∀ {ps qs : List Piece} {a b c : Nat}, Cover a b ps → Cover b c qs → Cover a c (ps ++ qs)
  | [], qs, a, b, c, h1, h2 => by cases h1; exact h2
  | x :: l, qs, a, b, c, h1, h2 => ⟨h1.1, h1.2.1, Cover.append h1.2.2 h2⟩

/-- The cursor moved from `s.pos` to `s'.pos`; the pieces cover what it passed. -/
structure Gath (f end_ : Nat) (s s' : St) : Prop where
  unk : Unk f s.pos s'.pos s s'
  le : s.pos ≤ s'.pos
  hi : s'.pos ≤ max s.pos end_
  hold : Hold s s'

/-- The pieces collected. -/
structure Pcs (f : Nat) (s s' : St) (ps : List Piece) : Prop where
  cover : Cover s.pos s'.pos ps
  good : ∀ p ∈ ps, Good s' f p

theorem Gath.refl {s : St} (f end_ : Nat) (h : Ok s) : Gath f end_ s s :=
  ⟨(Rel.refl f s.pos (fun _ => 0) h).unk, Nat.le_refl _, by omega, Hold.refl s⟩

theorem Gath.trans {f end_ : Nat} {s t u : St} (h1 : Gath f end_ s t) (h2 : Gath f end_ t u) : Gath f end_ s u :=
  ⟨h1.unk.trans h2.unk h1.le h2.le, Nat.le_trans h1.le h2.le,
    by have := h1.le; have := h2.le; have := h1.hi; have := h2.hi; omega, h1.hold.trans h2.hold⟩

theorem Pcs.nil (f : Nat) (s : St) : Pcs f s s [] := ⟨rfl, by simp⟩

theorem Pcs.append {f end_ : Nat} {s t u : St} {ps qs : List Piece} (h1 : Pcs f s t ps) (h2 : Pcs f t u qs)
    (g : Gath f end_ t u) : Pcs f s u (ps ++ qs) := by
  refine ⟨h1.cover.append h2.cover, fun p hp => ?_⟩
  rcases List.mem_append.1 hp with hp | hp
  · exact (h1.good p hp).hold g.hold (g.unk.ft2 f)
  · exact h2.good p hp

theorem Gath.same {f end_ : Nat} {g : Nat → Nat} {s t : St} (h : Rel f s.pos s.pos g s t)
    (hp : PosSame s t) (hd : Hold s t) : Gath f end_ s t :=
  ⟨by rw [hp.1]; exact h.unk, by rw [hp.1]; exact Nat.le_refl _, by rw [hp.1]; omega, hd⟩

/-- Collecting one privately owned leaf. -/
theorem gatherLeaf_wp {s : St} (h : Ok s) {f b off end_ sz : Nat} {k : Key}
    (hk : (s.file f).leaf k = some b) (hkey : keyOf (s.file f).ft2 off = k) (hsz : k.size = sz)
    (hr : (s.blk b).ref ≤ 1) (ho : off < end_) :
    wp (gatherLeaf b sz off end_)
      (fun p s' => Unk f off (off + lenOfData off end_ sz) s s' ∧ Shape s s' ∧ Hold s s' ∧ Good s' f p ∧
        p.pos = off ∧ p.len = lenOfData off end_ sz)
      (fun s' => Rel f off off (fun _ => 0) s s' ∧ Shape s s' ∧ Hold s s') s := by
  subst hsz
  obtain ⟨l1, l2, l3, l4, l5⟩ := len_facts k.size_pos ho
  have hkk : ∀ p, keyOf (s.file f).ft2 p = k → p - p % k.size = off - off % k.size := by
    intro p hp
    have := key_sub (ft2 := (s.file f).ft2) (p := off) (q := p) (by rw [hkey, hp])
    rw [hkey] at this; exact this.symm
  have hin : ∀ p, off ≤ p → p < off + lenOfData off end_ k.size → keyOf (s.file f).ft2 p = k := by
    intro p h1 h2
    rw [← hkey]
    apply key_range <;> rw [hkey] <;> omega
  have herr : Rel f off off (fun _ => 0) s s ∧ Shape s s ∧ Hold s s :=
    ⟨Rel.refl _ _ _ h, Shape.refl _, Hold.refl s⟩
  unfold gatherLeaf
  refine wp_bind (wp_preWrite (fun r1 p1 p2 => ?_) herr)
  have he1 : Rel f off off (fun _ => 0) s (s.setBlk b ⟨r1, (s.blk b).unw, (s.blk b).ref⟩) := by
    refine setBlk_rel h hk hr (by rfl) (by omega) (fun p hp => ?_)
    rw [if_neg (c := off ≤ p ∧ p < off) (by omega), byteAt_some (by rw [hp]; exact hk)]
    rw [hp]
    simp only
    by_cases hu : (s.blk b).unw = true
    · simp [hu]
    · rw [if_neg hu, if_neg hu, p2 (by simpa using hu)]
  have hd1 : Hold s (s.setBlk b ⟨r1, (s.blk b).unw, (s.blk b).ref⟩) := Hold.setBlk_soft rfl (fun h => h)
  have he : Rel f off off (fun _ => 0) s (s.setBlk b ⟨r1, (s.blk b).unw, (s.blk b).ref⟩) ∧
      Shape s (s.setBlk b ⟨r1, (s.blk b).unw, (s.blk b).ref⟩) ∧
      Hold s (s.setBlk b ⟨r1, (s.blk b).unw, (s.blk b).ref⟩) := ⟨he1, Shape.setBlk .., hd1⟩
  refine wp_bind (wp_chk (wp_bind (wp_chk ?_ he)) he)
  refine wp_bind (wp_chkLate h.late (wp_bind (wp_modS (wp_pure ?_))))
  rw [setBlk_setBlk, setBlk_same]
  simp only
  have hrel : Rel f off (off + lenOfData off end_ k.size) (fun p => r1 (p % k.size)) s
      (s.setBlk b ⟨r1, false, (s.blk b).ref⟩) := by
    refine setBlk_rel h hk hr (by rfl) hin (fun p hp => ?_)
    have hb := hkk p hp
    have hm := Nat.mod_le p k.size
    have hm' := Nat.mod_le off k.size
    have hlt := Nat.mod_lt p k.size_pos
    simp only [Bool.false_eq_true, if_false]
    by_cases hc : off ≤ p ∧ p < off + lenOfData off end_ k.size
    · rw [if_pos hc]
    · rw [if_neg hc, byteAt_some (by rw [hp]; exact hk), hp]
      by_cases hpart : isPartial off end_ k.size = true
      · exact p1 hpart _ hlt
      · have := l4 (by simpa using hpart)
        exfalso; omega
  refine ⟨hrel.unk, Shape.setBlk .., Hold.setBlk_soft rfl (fun _ => rfl), ?_, trivial, trivial⟩
  have hoid : offInData off k.size = off % k.size := rfl
  refine ⟨?_, ?_, ?_⟩
  · simp only [setBlk_file]
    rw [hkey, hoid]
  · simp only [setBlk_file]
    rw [hkey, hoid]; exact l2
  · simp only [setBlk_file]
    rw [hkey]
    exact ⟨hk, by rw [setBlk_same]; exact hr, by rw [setBlk_same]⟩

/-- One leaf and the move of the cursor behind it. -/
theorem gath_leaf {f end_ len : Nat} {g : Nat → Nat} {s t u : St} {p : Piece} (r1 : Rel f s.pos s.pos g s t)
    (d1 : Hold s t) (hu : Unk f s.pos (s.pos + len) t u) (hd : Hold t u) (hg : Good u f p)
    (hp : p.pos = s.pos) (hl : p.len = len) (h0 : 0 < len) (he : s.pos + len ≤ end_) :
    Gath f end_ s { u with pos := s.pos + len } ∧ Pcs f s { u with pos := s.pos + len } [p] := by
  refine ⟨⟨(r1.unk.trans hu (Nat.le_refl _) (by omega)).setPos _, by show s.pos ≤ s.pos + len; omega,
    by show s.pos + len ≤ _; omega, (d1.trans hd)⟩, ⟨⟨hp, by omega, by show s.pos + p.len = s.pos + len; rw [hl]⟩, ?_⟩⟩
  intro q hq
  rw [List.mem_singleton] at hq
  subst hq
  exact ⟨hg.off, hg.fit, hg.held⟩

theorem gatherHeads_wp {f end_ : Nat} : ∀ (n : Nat) (s : St), Ok s → end_ - s.pos < n →
    wp (gatherHeads f end_ n)
      (fun ps s' => Gath f end_ s s' ∧ Pcs f s s' ps ∧ (s'.pos < end_ → (s.file f).ft2 = true ∨ 65536 ≤ s'.pos))
      (fun s' => Gath f end_ s s') s
  | 0, _, _, hn => by omega
  | n + 1, s, h, hn => by
    have herr := Gath.refl f end_ h
    unfold gatherHeads
    refine wp_bind (wp_getS ?_)
    split
    · rename_i hc
      obtain ⟨hft, hlt, hhd⟩ := hc
      have hkt := keyOf_head hhd
      refine wp_bind (wp_mono (wp_and (requireLeaf_wp h (not_tree_node hkt _) f s.pos (fun _ => 0))
        (requireLeaf_hold h f _)) ?_ ?_)
      · rintro b s1 ⟨⟨r1, sh1, hl1⟩, d1⟩
        have hsole := r1.ok.head f _ b hl1 hkt
        have hkey : keyOf (s1.file f).ft2 s.pos = keyOf false s.pos := by rw [r1.ft2, hft]
        refine wp_bind (wp_mono (gatherLeaf_wp r1.ok hl1 hkey rfl hsole hlt) ?_ ?_)
        · rintro p s2 ⟨u2, sh2, d2, g2, e1, e2⟩
          have lf := len_facts (keyOf false s.pos).size_pos hlt
          obtain ⟨G, P⟩ := gath_leaf (end_ := end_) r1 d1 u2 d2 g2 e1 e2 lf.1 lf.2.2.1
          refine wp_bind (advance_to (by rw [(sh1.trans sh2).pos]; omega) (by omega) ?_)
          refine wp_bind (wp_mono (gatherHeads_wp n _ (u2.ok.setPos _) (by
            show end_ - (s.pos + _) < n; omega)) ?_ ?_)
          · rintro ps s' ⟨q1, q2, q3⟩
            refine wp_pure ⟨G.trans q1, P.append q2 q1, fun hh => ?_⟩
            rw [← G.unk.ft2]; exact q3 hh
          · intro s' q1; exact G.trans q1
        · rintro s2 ⟨r2, sh2, d2⟩
          exact Gath.same (r1.trans r2 (Nat.le_refl _) (Nat.le_refl _)) (sh1.trans sh2).posSame (d1.trans d2)
      · rintro s1 ⟨⟨r1, sh1⟩, d1⟩
        exact Gath.same r1 sh1.posSame d1
    · rename_i hc
      refine wp_pure ⟨herr, Pcs.nil f s, fun hlt => ?_⟩
      by_cases hft : (s.file f).ft2 = true
      · exact .inl hft
      · refine .inr ?_
        have : ¬ s.pos < 65536 := fun hh => hc ⟨by simpa using hft, hlt, hh⟩
        omega

theorem gatherTreeLeaves_wp {f j end_ : Nat} : ∀ (n : Nat) (s : St), Ok s →
    end_ - s.pos < n → (s.file f).node 2 j = true →
    (s.pos < end_ → j = s.pos / cover 2 ∧ ((s.file f).ft2 = true ∨ 65536 ≤ s.pos)) →
    wp (gatherTreeLeaves f j end_ n)
      (fun ps s' => Gath f end_ s s' ∧ Pcs f s s' ps ∧ (s.pos < end_ → s.pos < s'.pos))
      (fun s' => Gath f end_ s s') s
  | 0, _, _, hn, _, _ => by omega
  | n + 1, s, h, hn, hnode, hpre => by
    have herr := Gath.refl f end_ h
    unfold gatherTreeLeaves
    refine wp_bind (wp_getS ?_)
    split
    · rename_i hlt
      obtain ⟨hj, htr⟩ := hpre hlt
      rw [bottomKey_eq hj]
      have hkey0 := keyOf_tree htr
      have hnk : ∀ i, Key.tr (s.pos / 65536) = .tr i → (s.file f).node 2 (i / 1024) = true := by
        intro i e
        cases e
        rw [← cover_one, div_cover_succ (h := 1) (by omega), show 1 + 1 = 2 from rfl, ← hj]; exact hnode
      refine wp_bind (wp_mono (wp_and (requireLeaf_wp h hnk f s.pos (fun _ => 0)) (requireLeaf_hold h f _)) ?_ ?_)
      · rintro b s1 ⟨⟨r1, sh1, hl1⟩, d1⟩
        refine wp_bind (detectShared_wp ?_ (Gath.same r1 sh1.posSame d1))
        refine wp_bind (wp_mono (wp_and (unshare_wp r1.ok hl1 rfl rfl f s.pos (fun _ => 0))
          (unshare_hold r1.ok hl1 rfl)) ?_ ?_)
        · rintro b' s2 ⟨⟨r2, sh2, hl2, hr2⟩, d2⟩
          have r12 := r1.trans r2 (Nat.le_refl _) (Nat.le_refl _)
          have d12 := d1.trans d2
          have hkey : keyOf (s2.file f).ft2 s.pos = .tr (s.pos / 65536) := by rw [r12.ft2, hkey0]
          refine wp_bind (wp_mono (gatherLeaf_wp r2.ok hl2 hkey rfl hr2 hlt) ?_ ?_)
          · rintro p s3 ⟨u3, sh3, d3, g3, e1, e2⟩
            have lf := len_facts (sz := 65536) (by omega) hlt
            have sh13 := (sh1.trans sh2).trans sh3
            obtain ⟨G, P⟩ := gath_leaf (end_ := end_) r12 d12 u3 d3 g3 e1 e2 lf.1 lf.2.2.1
            refine wp_bind (advance_to (by rw [sh13.pos]; omega) (by omega) ?_)
            refine wp_bind (wp_getS ?_)
            split
            · exact wp_pure ⟨G, P, fun _ => by
                show s.pos < s.pos + lenOfData s.pos end_ 65536; omega⟩
            · rename_i hb
              refine wp_bind (wp_mono (gatherTreeLeaves_wp n _ (u3.ok.setPos _) (by
                show end_ - (s.pos + _) < n; omega) ?_ ?_) ?_ ?_)
              · show (s3.file f).node 2 j = true
                rw [sh13.node]; exact hnode
              · exact next_leaf hj htr (G.unk.ft2 f) (by omega) hb lf.2.2.2.2
              · rintro ps s' ⟨q1, q2, _⟩
                refine wp_pure ⟨G.trans q1, P.append q2 q1, fun _ => ?_⟩
                have hle : s.pos + lenOfData s.pos end_ 65536 ≤ s'.pos := q1.le
                omega
              · intro s' q1; exact G.trans q1
          · rintro s3 ⟨r3, sh3, d3⟩
            exact Gath.same (r12.trans r3 (Nat.le_refl _) (Nat.le_refl _)) ((sh1.trans sh2).trans sh3).posSame
              (d12.trans d3)
        · rintro s2 ⟨⟨r2, sh2⟩, d2⟩
          exact Gath.same (r1.trans r2 (Nat.le_refl _) (Nat.le_refl _)) (sh1.trans sh2).posSame (d1.trans d2)
      · rintro s1 ⟨⟨r1, sh1⟩, d1⟩
        exact Gath.same r1 sh1.posSame d1
    · rename_i hge
      exact wp_pure ⟨herr, Pcs.nil f s, fun hlt => absurd hlt hge⟩

theorem gatherTree_wp {f end_ : Nat} (hmax : end_ ≤ sizeMax + 1) : ∀ (n : Nat) (s : St),
    Ok s → end_ - s.pos < n → (s.pos < end_ → (s.file f).ft2 = true ∨ 65536 ≤ s.pos) →
    wp (gatherTree f end_ n)
      (fun ps s' => Gath f end_ s s' ∧ Pcs f s s' ps ∧ end_ ≤ s'.pos)
      (fun s' => Gath f end_ s s') s
  | 0, _, _, hn, _ => by omega
  | n + 1, s, h, hn, hpre => by
    have herr := Gath.refl f end_ h
    unfold gatherTree
    refine wp_bind (wp_getS ?_)
    split
    · rename_i hlt
      refine wp_bind (wp_mono (wp_and (requireTree_wp h (off := s.pos) (by omega) f s.pos (fun _ => 0))
        (requireTree_kept s)) ?_ ?_)
      · rintro j s1 ⟨⟨r1, ps1, hj, hn1⟩, k1⟩
        have p1 : Gath f end_ s s1 := Gath.same r1 ps1 k1.hold
        refine wp_bind (wp_mono (gatherTreeLeaves_wp (end_ + 1) s1 r1.ok (by omega) hn1 ?_) ?_ ?_)
        · intro _
          rw [ps1.1, r1.ft2]
          exact ⟨hj, hpre hlt⟩
        · rintro ps s2 ⟨p2, c2, hprog⟩
          have hprog' := hprog (by rw [ps1.1]; exact hlt)
          rw [ps1.1] at hprog'
          refine wp_bind (wp_mono (gatherTree_wp hmax n s2 p2.unk.ok (by omega) ?_) ?_ ?_)
          · intro _
            rw [p2.unk.ft2, r1.ft2]
            rcases hpre hlt with hh | hh
            · exact .inl hh
            · exact .inr (by omega)
          · rintro qs s' ⟨q1, q2, q3⟩
            refine wp_pure ⟨(p1.trans p2).trans q1, ?_, q3⟩
            have := c2.append q2 q1
            exact ⟨by rw [← ps1.1]; exact this.cover, this.good⟩
          · intro s' q1; exact (p1.trans p2).trans q1
        · intro s2 p2; exact p1.trans p2
      · rintro s1 ⟨⟨r1, ps1⟩, k1⟩
        exact Gath.same r1 ps1 k1.hold
    · exact wp_pure ⟨herr, Pcs.nil f s, by omega⟩

theorem gatherData_wp {f end_ : Nat} (hmax : end_ ≤ sizeMax + 1) {s : St} (h : Ok s) :
    wp (gatherData f end_)
      (fun ps s' => Gath f end_ s s' ∧ Pcs f s s' ps ∧ end_ ≤ s'.pos)
      (fun s' => Gath f end_ s s') s := by
  unfold gatherData
  refine wp_bind (wp_mono (gatherHeads_wp (end_ + 1) s h (by omega)) ?_ (fun _ h => h))
  rintro ps s1 ⟨p1, c1, h1⟩
  refine wp_bind (wp_mono (gatherTree_wp hmax (end_ + 1) s1 p1.unk.ok (by omega) ?_) ?_ ?_)
  · intro hlt; rw [p1.unk.ft2]; exact h1 hlt
  · rintro qs s' ⟨q1, q2, q3⟩
    exact wp_pure ⟨p1.trans q1, c1.append q2 q1, q3⟩
  · intro s' q1; exact p1.trans q1

/-- The first phase of a large write. -/
theorem gatherIter_wp {s : St} (h : Ok s) (f beg end_ : Nat) (sync : Bool)
    (hbe : beg ≤ end_) (hmax : end_ ≤ sizeMax + 1) :
    wp (gatherIter f beg end_ sync)
      (fun ps s' => ∃ t, Unk f beg end_ s t ∧ Hold s t ∧ Cover beg end_ ps ∧ (∀ p ∈ ps, Good s' f p) ∧
        s' = t.setFile f { t.file f with size := max end_ (s.file f).size, span := max end_ (s.file f).span })
      (fun s' => ∃ q t, beg ≤ q ∧ q ≤ end_ ∧ Unk f beg q s t ∧ Hold s t ∧
        s' = t.setFile f { t.file f with size := max q (s.file f).size, span := max q (s.file f).span }) s := by
  have hx : ∀ t, Gath f end_ { s with pos := beg } t → beg ≤ t.pos ∧ t.pos ≤ end_ ∧ Unk f beg t.pos s t ∧
      Hold s t ∧ postWrite f t = t.setFile f { t.file f with
        size := max t.pos (s.file f).size, span := max t.pos (s.file f).span } := by
    intro t hp
    have hle : beg ≤ t.pos := hp.le
    have hhi : t.pos ≤ max beg end_ := hp.hi
    have hr : Unk f beg t.pos s t :=
      ⟨hp.unk.ok, hp.unk.upd, hp.unk.ft2, hp.unk.size, hp.unk.span⟩
    refine ⟨hle, by omega, hr, hp.hold, ?_⟩
    unfold postWrite
    rw [hr.size f, hr.span f]
  unfold gatherIter
  refine wp_bind (wp_modS (wp_andThen (wp_bind ?_)))
  refine wp_mono (gatherData_wp (s := { s with pos := beg }) hmax (h.setPos beg)) ?_ ?_
  · rintro ps t ⟨hp, hc, hge⟩
    obtain ⟨q1, q2, q3, q5, q4⟩ := hx t hp
    have hend : t.pos = end_ := by omega
    have hcov : Cover beg end_ ps := by have := hc.cover; rw [hend] at this; exact this
    have hgood : ∀ p ∈ ps, Good (postWrite f t) f p := by
      intro p hpm
      refine (hc.good p hpm).hold (Hold.setMeta (Hold.refl t) f _ _) ?_
      unfold postWrite
      rw [setFile_same]
    have hok : ∃ t', Unk f beg end_ s t' ∧ Hold s t' ∧ Cover beg end_ ps ∧
        (∀ p ∈ ps, Good (postWrite f t) f p) ∧ postWrite f t = t'.setFile f { t'.file f with
        size := max end_ (s.file f).size, span := max end_ (s.file f).span } :=
      ⟨t, hend ▸ q3, q5, hcov, hgood, by rw [q4, hend]⟩
    have herr : ∃ q t', beg ≤ q ∧ q ≤ end_ ∧ Unk f beg q s t' ∧ Hold s t' ∧
        postWrite f t = t'.setFile f { t'.file f with
          size := max q (s.file f).size, span := max q (s.file f).span } :=
      ⟨t.pos, t, q1, q2, q3, q5, q4⟩
    simp only
    split
    · exact wp_bind (wp_chk (wp_pure hok) herr)
    · exact wp_pure hok
  · intro t hp
    obtain ⟨q1, q2, q3, q5, q4⟩ := hx t hp
    exact ⟨t.pos, t, q1, q2, q3, q5, q4⟩

/-! ### Copying -/

/-- The data of one piece arrive: exactly its bytes change. -/
theorem copyPiece_rel {s : St} (h : Ok s) {f : Nat} {p : Piece} (hg : Good s f p) (dat : Nat → Nat) (m : Nat) :
    Rel f p.pos (p.pos + min m p.len) dat s (copyPiece p dat m s) ∧ Hold s (copyPiece p dat m s) := by
  obtain ⟨ho, hfit, hk, hr, hu⟩ := hg
  have hs := (keyOf (s.file f).ft2 p.pos).size_pos
  generalize hkey : keyOf (s.file f).ft2 p.pos = k at *
  have hmle := Nat.mod_le p.pos k.size
  have hin : ∀ q, p.pos ≤ q → q < p.pos + min m p.len → keyOf (s.file f).ft2 q = k := by
    intro q h1 h2
    rw [← hkey]
    apply key_range <;> rw [hkey] <;> omega
  refine ⟨setBlk_rel h hk hr (by rfl) hin (fun q hq => ?_), Hold.setBlk_soft rfl (fun h => h)⟩
  have hb := key_sub (ft2 := (s.file f).ft2) (p := p.pos) (q := q) (by rw [hkey, hq])
  rw [hkey] at hb
  have hm := Nat.mod_le q k.size
  have hlt := Nat.mod_lt q hs
  simp only [hu, Bool.false_eq_true, if_false]
  by_cases hc : p.pos ≤ q ∧ q < p.pos + min m p.len
  · rw [if_pos hc, if_pos (by omega)]
    congr 1; omega
  · rw [if_neg hc, if_neg (by omega), byteAt_some (by rw [hq]; exact hk), hq, hu]
    simp

end Silofs.File
