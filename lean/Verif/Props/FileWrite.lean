/-
The loops of write, read and reserve: each moves the cursor forward and changes
exactly the bytes it passed.
-/
import Verif.Props.FileTree

set_option linter.unusedSimpArgs false
set_option linter.unusedVariables false

namespace Silofs.File

theorem Ok.setPos {s : St} (h : Ok s) (q : Nat) : Ok { s with pos := q } :=
  ⟨h.late, h.wf, h.own, h.shw, h.head, h.cnt⟩

theorem Rel.setPos {f a b : Nat} {g : Nat → Nat} {s t : St} (h : Rel f a b g s t) (q : Nat) :
    Rel f a b g s { t with pos := q } :=
  ⟨h.ok.setPos q, h.upd, h.ft2, h.size, h.span⟩

theorem Rel.ofPos {f a b : Nat} {g : Nat → Nat} {s t : St} {q : Nat}
    (h : Rel f a b g { s with pos := q } t) : Rel f a b g s t :=
  ⟨h.ok, h.upd, h.ft2, h.size, h.span⟩

/-- The cursor moved from `s.pos` to `s'.pos`, the bytes passed are now `g`. -/
structure Prog (f end_ : Nat) (g : Nat → Nat) (s s' : St) : Prop where
  rel : Rel f s.pos s'.pos g s s'
  le : s.pos ≤ s'.pos
  hi : s'.pos ≤ max s.pos end_
  pos2 : s'.pos2 = s.pos2

theorem Prog.refl {s : St} (f end_ : Nat) (g : Nat → Nat) (h : Ok s) : Prog f end_ g s s :=
  ⟨Rel.refl _ _ _ h, Nat.le_refl _, by omega, rfl⟩

theorem Prog.trans {f end_ : Nat} {g : Nat → Nat} {s t u : St} (h1 : Prog f end_ g s t)
    (h2 : Prog f end_ g t u) : Prog f end_ g s u :=
  ⟨h1.rel.trans h2.rel h1.le h2.le, Nat.le_trans h1.le h2.le,
    by have := h1.le; have := h2.le; have := h1.hi; have := h2.hi; omega, h2.pos2.trans h1.pos2⟩

/-- A step that changes no content and no cursor. -/
theorem Prog.same {f end_ : Nat} {g : Nat → Nat} {s t : St} (h : Rel f s.pos s.pos g s t)
    (hp : PosSame s t) : Prog f end_ g s t :=
  ⟨by rw [hp.1]; exact h, by rw [hp.1]; exact Nat.le_refl _, by rw [hp.1]; omega, hp.2⟩

theorem keyOf_tree {ft2 : Bool} {p : Nat} (h : ft2 = true ∨ 65536 ≤ p) :
    keyOf ft2 p = .tr (p / 65536) := by
  rcases keyOf_cases ft2 p with ⟨hf, h1, _⟩ | ⟨hf, _, h1, _⟩ | ⟨_, hk⟩
  · rcases h with h | h
    · rw [hf] at h; cases h
    · omega
  · rcases h with h | h
    · rw [hf] at h; cases h
    · omega
  · exact hk

theorem keyOf_head {p : Nat} (h : p < 65536) : (keyOf false p).isTree = false := by
  rcases keyOf_cases false p with ⟨hf, h1, hk⟩ | ⟨hf, _, h1, hk⟩ | ⟨hf, hk⟩
  · rw [hk]; rfl
  · rw [hk]; rfl
  · rcases hf with hf | hf
    · cases hf
    · omega

theorem not_tree_node {k : Key} (h : k.isTree = false) (x : File) :
    ∀ i, k = .tr i → x.node 2 (i / 1024) = true := by
  intro i e
  subst e
  cases h

/-- A leaf-level step followed by the move of the cursor over the bytes written. -/
theorem advance_wp {f end_ to : Nat} {g : Nat → Nat} {s t : St} (h : Rel f s.pos to g s t)
    (hp : PosSame s t) (h1 : s.pos ≤ to) (h2 : to ≤ end_) {Q : Unit → St → Prop} {E : St → Prop}
    (hq : ∀ u, Prog f end_ g s u → u.pos = to → u.file = t.file → Q () u) :
    wp (advance end_ to) Q E t := by
  refine wp_modS ?_
  have hadv : advTo t.pos end_ to = to := by unfold advTo; have := hp.1; omega
  rw [hadv]
  exact hq _ ⟨h.setPos _, h1, by show to ≤ _; omega, hp.2⟩ rfl rfl

/-! ### Write -/

theorem writeHeads_wp {f end_ : Nat} {dat : Nat → Nat} : ∀ (n : Nat) (s : St), Ok s → end_ - s.pos < n →
    wp (writeHeads f end_ dat n)
      (fun _ s' => Prog f end_ dat s s' ∧ (s'.pos < end_ → (s.file f).ft2 = true ∨ 65536 ≤ s'.pos))
      (fun s' => Prog f end_ dat s s') s
  | 0, _, _, hn => by omega
  | n + 1, s, h, hn => by
    have herr := Prog.refl f end_ dat h
    unfold writeHeads
    refine wp_bind (wp_getS ?_)
    split
    · rename_i hc
      obtain ⟨hft, hlt, hhd⟩ := hc
      have hkt := keyOf_head hhd
      refine wp_bind (wp_mono (requireLeaf_wp h (not_tree_node hkt _) f s.pos dat) ?_ ?_)
      · rintro b s1 ⟨r1, sh1, hl1⟩
        have hsole := r1.ok.head f _ b hl1 hkt
        have hkey : keyOf (s1.file f).ft2 s.pos = keyOf false s.pos := by rw [r1.ft2, hft]
        refine wp_bind (wp_mono (writeLeaf_wp r1.ok hl1 hkey rfl hsole hlt) ?_ ?_)
        · rintro _ s2 ⟨r2, sh2⟩
          have lf := len_facts (keyOf false s.pos).size_pos hlt
          have r12 := r1.trans r2 (Nat.le_refl _) (by omega)
          refine wp_bind (advance_wp r12 (sh1.trans sh2).posSame (by omega) (by omega) ?_)
          intro u pu hu _
          refine wp_mono (writeHeads_wp n u pu.rel.ok (by omega)) ?_ ?_
          · rintro _ s' ⟨q1, q2⟩
            exact ⟨pu.trans q1, fun hh => by rw [← pu.rel.ft2]; exact q2 hh⟩
          · intro s' q1; exact pu.trans q1
        · rintro s2 ⟨r2, sh2⟩
          exact Prog.same (r1.trans r2 (Nat.le_refl _) (Nat.le_refl _)) (sh1.trans sh2).posSame
      · rintro s1 ⟨r1, sh1⟩
        exact Prog.same r1 sh1.posSame
    · rename_i hc
      refine wp_pure ⟨herr, fun hlt => ?_⟩
      by_cases hft : (s.file f).ft2 = true
      · exact .inl hft
      · refine .inr ?_
        have : ¬ s.pos < 65536 := fun hh => hc ⟨by simpa using hft, hlt, hh⟩
        omega

theorem writeTreeLeaves_wp {f j end_ : Nat} {dat : Nat → Nat} : ∀ (n : Nat) (s : St), Ok s →
    end_ - s.pos < n → (s.file f).node 2 j = true →
    (s.pos < end_ → j = s.pos / cover 2 ∧ ((s.file f).ft2 = true ∨ 65536 ≤ s.pos)) →
    wp (writeTreeLeaves f j end_ dat n)
      (fun _ s' => Prog f end_ dat s s' ∧ (s.pos < end_ → s.pos < s'.pos))
      (fun s' => Prog f end_ dat s s') s
  | 0, _, _, hn, _, _ => by omega
  | n + 1, s, h, hn, hnode, hpre => by
    have herr := Prog.refl f end_ dat h
    unfold writeTreeLeaves
    refine wp_bind (wp_getS ?_)
    split
    · rename_i hlt
      obtain ⟨hj, htr⟩ := hpre hlt
      rw [bottomKey_eq hj]
      have hkey0 := keyOf_tree htr
      have hnk : ∀ i, Key.tr (s.pos / 65536) = .tr i → (s.file f).node 2 (i / 1024) = true := by
        intro i e
        cases e
        rw [← cover_one, div_cover_succ (h := 1) (by omega), show 1 + 1 = 2 from rfl, ← hj]; exact hnode
      refine wp_bind (wp_mono (requireLeaf_wp h hnk f s.pos dat) ?_ ?_)
      · rintro b s1 ⟨r1, sh1, hl1⟩
        refine wp_bind (detectShared_wp ?_ (Prog.same r1 sh1.posSame))
        refine wp_bind (wp_mono (unshare_wp r1.ok hl1 rfl rfl f s.pos dat) ?_ ?_)
        · rintro b' s2 ⟨r2, sh2, hl2, hr2⟩
          have r12 := r1.trans r2 (Nat.le_refl _) (Nat.le_refl _)
          have hkey : keyOf (s2.file f).ft2 s.pos = .tr (s.pos / 65536) := by rw [r12.ft2, hkey0]
          refine wp_bind (wp_mono (writeLeaf_wp r2.ok hl2 hkey rfl hr2 hlt) ?_ ?_)
          · rintro _ s3 ⟨r3, sh3⟩
            have lf := len_facts (sz := 65536) (by omega) hlt
            have r13 := r12.trans r3 (Nat.le_refl _) (by omega)
            have sh13 := (sh1.trans sh2).trans sh3
            refine wp_bind (advance_wp r13 sh13.posSame (by omega) (by omega) ?_)
            intro u pu hu huf
            refine wp_bind (wp_getS ?_)
            split
            · exact wp_pure ⟨pu, fun _ => by omega⟩
            · rename_i hb
              refine wp_mono (writeTreeLeaves_wp n u pu.rel.ok (by omega) ?_ ?_) ?_ ?_
              · rw [huf, sh13.node]; exact hnode
              · intro hlt'
                unfold isMapBoundary at hb
                rw [pu.rel.ft2]
                rw [cover_two] at hj ⊢
                have hb' : ¬ u.pos % 67108864 = 0 := by simpa using hb
                refine ⟨by omega, ?_⟩
                rcases htr with htr | htr
                · exact .inl htr
                · exact .inr (by omega)
              · rintro _ s' ⟨q1, _⟩
                exact ⟨pu.trans q1, fun _ => by have := q1.le; omega⟩
              · intro s' q1; exact pu.trans q1
          · rintro s3 ⟨r3, sh3⟩
            exact Prog.same (r12.trans r3 (Nat.le_refl _) (Nat.le_refl _)) ((sh1.trans sh2).trans sh3).posSame
        · rintro s2 ⟨r2, sh2⟩
          exact Prog.same (r1.trans r2 (Nat.le_refl _) (Nat.le_refl _)) (sh1.trans sh2).posSame
      · rintro s1 ⟨r1, sh1⟩
        exact Prog.same r1 sh1.posSame
    · rename_i hge
      exact wp_pure ⟨herr, fun hlt => absurd hlt hge⟩

theorem writeTree_wp {f end_ : Nat} {dat : Nat → Nat} (hmax : end_ ≤ sizeMax + 1) : ∀ (n : Nat) (s : St),
    Ok s → end_ - s.pos < n → (s.pos < end_ → (s.file f).ft2 = true ∨ 65536 ≤ s.pos) →
    wp (writeTree f end_ dat n)
      (fun _ s' => Prog f end_ dat s s' ∧ end_ ≤ s'.pos)
      (fun s' => Prog f end_ dat s s') s
  | 0, _, _, hn, _ => by omega
  | n + 1, s, h, hn, hpre => by
    have herr := Prog.refl f end_ dat h
    unfold writeTree
    refine wp_bind (wp_getS ?_)
    split
    · rename_i hlt
      refine wp_bind (wp_mono (requireTree_wp h (off := s.pos) (by omega) f s.pos dat) ?_ ?_)
      · rintro j s1 ⟨r1, ps1, hj, hn1⟩
        have p1 : Prog f end_ dat s s1 := Prog.same r1 ps1
        refine wp_bind (wp_mono (writeTreeLeaves_wp (end_ + 1) s1 r1.ok (by omega) hn1 ?_) ?_ ?_)
        · intro _
          rw [ps1.1, r1.ft2]
          exact ⟨hj, hpre hlt⟩
        · rintro _ s2 ⟨p2, hprog⟩
          have hprog' := hprog (by rw [ps1.1]; exact hlt)
          rw [ps1.1] at hprog'
          refine wp_mono (writeTree_wp hmax n s2 p2.rel.ok (by omega) ?_) ?_ ?_
          · intro _
            rw [p2.rel.ft2, r1.ft2]
            rcases hpre hlt with hh | hh
            · exact .inl hh
            · exact .inr (by omega)
          · rintro _ s' ⟨q1, q2⟩
            exact ⟨(p1.trans p2).trans q1, q2⟩
          · intro s' q1; exact (p1.trans p2).trans q1
        · intro s2 p2; exact p1.trans p2
      · rintro s1 ⟨r1, ps1⟩
        exact Prog.same r1 ps1
    · exact wp_pure ⟨herr, by omega⟩

theorem writeData_wp {f end_ : Nat} {dat : Nat → Nat} (hmax : end_ ≤ sizeMax + 1) {s : St} (h : Ok s) :
    wp (writeData f end_ dat)
      (fun _ s' => Prog f end_ dat s s' ∧ end_ ≤ s'.pos)
      (fun s' => Prog f end_ dat s s') s := by
  unfold writeData
  refine wp_bind (wp_mono (writeHeads_wp (end_ + 1) s h (by omega)) ?_ (fun _ h => h))
  rintro _ s1 ⟨p1, h1⟩
  refine wp_mono (writeTree_wp hmax (end_ + 1) s1 p1.rel.ok (by omega) ?_) ?_ ?_
  · intro hlt; rw [p1.rel.ft2]; exact h1 hlt
  · rintro _ s' ⟨q1, q2⟩; exact ⟨p1.trans q1, q2⟩
  · intro s' q1; exact p1.trans q1

/-! ### Reserve -/

theorem reserveHeads_wp {f end_ : Nat} : ∀ (n : Nat) (s : St), Ok s → end_ - s.pos < n →
    wp (reserveHeads f end_ n)
      (fun _ s' => Rel f 0 0 (fun _ => 0) s s' ∧ s.pos ≤ s'.pos ∧
        (s'.pos < end_ → (s.file f).ft2 = true ∨ 65536 ≤ s'.pos))
      (fun s' => Rel f 0 0 (fun _ => 0) s s') s
  | 0, _, _, hn => by omega
  | n + 1, s, h, hn => by
    have herr := Rel.refl f 0 (fun _ => 0) h
    unfold reserveHeads
    refine wp_bind (wp_getS ?_)
    split
    · rename_i hc
      obtain ⟨hft, hlt, hhd⟩ := hc
      have hkt := keyOf_head hhd
      refine wp_bind (wp_mono (requireLeaf_wp h (not_tree_node hkt _) f 0 (fun _ => 0)) ?_ ?_)
      · rintro b s1 ⟨r1, sh1, hl1⟩
        refine wp_bind (wp_modS ?_)
        have hl := lenToNext_eq (off := s.pos) (keyOf false s.pos).size_pos
        have hm := Nat.mod_lt s.pos (keyOf false s.pos).size_pos
        generalize hq : advTo s1.pos end_ (s.pos + lenToNext s.pos (keyOf false s.pos).size) = q
        rw [sh1.pos] at hq
        unfold advTo at hq
        refine wp_mono (reserveHeads_wp n { s1 with pos := q } (r1.setPos q).ok (by show end_ - q < n; omega)) ?_ ?_
        · rintro _ s' ⟨q1, q2, q3⟩
          have q2' : q ≤ s'.pos := q2
          refine ⟨r1.trans q1.ofPos (Nat.le_refl _) (Nat.le_refl _), by omega, fun hh => ?_⟩
          have := q3 hh
          rw [← r1.ft2]; exact this
        · intro s' q1; exact r1.trans q1.ofPos (Nat.le_refl _) (Nat.le_refl _)
      · rintro s1 ⟨r1, sh1⟩; exact r1
    · rename_i hc
      refine wp_pure ⟨herr, Nat.le_refl _, fun hlt => ?_⟩
      by_cases hft : (s.file f).ft2 = true
      · exact .inl hft
      · refine .inr ?_
        have : ¬ s.pos < 65536 := fun hh => hc ⟨by simpa using hft, hlt, hh⟩
        omega

theorem reserveTreeLeaves_wp {f j end_ : Nat} : ∀ (n : Nat) (s : St), Ok s →
    end_ - s.pos < n → (s.file f).node 2 j = true →
    (s.pos < end_ → j = s.pos / cover 2 ∧ ((s.file f).ft2 = true ∨ 65536 ≤ s.pos)) →
    wp (reserveTreeLeaves f j end_ n)
      (fun _ s' => Rel f 0 0 (fun _ => 0) s s' ∧ s.pos ≤ s'.pos ∧ (s.pos < end_ → s.pos < s'.pos))
      (fun s' => Rel f 0 0 (fun _ => 0) s s') s
  | 0, _, _, hn, _, _ => by omega
  | n + 1, s, h, hn, hnode, hpre => by
    have herr := Rel.refl f 0 (fun _ => 0) h
    unfold reserveTreeLeaves
    refine wp_bind (wp_getS ?_)
    split
    · rename_i hlt
      obtain ⟨hj, htr⟩ := hpre hlt
      rw [bottomKey_eq hj]
      have hkey0 := keyOf_tree htr
      have hnk : ∀ i, Key.tr (s.pos / 65536) = .tr i → (s.file f).node 2 (i / 1024) = true := by
        intro i e
        cases e
        rw [← cover_one, div_cover_succ (h := 1) (by omega), show 1 + 1 = 2 from rfl, ← hj]; exact hnode
      refine wp_bind (wp_mono (requireLeaf_wp h hnk f 0 (fun _ => 0)) ?_ ?_)
      · rintro b s1 ⟨r1, sh1, hl1⟩
        refine wp_bind (wp_modS (wp_bind (wp_getS ?_)))
        have hd : distToNext (s.file f).ft2 s.pos = 65536 - s.pos % 65536 := by
          unfold distToNext
          rw [hkey0]
          exact lenToNext_eq (Key.tr _).size_pos
        rw [hd]
        generalize hq : advTo s1.pos end_ (s.pos + (65536 - s.pos % 65536)) = q
        rw [sh1.pos] at hq
        unfold advTo at hq
        simp only
        split
        · exact wp_pure ⟨r1.setPos q, by show s.pos ≤ q; omega, fun _ => by show s.pos < q; omega⟩
        · rename_i hb
          refine wp_mono (reserveTreeLeaves_wp n { s1 with pos := q } (r1.setPos q).ok
            (by show end_ - q < n; omega) ?_ ?_) ?_ ?_
          · show (s1.file f).node 2 j = true
            rw [sh1.node]; exact hnode
          · intro hlt'
            show j = q / cover 2 ∧ ((s1.file f).ft2 = true ∨ 65536 ≤ q)
            have hlt'' : q < end_ := hlt'
            unfold isMapBoundary at hb
            rw [r1.ft2]
            rw [cover_two] at hj ⊢
            have hb' : ¬ q % 67108864 = 0 := by simpa using hb
            refine ⟨by omega, ?_⟩
            rcases htr with htr | htr
            · exact .inl htr
            · exact .inr (by omega)
          · rintro _ s' ⟨q1, q2, _⟩
            have q2' : q ≤ s'.pos := q2
            exact ⟨r1.trans q1.ofPos (Nat.le_refl _) (Nat.le_refl _), by omega, fun _ => by omega⟩
          · intro s' q1; exact r1.trans q1.ofPos (Nat.le_refl _) (Nat.le_refl _)
      · rintro s1 ⟨r1, sh1⟩; exact r1
    · rename_i hge
      exact wp_pure ⟨herr, Nat.le_refl _, fun hlt => absurd hlt hge⟩

theorem reserveTree_wp {f end_ : Nat} (hmax : end_ ≤ sizeMax + 1) : ∀ (n : Nat) (s : St),
    Ok s → end_ - s.pos < n → (s.pos < end_ → (s.file f).ft2 = true ∨ 65536 ≤ s.pos) →
    wp (reserveTree f end_ n)
      (fun _ s' => Rel f 0 0 (fun _ => 0) s s')
      (fun s' => Rel f 0 0 (fun _ => 0) s s') s
  | 0, _, _, hn, _ => by omega
  | n + 1, s, h, hn, hpre => by
    have herr := Rel.refl f 0 (fun _ => 0) h
    unfold reserveTree
    refine wp_bind (wp_getS ?_)
    split
    · rename_i hlt
      refine wp_bind (wp_mono (requireTree_wp h (off := s.pos) (by omega) f 0 (fun _ => 0)) ?_ ?_)
      · rintro j s1 ⟨r1, ps1, hj, hn1⟩
        refine wp_bind (wp_mono (reserveTreeLeaves_wp (end_ + 1) s1 r1.ok (by omega) hn1 ?_) ?_ ?_)
        · intro _
          rw [ps1.1, r1.ft2]
          exact ⟨hj, hpre hlt⟩
        · rintro _ s2 ⟨r2, _, hprog⟩
          have hprog' := hprog (by rw [ps1.1]; exact hlt)
          rw [ps1.1] at hprog'
          have r12 := r1.trans r2 (Nat.le_refl _) (Nat.le_refl _)
          refine wp_mono (reserveTree_wp hmax n s2 r2.ok (by omega) ?_) ?_ ?_
          · intro _
            rw [r12.ft2]
            rcases hpre hlt with hh | hh
            · exact .inl hh
            · exact .inr (by omega)
          · intro _ s' q1; exact r12.trans q1 (Nat.le_refl _) (Nat.le_refl _)
          · intro s' q1; exact r12.trans q1 (Nat.le_refl _) (Nat.le_refl _)
        · intro s2 r2; exact r1.trans r2 (Nat.le_refl _) (Nat.le_refl _)
      · rintro s1 ⟨r1, ps1⟩; exact r1
    · exact wp_pure herr

/-! ### Read -/

/-- Bytes `[a, b)` of file `f`. -/
def bytesOf (s : St) (f a b : Nat) : List Nat := (List.range (b - a)).map fun i => byteAt s f (a + i)

theorem bytesOf_append {s : St} {f a b c : Nat} (h1 : a ≤ b) (h2 : b ≤ c) :
    bytesOf s f a b ++ bytesOf s f b c = bytesOf s f a c := by
  unfold bytesOf
  apply List.ext_getElem
  · simp; omega
  · intro i hi1 hi2
    rw [List.getElem_append]
    simp only [List.length_map, List.length_range, List.getElem_map, List.getElem_range]
    split
    · rfl
    · congr 1; omega

theorem bytesOf_nil {s : St} {f a b : Nat} (h : b ≤ a) : bytesOf s f a b = [] := by
  unfold bytesOf
  rw [show b - a = 0 by omega]; rfl

/-- Nothing but the cursor changed. -/
def OnlyPos (s s' : St) : Prop := ∃ q, s' = { s with pos := q }

theorem OnlyPos.byteAt {s s' : St} (h : OnlyPos s s') (f p : Nat) : byteAt s' f p = byteAt s f p := by
  obtain ⟨q, rfl⟩ := h; rfl

theorem OnlyPos.ok {s s' : St} (h : OnlyPos s s') (ho : Ok s) : Ok s' := by
  obtain ⟨q, rfl⟩ := h; exact ho.setPos q

theorem OnlyPos.file {s s' : St} (h : OnlyPos s s') : s'.file = s.file := by
  obtain ⟨q, rfl⟩ := h; rfl

theorem OnlyPos.refl (s : St) : OnlyPos s s := ⟨s.pos, rfl⟩

theorem OnlyPos.trans {s t u : St} (h1 : OnlyPos s t) (h2 : OnlyPos t u) : OnlyPos s u := by
  obtain ⟨q, rfl⟩ := h1; obtain ⟨q', rfl⟩ := h2; exact ⟨q', rfl⟩

theorem bytesOf_onlyPos {s s' : St} (h : OnlyPos s s') (f a b : Nat) :
    bytesOf s' f a b = bytesOf s f a b := by
  unfold bytesOf
  congr 1
  funext i
  exact h.byteAt f _

theorem readLeaf_wp {s : St} {f off end_ sz : Nat} {ob : Option Nat} {k : Key}
    (hkey : keyOf (s.file f).ft2 off = k) (hsz : k.size = sz) (hl : (s.file f).leaf k = ob)
    (ho : off < end_) :
    wp (readLeaf f ob sz off end_)
      (fun d s' => s' = s ∧ d = bytesOf s f off (off + lenOfData off end_ sz)) (fun s' => s' = s) s := by
  subst hsz
  obtain ⟨l1, l2, l3, l4, l5⟩ := len_facts k.size_pos ho
  have hin : ∀ p, off ≤ p → p < off + lenOfData off end_ k.size → keyOf (s.file f).ft2 p = k := by
    intro p h1 h2
    rw [← hkey]
    apply key_range <;> rw [hkey] <;> omega
  have hzero : (∀ p, off ≤ p → p < off + lenOfData off end_ k.size → byteAt s f p = 0) →
      List.replicate (lenOfData off end_ k.size) 0 = bytesOf s f off (off + lenOfData off end_ k.size) := by
    intro hz
    unfold bytesOf
    rw [Nat.add_sub_cancel_left]
    apply List.ext_getElem
    · simp
    · intro i h1 h2
      simp only [List.length_replicate] at h1
      simp only [List.getElem_replicate, List.getElem_map, List.getElem_range]
      exact (hz _ (by omega) (by omega)).symm
  unfold readLeaf
  simp only
  rcases ob with _ | b
  · refine wp_bind (wp_chk (wp_pure ⟨rfl, hzero (fun p h1 h2 => ?_)⟩) rfl)
    exact byteAt_none (by rw [hin p h1 h2]; exact hl)
  · refine wp_bind (wp_chk (wp_bind (wp_getS ?_)) rfl)
    split
    · rename_i hu
      refine wp_bind (wp_chk (wp_pure ⟨rfl, hzero (fun p h1 h2 => ?_)⟩) rfl)
      rw [byteAt_some (by rw [hin p h1 h2]; exact hl), if_pos hu]
    · rename_i hu
      refine wp_bind (wp_chk (wp_bind (wp_chk (wp_pure ⟨rfl, ?_⟩) rfl)) rfl)
      unfold bytesOf
      rw [Nat.add_sub_cancel_left]
      apply List.map_congr_left
      intro i hi
      have hi' := List.mem_range.1 hi
      have hki := hin (off + i) (by omega) (by omega)
      rw [byteAt_some (by rw [hki]; exact hl), if_neg hu, hki]
      congr 1
      unfold offInData
      have h1 := key_sub (ft2 := (s.file f).ft2) (p := off) (q := off + i) (by rw [hkey, hki])
      rw [hkey] at h1
      have := Nat.mod_le off k.size
      have := Nat.mod_le (off + i) k.size
      omega

theorem bytesOf_len {s : St} {f a b : Nat} : (bytesOf s f a b).length = b - a := by
  unfold bytesOf; simp

/-- Outcome of a read loop from `s`: the bytes between the two cursor positions. -/
structure ReadPost (s : St) (f end_ : Nat) (d : List Nat) (s' : St) : Prop where
  only : OnlyPos s s'
  le : s.pos ≤ s'.pos
  hi : s'.pos ≤ max s.pos end_
  dat : d = bytesOf s f s.pos s'.pos

theorem ReadPost.nil (s : St) (f end_ : Nat) : ReadPost s f end_ [] s :=
  ⟨OnlyPos.refl _, Nat.le_refl _, by omega, (bytesOf_nil (Nat.le_refl _)).symm⟩

theorem ReadPost.append {s t u : St} {f end_ : Nat} {d d' : List Nat} (h1 : ReadPost s f end_ d t)
    (h2 : ReadPost t f end_ d' u) : ReadPost s f end_ (d ++ d') u := by
  refine ⟨h1.only.trans h2.only, Nat.le_trans h1.le h2.le, ?_, ?_⟩
  · have := h1.le; have := h1.hi; have := h2.hi; omega
  · rw [h1.dat, h2.dat, bytesOf_onlyPos h1.only, bytesOf_append h1.le h2.le]

theorem readStep {s : St} {f off end_ sz : Nat} (ho : off < end_) (hs : 0 < sz) (hp : off = s.pos) :
    ReadPost s f end_ (bytesOf s f off (off + lenOfData off end_ sz))
      { s with pos := advTo s.pos end_ (off + (bytesOf s f off (off + lenOfData off end_ sz)).length) } ∧
    advTo s.pos end_ (off + (bytesOf s f off (off + lenOfData off end_ sz)).length)
      = off + lenOfData off end_ sz := by
  obtain ⟨l1, l2, l3, l4, l5⟩ := len_facts hs ho
  have e : advTo s.pos end_ (off + (bytesOf s f off (off + lenOfData off end_ sz)).length)
      = off + lenOfData off end_ sz := by
    rw [bytesOf_len]; unfold advTo; omega
  refine ⟨?_, e⟩
  rw [e]
  exact ⟨⟨_, rfl⟩, by show s.pos ≤ off + lenOfData off end_ sz; omega,
    by show off + lenOfData off end_ sz ≤ _; omega, by rw [hp]⟩

theorem readHeads_wp {f end_ : Nat} : ∀ (n : Nat) (s : St), end_ - s.pos < n →
    wp (readHeads f end_ n)
      (fun d s' => ReadPost s f end_ d s' ∧ (s'.pos < end_ → (s.file f).ft2 = true ∨ 65536 ≤ s'.pos))
      (OnlyPos s) s
  | 0, _, hn => by omega
  | n + 1, s, hn => by
    unfold readHeads
    refine wp_bind (wp_getS ?_)
    split
    · rename_i hc
      obtain ⟨hft, hlt, hhd⟩ := hc
      refine wp_bind (wp_mono (readLeaf_wp (k := keyOf false s.pos) (by rw [hft]) rfl rfl hlt) ?_
        (fun _ e => e ▸ OnlyPos.refl _))
      rintro d s1 ⟨e, hd⟩
      subst e
      subst hd
      obtain ⟨st1, st2⟩ := readStep (f := f) (s := s1) hlt (keyOf false s1.pos).size_pos rfl
      have lf := len_facts (keyOf false s1.pos).size_pos hlt
      refine wp_bind (wp_modS ?_)
      refine wp_bind (wp_mono (readHeads_wp n _ (by show end_ - advTo _ _ _ < n; rw [st2]; omega)) ?_ ?_)
      · rintro d' s' ⟨q1, q2⟩
        exact wp_pure ⟨st1.append q1, q2⟩
      · intro s' q1; exact st1.only.trans q1
    · rename_i hc
      refine wp_pure ⟨ReadPost.nil _ _ _, fun hlt => ?_⟩
      by_cases hft : (s.file f).ft2 = true
      · exact .inl hft
      · refine .inr ?_
        have : ¬ s.pos < 65536 := fun hh => hc ⟨by simpa using hft, hlt, hh⟩
        omega

/-- What descending the tree found for position `p`. -/
def Staged (x : File) (j : Option Nat) (p : Nat) : Prop :=
  match j with
  | none => x.node 2 (p / cover 2) = false
  | some j => j = p / cover 2

theorem Staged.leaf {x : File} {j : Option Nat} {p : Nat} (h : Staged x j p) (hw : WF x) :
    x.leaf (.tr (p / 65536)) = bottomLeaf x j p := by
  rcases j with _ | j
  · have h' : x.node 2 (p / cover 2) = false := h
    show _ = none
    rcases hl : x.leaf (.tr (p / 65536)) with _ | b
    · rfl
    · have := hw.leaf_node hl
      rw [h'] at this; cases this
  · have h' : j = p / cover 2 := h
    show _ = x.leaf (bottomKey j p)
    rw [bottomKey_eq h']

theorem readTreeLeaves_wp {f end_ : Nat} {j : Option Nat} : ∀ (n : Nat) (s : St), Ok s → end_ - s.pos < n →
    (s.pos < end_ → ((s.file f).ft2 = true ∨ 65536 ≤ s.pos) ∧ Staged (s.file f) j s.pos) →
    wp (readTreeLeaves f j end_ n)
      (fun d s' => ReadPost s f end_ d s' ∧ (s.pos < end_ → s.pos < s'.pos))
      (OnlyPos s) s
  | 0, _, _, hn, _ => by omega
  | n + 1, s, h, hn, hpre => by
    unfold readTreeLeaves
    refine wp_bind (wp_getS ?_)
    split
    · rename_i hlt
      obtain ⟨htr, hj⟩ := hpre hlt
      have hob := hj.leaf (h.wf f)
      refine wp_bind (wp_mono (readLeaf_wp (k := .tr (s.pos / 65536)) (keyOf_tree htr) rfl hob hlt) ?_
        (fun _ e => e ▸ OnlyPos.refl _))
      rintro d s1 ⟨e, hd⟩
      subst e
      subst hd
      obtain ⟨st1, st2⟩ := readStep (f := f) (s := s1) hlt (sz := 65536) (by omega) rfl
      have lf := len_facts (sz := 65536) (by omega) hlt
      refine wp_bind (wp_modS (wp_bind (wp_getS ?_)))
      split
      · exact wp_pure ⟨st1, fun _ => by show s1.pos < advTo _ _ _; rw [st2]; omega⟩
      · rename_i hb
        refine wp_bind (wp_mono (readTreeLeaves_wp n _ (h.setPos _)
          (by show end_ - advTo _ _ _ < n; rw [st2]; omega) ?_) ?_ ?_)
        · intro hlt'
          have hlt2 : advTo _ _ _ < end_ := hlt'
          have hb2 : ¬ isMapBoundary (advTo _ _ _) = true := hb
          show ((s1.file f).ft2 = true ∨ 65536 ≤ advTo _ _ _) ∧ Staged (s1.file f) j (advTo _ _ _)
          rw [st2] at hb2 hlt2 ⊢
          unfold isMapBoundary at hb2
          have hb' : ¬ (s1.pos + lenOfData s1.pos end_ 65536) % 67108864 = 0 := by simpa using hb2
          have hsame : (s1.pos + lenOfData s1.pos end_ 65536) / cover 2 = s1.pos / cover 2 := by
            rw [cover_two]; omega
          refine ⟨?_, by unfold Staged at hj ⊢; rw [hsame]; exact hj⟩
          rcases htr with htr | htr
          · exact .inl htr
          · exact .inr (by omega)
        · rintro d' s' ⟨q1, q2⟩
          refine wp_pure ⟨st1.append q1, fun _ => ?_⟩
          have : advTo _ _ _ ≤ s'.pos := q1.le
          rw [st2] at this
          omega
        · intro s' q1; exact st1.only.trans q1
    · rename_i hge
      exact wp_pure ⟨ReadPost.nil _ _ _, fun hlt => absurd hlt hge⟩

theorem readTree_wp {f end_ : Nat} : ∀ (n : Nat) (s : St), Ok s → end_ - s.pos < n →
    (s.pos < end_ → (s.file f).ft2 = true ∨ 65536 ≤ s.pos) →
    wp (readTree f end_ n) (fun d s' => ReadPost s f end_ d s' ∧ end_ ≤ s'.pos) (OnlyPos s) s
  | 0, _, _, hn, _ => by omega
  | n + 1, s, h, hn, hpre => by
    unfold readTree
    refine wp_bind (wp_getS ?_)
    split
    · rename_i hlt
      refine wp_bind (wp_mono (stageByTree_wp h f s.pos) ?_ (fun _ e => e ▸ OnlyPos.refl _))
      rintro j s1 ⟨e, hj⟩
      subst e
      refine wp_bind (wp_mono (readTreeLeaves_wp (end_ + 1) s1 h (by omega) ?_) ?_ (fun _ h => h))
      · intro _
        refine ⟨hpre hlt, ?_⟩
        rcases j with _ | j
        · exact hj
        · exact hj.1
      · rintro d s2 ⟨p2, hprog⟩
        have hprog' := hprog hlt
        refine wp_bind (wp_mono (readTree_wp n s2 (p2.only.ok h) (by omega) ?_) ?_ ?_)
        · intro _
          rw [p2.only.file]
          rcases hpre hlt with hh | hh
          · exact .inl hh
          · exact .inr (by omega)
        · rintro d' s' ⟨q1, q2⟩
          exact wp_pure ⟨p2.append q1, q2⟩
        · intro s' q1; exact p2.only.trans q1
    · exact wp_pure ⟨ReadPost.nil _ _ _, by omega⟩

/-- A read that succeeds returns the bytes up to the end of the request or of
the file; it changes nothing. -/
theorem readIter_wp {s : St} (h : Ok s) (f beg len : Nat) :
    wp (readIter f beg len)
      (fun d s' => OnlyPos s s' ∧ d = bytesOf s f beg (min (beg + len) (s.file f).size))
      (OnlyPos s) s := by
  unfold readIter
  refine wp_bind (wp_modS (wp_bind (wp_getS ?_)))
  have h0 : OnlyPos s { s with pos := beg } := ⟨beg, rfl⟩
  generalize he : min (beg + len) (s.file f).size = end_
  refine wp_bind (wp_mono (readHeads_wp (end_ + 1) { s with pos := beg } (by omega)) ?_ ?_)
  · rintro d s1 ⟨q1, q2⟩
    refine wp_bind (wp_mono (readTree_wp (end_ + 1) s1 (q1.only.ok (h.setPos beg)) (by omega) ?_) ?_ ?_)
    · intro hlt; rw [q1.only.file]; exact q2 hlt
    · rintro d' s' ⟨q3, q4⟩
      have q := q1.append q3
      refine wp_pure ⟨h0.trans q.only, ?_⟩
      have hd := q.dat
      have hle : beg ≤ s'.pos := q.le
      have hhi : s'.pos ≤ max beg end_ := q.hi
      rw [hd, bytesOf_onlyPos h0]
      show bytesOf s f beg s'.pos = _
      by_cases hbe : beg ≤ end_
      · rw [show s'.pos = end_ by omega]
      · rw [bytesOf_nil (by omega), bytesOf_nil (by omega)]
    · intro s' q3; exact h0.trans (q1.only.trans q3)
  · intro s' q; exact h0.trans q

end Silofs.File
