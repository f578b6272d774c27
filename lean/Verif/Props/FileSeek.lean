/-
C05: SEEK_DATA and SEEK_HOLE.
-/
import Verif.Model.FileSeek
import Verif.Props.FileOps

set_option linter.unusedSimpArgs false
set_option linter.unusedVariables false

namespace Silofs.File

/-- Position `p` of a file is backed by a block. -/
def Backed (x : File) (p : Nat) : Prop := (x.leaf (keyOf x.ft2 p)).isSome = true

/-- Position `p` belongs to a part of the tree that has a bottom node, or to the
head leaves. -/
def Covered (x : File) (p : Nat) : Prop :=
  (x.ft2 = false ∧ p < 65536) ∨ x.node 2 (p / cover 2) = true

/-- What a search stops at. -/
def Hit (x : File) (hole : Bool) (p : Nat) : Prop :=
  hole = (x.leaf (keyOf x.ft2 p)).isNone ∧ Covered x p

theorem hit_tree {x : File} {hole : Bool} {p : Nat} (h : x.ft2 = true ∨ 65536 ≤ p) :
    Hit x hole p ↔ Found x hole p := by
  unfold Hit Found Covered
  rw [keyOf_tree h]
  constructor
  · rintro ⟨h1, ⟨h2, h3⟩ | h2⟩
    · rcases h with h | h
      · rw [h] at h2; cases h2
      · omega
    · exact ⟨h1, h2⟩
  · rintro ⟨h1, h2⟩; exact ⟨h1, .inr h2⟩

theorem seekHeads_wp {f : Nat} {hole : Bool} {end_ : Nat} : ∀ (n : Nat) (s : St), end_ - s.pos < n →
    wp (seekHeads f hole end_ n)
      (fun r s' => ∃ q, s' = { s with pos := q } ∧ s.pos ≤ q ∧ q ≤ max s.pos end_ ∧
        (∀ p, s.pos ≤ p → p < q → ¬ Hit (s.file f) hole p) ∧
        if r then q < end_ ∧ Hit (s.file f) hole q
        else q < end_ → (s.file f).ft2 = true ∨ 65536 ≤ q)
      (SeekErr s) s
  | 0, _, hn => by omega
  | n + 1, s, hn => by
    unfold seekHeads
    refine wp_bind (wp_getS ?_)
    split
    · rename_i hc
      obtain ⟨hft, hlt, hhd⟩ := hc
      have hcov : Covered (s.file f) s.pos := .inl ⟨hft, hhd⟩
      split
      · rename_i hh
        refine wp_pure ⟨s.pos, rfl, Nat.le_refl _, by omega, fun p p1 p2 => by omega, ?_⟩
        simp only [if_true]
        exact ⟨hlt, by rw [hft]; exact hh, hcov⟩
      · rename_i hh
        refine wp_bind (wp_modS ?_)
        have lf := len_facts (keyOf false s.pos).size_pos hlt
        have le := lenOfData_eq (keyOf false s.pos).size_pos hlt
        have hadv : advTo s.pos end_ (s.pos + distToNext false s.pos) =
            s.pos + lenOfData s.pos end_ (keyOf false s.pos).size := by
          unfold advTo distToNext; omega
        rw [hadv]
        generalize hL : lenOfData s.pos end_ (keyOf false s.pos).size = L at *
        refine wp_mono (seekHeads_wp n { s with pos := s.pos + L } (by show end_ - (s.pos + L) < n; omega)) ?_ ?_
        · rintro r s' ⟨q, e, q1, q2, q3, q4⟩
          have q1' : s.pos + L ≤ q := q1
          have q2' : q ≤ max (s.pos + L) end_ := q2
          refine ⟨q, e, by omega, by omega, fun p p1 p2 hit => ?_, q4⟩
          by_cases hp : p < s.pos + L
          · have hk : keyOf false p = keyOf false s.pos := by
              apply key_range <;> omega
            have := hit.1
            rw [hft, hk] at this
            exact hh this
          · exact q3 p (by show s.pos + L ≤ p; omega) p2 hit
        · rintro s' ⟨q, e⟩; exact ⟨q, e⟩
    · rename_i hc
      refine wp_pure ⟨s.pos, rfl, Nat.le_refl _, by omega, fun p p1 p2 => by omega, ?_⟩
      simp only [Bool.false_eq_true, if_false]
      intro hlt
      by_cases hft : (s.file f).ft2 = true
      · exact .inl hft
      · refine .inr ?_
        have : ¬ s.pos < 65536 := fun hh => hc ⟨by simpa using hft, hlt, hh⟩
        omega

/-! A search started at the end finds nothing. -/

theorem seekLeaves_end {f : Nat} {hole : Bool} {end_ j : Nat} : ∀ (n slot : Nat) (s : St), end_ ≤ s.pos →
    wp (seekLeaves f hole end_ j n slot)
      (fun r s' => r = none ∧ ∃ q, s' = { s with pos := q } ∧ end_ ≤ q) (SeekErr s) s
  | 0, _, s, h => wp_pure ⟨rfl, s.pos, rfl, h⟩
  | n + 1, slot, s, h => by
    unfold seekLeaves
    have hge : end_ ≤ advTo s.pos end_ (slotPos 2 j slot) := by unfold advTo; omega
    refine wp_bind (wp_modS (wp_bind (wp_getS ?_)))
    show wp (if advTo s.pos end_ (slotPos 2 j slot) < end_ then _ else _) _ _ _
    rw [if_neg (by omega)]
    exact wp_pure ⟨rfl, _, rfl, hge⟩

theorem seekChilds_end {f : Nat} {end_ : Nat} {rec : Nat → M (Option (Nat × Nat))} {h i : Nat}
    (hrec : ∀ c (s : St), end_ ≤ s.pos →
      wp (rec c) (fun r s' => r = none ∧ ∃ q, s' = { s with pos := q } ∧ end_ ≤ q) (SeekErr s) s) :
    ∀ (n slot : Nat) (s : St), end_ ≤ s.pos →
    wp (seekChilds f end_ rec h i n slot)
      (fun r s' => r = none ∧ ∃ q, s' = { s with pos := q } ∧ end_ ≤ q) (SeekErr s) s
  | 0, _, s, hp => wp_pure ⟨rfl, s.pos, rfl, hp⟩
  | n + 1, slot, s, hp => by
    have next : ∀ q, end_ ≤ q → wp (do advance end_ (slotNextPos h i slot); seekChilds f end_ rec h i n (slot + 1))
        (fun r s' => r = none ∧ ∃ q, s' = { s with pos := q } ∧ end_ ≤ q) (SeekErr s) { s with pos := q } := by
      intro q hq
      refine wp_bind (wp_modS ?_)
      refine wp_mono (seekChilds_end hrec n (slot + 1) _ ?_) ?_ ?_
      · show end_ ≤ advTo q end_ _; unfold advTo; omega
      · rintro r s' ⟨h1, q', h2, h3⟩; exact ⟨h1, q', h2, h3⟩
      · rintro s' ⟨q', e⟩; exact ⟨q', e⟩
    unfold seekChilds
    refine wp_bind (wp_getS ?_)
    split
    · refine wp_bind (wp_chk ?_ ⟨s.pos, rfl⟩)
      refine wp_bind (wp_mono (hrec _ s hp) ?_ (fun _ h => h))
      rintro r s' ⟨e, q, e2, hq⟩
      subst e e2
      exact next q hq
    · exact next s.pos hp

theorem seekRec_end {f : Nat} {hole : Bool} {end_ : Nat} : ∀ (h i : Nat) (s : St), end_ ≤ s.pos →
    wp (seekRec f hole end_ h i)
      (fun r s' => r = none ∧ ∃ q, s' = { s with pos := q } ∧ end_ ≤ q) (SeekErr s) s
  | 0, _, s, hp => wp_pure ⟨rfl, s.pos, rfl, hp⟩
  | h + 1, i, s, hp => by
    unfold seekRec
    refine wp_bind (wp_getS ?_)
    split
    · split
      · exact seekLeaves_end _ _ s hp
      · exact seekChilds_end (fun c s0 h0 => seekRec_end h c s0 h0) _ _ s hp
    · exact wp_pure ⟨rfl, s.pos, rfl, hp⟩

theorem seekByTree_end {f : Nat} {hole : Bool} {end_ : Nat} {s : St} (hp : end_ ≤ s.pos) :
    wp (seekByTree f hole end_) (fun r s' => r = none ∧ OnlyPos s s') (SeekErr s) s := by
  unfold seekByTree
  refine wp_bind (wp_getS ?_)
  split
  · exact wp_pure ⟨rfl, s.pos, rfl⟩
  · refine wp_bind (wp_chk ?_ ⟨s.pos, rfl⟩)
    refine wp_mono (seekRec_end _ _ s hp) ?_ (fun _ h => h)
    rintro r s' ⟨e, q, e2, _⟩
    exact ⟨e, q, e2⟩

/-- The search finds the first position that qualifies. -/
theorem lseekLeaf_wp {s : St} (h : Ok s) {f : Nat} {hole : Bool} {end_ : Nat} :
    wp (lseekLeaf f hole end_)
      (fun r s' => OnlyPos s s' ∧
        match r with
        | some q => s.pos ≤ q ∧ q < end_ ∧ Hit (s.file f) hole q ∧
            ∀ p, s.pos ≤ p → p < q → ¬ Hit (s.file f) hole p
        | none => ∀ p, s.pos ≤ p → p < end_ → ¬ Hit (s.file f) hole p)
      (SeekErr s) s := by
  unfold lseekLeaf
  refine wp_bind (wp_mono (seekHeads_wp (end_ + 1) s (by omega)) ?_ (fun _ h => h))
  rintro r s1 ⟨q, e, q1, q2, q3, q4⟩
  subst e
  cases r with
  | true =>
    simp only [if_true] at q4 ⊢
    exact wp_bind (wp_getS (wp_pure ⟨⟨q, rfl⟩, q1, q4.1, q4.2, q3⟩))
  | false =>
    simp only [Bool.false_eq_true, if_false] at q4 ⊢
    by_cases hq : q < end_
    · refine wp_bind (wp_mono (seekByTree_wp (h.setPos q) (f := f) (hole := hole) (s := { s with pos := q }) hq) ?_ ?_)
      · rintro r s2 ⟨q', e, p1, p2, p3⟩
        subst e
        refine wp_bind (wp_getS (wp_pure ⟨⟨q', rfl⟩, ?_⟩))
        have p1' : q ≤ q' := p1
        have tr : ∀ p, q ≤ p → (s.file f).ft2 = true ∨ 65536 ≤ p := fun p hp => tree_mono (q4 hq) hp
        rcases r with _ | ⟨j, slot⟩
        · intro p hp1 hp2 hit
          by_cases hpq : p < q
          · exact q3 p hp1 hpq hit
          · exact p3.2 p (by show q ≤ p; omega) hp2 hp2 ((hit_tree (tr p (by omega))).1 hit)
        · refine ⟨by show s.pos ≤ q'; omega, p3.1, (hit_tree (tr q' p1')).2 p3.2.2.2.1, fun p hp1 hp2 hit => ?_⟩
          by_cases hpq : p < q
          · exact q3 p hp1 hpq hit
          · exact p3.2.2.2.2 p (by show q ≤ p; omega) hp2 ((hit_tree (tr p (by omega))).1 hit)
      · rintro s2 ⟨q', e⟩; exact ⟨q', e⟩
    · refine wp_bind (wp_mono (seekByTree_end (s := { s with pos := q }) (by show end_ ≤ q; omega)) ?_ ?_)
      · rintro r s2 ⟨e, q', e2⟩
        subst e e2
        refine wp_bind (wp_getS (wp_pure ⟨⟨q', rfl⟩, fun p hp1 hp2 => q3 p hp1 (by omega)⟩))
      · rintro s2 ⟨q', e⟩; exact ⟨q', e⟩

theorem hit_data {s : St} (h : Ok s) {f p : Nat} : Hit (s.file f) false p ↔ Backed (s.file f) p := by
  unfold Hit Backed
  constructor
  · rintro ⟨h1, _⟩
    rcases hl : (s.file f).leaf (keyOf (s.file f).ft2 p) with _ | b
    · rw [hl] at h1; cases h1
    · rfl
  · intro hb
    rcases hl : (s.file f).leaf (keyOf (s.file f).ft2 p) with _ | b
    · rw [hl] at hb; cases hb
    · refine ⟨rfl, ?_⟩
      unfold Covered
      by_cases ht : (s.file f).ft2 = true ∨ 65536 ≤ p
      · rw [keyOf_tree ht] at hl
        exact .inr ((h.wf f).leaf_node hl)
      · refine .inl ⟨?_, by omega⟩
        cases hh : (s.file f).ft2
        · rfl
        · exact absurd (.inl hh) ht

theorem not_backed_zero {s : St} {f p : Nat} (h : ¬ Backed (s.file f) p) : byteAt s f p = 0 := by
  apply byteAt_none
  unfold Backed at h
  rcases hl : (s.file f).leaf (keyOf (s.file f).ft2 p) with _ | b
  · rfl
  · rw [hl] at h; exact absurd rfl h

/-- What a call of lseek did; `hit` says which positions the search is for. -/
theorem lseek_wp {s : St} (h : Ok s) {f off : Nat} {hole : Bool} (hoff : off < (s.file f).size) :
    wp (lseek f off hole)
      (fun r s' => OnlyPos s s' ∧
        match r with
        | some q => off ≤ q ∧ (∀ p, off ≤ p → p < q → ¬ Hit (s.file f) hole p) ∧
            ((q < (s.file f).size ∧ Hit (s.file f) hole q) ∨ (hole = true ∧ q = (s.file f).size))
        | none => hole = false ∧ ∀ p, off ≤ p → p < (s.file f).size → ¬ Hit (s.file f) hole p)
      (SeekErr s) s := by
  unfold lseek
  refine wp_bind (wp_modS (wp_bind (wp_getS ?_)))
  refine wp_bind (wp_mono (lseekLeaf_wp (s := { s with pos := off }) (h.setPos off)) ?_ ?_)
  · rintro r s' ⟨⟨q', e⟩, hr⟩
    subst e
    rcases r with _ | q
    · refine wp_pure ⟨⟨q', rfl⟩, ?_⟩
      cases hole with
      | false => exact ⟨rfl, hr⟩
      | true => exact ⟨by show off ≤ (s.file f).size; omega, hr, .inr ⟨rfl, rfl⟩⟩
    · obtain ⟨r1, r2, r3, r4⟩ := hr
      have r1' : off ≤ q := r1
      have r2' : q < (s.file f).size := r2
      refine wp_pure ⟨⟨q', rfl⟩, ?_⟩
      have e : min (max q off) (({ s with pos := off } : St).file f).size = q := by
        show min (max q off) (s.file f).size = q
        omega
      simp only [e]
      exact ⟨r1', r4, .inl ⟨r2', r3⟩⟩
  · rintro s' ⟨q', e⟩; exact ⟨q', e⟩

/-- The result of lseek as the user sees it. -/
theorem opSeek_spec {s : St} (h : Inv s) (f : Nat) (off : Int) (hole : Bool) (o : List Ans) :
    OnlyPos s (opSeek f off hole s o).2 ∧
    match (opSeek f off hole s o).1 with
    | .at q => 0 ≤ off ∧ off < (s.file f).size ∧ off.toNat ≤ q ∧
        (∀ p, off.toNat ≤ p → p < q → ¬ Hit (s.file f) hole p) ∧
        ((q < (s.file f).size ∧ Hit (s.file f) hole q) ∨ (hole = true ∧ q = (s.file f).size))
    | .enxio => 0 ≤ off ∧ off < (s.file f).size ∧ hole = false ∧
        ∀ p, off.toNat ≤ p → p < (s.file f).size → ¬ Hit (s.file f) hole p
    | .failed _ => 0 ≤ off ∧ off < (s.file f).size
    | .rejected _ => off < 0 ∨ (s.file f).size ≤ off := by
  have hsz := h.size f
  unfold opSeek
  cases hc : checkFileIo (seekReq off (s.file f).size) with
  | some e =>
    refine ⟨⟨s.pos, rfl⟩, ?_⟩
    show off < 0 ∨ ((s.file f).size : Int) ≤ off
    have hn : ¬ (0 ≤ off ∧ off < (s.file f).size) := by
      rw [← C07_seek (by omega), hc]; simp
    omega
  | none =>
    have hr : 0 ≤ off ∧ off < (s.file f).size := (C07_seek (by omega)).1 hc
    have hw := lseek_wp h.ok (f := f) (off := off.toNat) (hole := hole) (by omega) o
    simp only
    rcases hx : lseek f off.toNat hole s o with ⟨e | q, s', o'⟩
    · rw [hx] at hw; exact ⟨hw, hr⟩
    · rw [hx] at hw
      rcases q with _ | q
      · exact ⟨hw.1, hr.1, hr.2, hw.2⟩
      · exact ⟨hw.1, hr.1, hr.2, hw.2⟩

/-- C05: SEEK_DATA changes nothing and returns the first offset at or after `off`
that is backed by a block, so all bytes it skips are zero; it reports ENXIO only if
there is none before the end of the file, and rejects exactly the offsets outside
of the file. -/
theorem C05_data {s : St} (h : Inv s) (f : Nat) (off : Int) (o : List Ans) :
    abs (opSeek f off false s o).2 = abs s ∧
    match (opSeek f off false s o).1 with
    | .at q => off ≤ q ∧ q < (s.file f).size ∧ Backed (s.file f) q ∧
        ∀ p, off.toNat ≤ p → p < q → ¬ Backed (s.file f) p ∧ (abs s f).byte p = 0
    | .enxio => ∀ p, off.toNat ≤ p → ¬ (p < (s.file f).size ∧ Backed (s.file f) p) ∧ (abs s f).byte p = 0
    | .failed _ => 0 ≤ off ∧ off < (s.file f).size
    | .rejected _ => off < 0 ∨ (s.file f).size ≤ off := by
  obtain ⟨⟨q0, h1⟩, h2⟩ := opSeek_spec h f off false o
  refine ⟨by rw [h1]; rfl, ?_⟩
  rcases hr : (opSeek f off false s o).1 with q | _ | e | e <;> rw [hr] at h2
  · obtain ⟨a1, a2, a3, a4, a5⟩ := h2
    rcases a5 with ⟨a5, a6⟩ | ⟨a5, _⟩
    · refine ⟨by omega, a5, (hit_data h.ok).1 a6, fun p p1 p2 => ?_⟩
      have hb : ¬ Backed (s.file f) p := fun hb => a4 p p1 p2 ((hit_data h.ok).2 hb)
      exact ⟨hb, not_backed_zero hb⟩
    · cases a5
  · obtain ⟨a1, a2, a3, a4⟩ := h2
    intro p p1
    have hb : ¬ (p < (s.file f).size ∧ Backed (s.file f) p) :=
      fun hb => a4 p p1 hb.1 ((hit_data h.ok).2 hb.2)
    refine ⟨hb, ?_⟩
    by_cases hp : p < (s.file f).size
    · exact not_backed_zero fun hh => hb ⟨hp, hh⟩
    · exact h.tail f p (by omega)
  · exact h2
  · exact h2

/-- C05: SEEK_HOLE changes nothing; its result is the end of the file or an offset
not backed by a block, which reads as zero; offsets it skipped are backed by a block
or have no bottom tree node, so the result is the first hole if every 64M part of
the searched range has a node.  Missing for the full claim: holes that span a whole
tree node are skipped (`C05_hole_violated`). -/
theorem C05_hole_partial {s : St} (h : Inv s) (f : Nat) (off : Int) (o : List Ans) :
    abs (opSeek f off true s o).2 = abs s ∧
    match (opSeek f off true s o).1 with
    | .at q => off ≤ q ∧ q ≤ (s.file f).size ∧
        (q < (s.file f).size → ¬ Backed (s.file f) q ∧ (abs s f).byte q = 0) ∧
        ∀ p, off.toNat ≤ p → p < q → Backed (s.file f) p ∨ ¬ Covered (s.file f) p
    | .enxio => False
    | .failed _ => 0 ≤ off ∧ off < (s.file f).size
    | .rejected _ => off < 0 ∨ (s.file f).size ≤ off := by
  obtain ⟨⟨q0, h1⟩, h2⟩ := opSeek_spec h f off true o
  refine ⟨by rw [h1]; rfl, ?_⟩
  have nb : ∀ p, Hit (s.file f) true p ↔ ¬ Backed (s.file f) p ∧ Covered (s.file f) p := by
    intro p
    unfold Hit Backed
    rcases (s.file f).leaf (keyOf (s.file f).ft2 p) with _ | b <;> simp
  rcases hr : (opSeek f off true s o).1 with q | _ | e | e <;> rw [hr] at h2
  · obtain ⟨a1, a2, a3, a4, a5⟩ := h2
    refine ⟨by omega, by rcases a5 with a5 | a5 <;> omega, fun hq => ?_, fun p p1 p2 => ?_⟩
    · rcases a5 with ⟨_, a5⟩ | ⟨_, a5⟩
      · have := ((nb q).1 a5).1
        exact ⟨this, not_backed_zero this⟩
      · omega
    · have := a4 p p1 p2
      rw [nb p] at this
      by_cases hb : Backed (s.file f) p
      · exact .inl hb
      · exact .inr fun hc => this ⟨hb, hc⟩
  · cases h2.2.2.1
  · exact h2
  · exact h2

/-- One byte written at 128M of a new file: SEEK_DATA finds it, and past it
SEEK_DATA reports ENXIO. -/
example :
    let s0 := St.init (fun _ _ => 7)
    let s1 := (FOp.run 0 (.write 134217728 [1] false) s0 (granted 0)).2
    (opSeek 0 5 false s1 (granted 0)).1 = .at 134217728 ∧
    (opSeek 0 134217729 false s1 (granted 0)).1 = .rejected .enxio ∧
    (opSeek 0 0 true s1 (granted 0)).1 = .at 0 := by decide +kernel

/-- One byte written at 128M of a new file: everything before it is a hole, but
SEEK_HOLE from 64M reports the end of the file. -/
theorem C05_hole_violated :
    let s0 := St.init (fun _ _ => 7)
    let s1 := (FOp.run 0 (.write 134217728 [1] false) s0 (granted 0)).2
    (opSeek 0 67108864 true s1 (granted 0)).1 = .at 134217729 ∧
    (s1.file 0).leaf (keyOf false 67108864) = none ∧ (abs s1 0).size = 134217729 := by decide +kernel

end Silofs.File
