import Verif.Props.RepoStep
/-
Every operation of the repository does what the map of names to contents allows: the rest of the
operations, and the theorem for all of them.
-/
set_option linter.unusedSimpArgs false
namespace Silofs.Repo
open Silofs Silofs.Addr Silofs.Sysio

theorem punch_good {c : Cfg} {U : Name → Prop} (hi : PathInj c U) {r : Repo} (h : Inv c U r) (k : K) (l : Lsid) (hU : U (.lseg l))
    (hk : k.trunc2 = 0) : Good c U r (.punch l) ⟨(punch c k r l).1, [], 0⟩ (punch c k r l).2 := by
  have hq : ∀ r' e, Quiet c U r r' → Good c U r (.punch l) ⟨.err e, [], 0⟩ r' := fun r' e q =>
    good_quiet q _ _ (by simp) (fun nm _ => by simp [Own])
  unfold punch
  rcases checkOpen_cases r true with e | ⟨x, e⟩
  · rw [e]
    dsimp only
    have s := stageOf_spec h k true l hU
    cases hst : stageOf c k r true l with
    | mk res rest =>
    obtain ⟨r1, id⟩ := rest
    rw [hst] at s
    dsimp only at s ⊢
    cases res with
    | undef => exact absurd rfl s.noundef
    | err x => exact hq _ _ s.mild.quiet
    | ok =>
      dsimp only
      obtain ⟨f1, f2⟩ := s.found rfl
      obtain ⟨n, b1, b2, b3, b4⟩ := s.file
      have b5 := b4 l rfl
      rw [b1]
      dsimp only
      have hsame : { r1 with disk := r1.disk } = r1 := rfl
      have hz : ∀ f, AllZero f → f.size = (r1.disk.node n).cur.size →
          Good c U r (.punch l) ⟨.ok, [], 0⟩ { r1 with disk := r1.disk.modify n f false } := by
        intro f hf hs
        have hcm := content_modify hi s.mild.inv.dk hU b2 f false
        refine good_change ?_ _ _ (by simp) (.lseg l) rfl _ hcm.1 ?_ ?_
        · refine s.mild.inv.modify hi hU b2 f false (fun i _ => hf i) (fun _ => hf) ?_
          intro id' l' hid' _ hk'
          have : id' = id := s.mild.inv.st.uniq id' id hid' f1 (hk'.trans f2.symm)
          subst this
          rw [hs, b5]
        · intro nm' hU' hne
          rw [hcm.2 nm' hU' hne, content_same s.mild.same]
        · simp only [Own, if_true]
          exact ⟨_, _, b3, rfl, hf, hs⟩
      unfold punchEnt
      by_cases h1 : k.stat ≠ 0
      · rw [if_pos h1]; exact hq _ _ s.mild.quiet
      · rw [if_neg h1]
        by_cases h2 : ¬ (r1.disk.node n).blocks = true
        · rw [if_pos h2]
          refine good_quiet s.mild.quiet _ _ (by simp) ?_
          intro nm hnm
          cases hnm
          simp only [Own, if_true]
          exact ⟨_, _, b3, b3, s.mild.inv.dk.hole n (by simpa using h2), rfl⟩
        · rw [if_neg h2]
          by_cases h3 : (r1.heap id).rdonly = true
          · rw [if_pos h3]; exact hq _ _ s.mild.quiet
          · rw [if_neg h3]
            by_cases h4 : k.punch = 0
            · rw [if_pos h4]
              refine hz _ ?_ rfl
              intro i
              show (if i < _ then 0 else _) = 0
              split
              · rfl
              · exact s.mild.inv.dk.tail n i (by omega)
            · rw [if_neg h4]
              by_cases h5 : k.punch ≠ 95
              · rw [if_pos h5]; exact hq _ _ s.mild.quiet
              · rw [if_neg h5]
                by_cases h6 : k.trunc ≠ 0
                · rw [if_pos h6]; exact hq _ _ s.mild.quiet
                · rw [if_neg h6, if_neg (by omega)]
                  exact hz _ (trunc_allZero (trunc_zero _) _) b5.symm
  · rw [e]; exact hq _ _ (Mild.refl h).quiet

/-! ### Objects saved as a whole -/

theorem save_good {c : Cfg} {U : Name → Prop} (hi : PathInj c U) {r : Repo} (h : Inv c U r) (k : K) (nm : Name) (hU : U nm)
    (hn1 : ∀ l, nm ≠ .lseg l) (l : List Nat) : Good c U r (.save nm l) ⟨(saveObj c k r nm l).1, [], 0⟩ (saveObj c k r nm l).2 := by
  unfold saveObj
  by_cases h1 : k.openf ≠ 0
  · rw [if_pos h1]
    exact good_quiet (Mild.refl h).quiet _ _ (by simp) (fun nm _ => ⟨by simp, fun _ => Or.inl rfl⟩)
  · rw [if_neg h1]
    -- the file, which may have just been made
    obtain ⟨d1, n, hoc, hi1, hdir, hc1, hoth⟩ : ∃ d1 n, r.disk.openCreat (pathOf c nm) = (d1, n) ∧ Inv c U { r with disk := d1 } ∧
        d1.dir (pathOf c nm) = some n ∧ content c d1 nm = some ((content c r.disk nm).getD ⟨0, fun _ => 0⟩) ∧
        ∀ nm', U nm' → nm' ≠ nm → content c d1 nm' = content c r.disk nm' := by
      cases hd : r.disk.dir (pathOf c nm) with
      | some n => exact ⟨r.disk, n, openCreat_some hd, h, hd, by rw [content_some hd]; rfl, fun _ _ _ => rfl⟩
      | none =>
        have hcm := content_made hi h.dk hU
        refine ⟨_, _, openCreat_none hd, ?_, made_dir _ _, ?_, hcm.2⟩
        · exact ⟨⟨h.st.nodup, h.st.slot, h.st.snodup, h.st.lt, h.st.uniq, h.st.used⟩, h.dk.made _, h.bd.made h.dk _ hd⟩
        · rw [hcm.1, content_none hd]; rfl
    rw [hoc]
    dsimp only
    have hcur : (d1.node n).cur = (content c r.disk nm).getD ⟨0, fun _ => 0⟩ := by
      have := content_some hdir
      rw [hc1] at this
      injection this with this
      exact this.symm
    by_cases hl : l = []
    · rw [if_pos hl]
      refine good_change hi1 _ _ (by simp) nm rfl _ hc1 hoth ?_
      subst hl
      refine ⟨fun _ => ⟨_, rfl, ⟨fun i b hi => absurd hi (Nat.not_lt_zero _), fun _ _ => rfl, Nat.le_refl _⟩, by simp⟩, by simp⟩
    · rw [if_neg hl]
      obtain ⟨⟨kk, k1, k2, k3⟩, k4, _⟩ := pwriten_spec (d1.node n).cur l 0 k.data
      have hput : ∀ d2 res, Same (d1.modify n ((d1.node n).cur.put 0 (l.take kk)) true) d2 → res ≠ Res.undef → (res = .ok → kk = l.length) →
          Good c U r (.save nm l) ⟨res, [], 0⟩ { r with disk := d2 } := by
        intro d2 res hs hnu hok
        have hcm := content_modify hi hi1.dk hU hdir ((d1.node n).cur.put 0 (l.take kk)) true
        have hinv := hi1.modify hi hU hdir ((d1.node n).cur.put 0 (l.take kk)) true (tail_put (hi1.dk.tail n) _ _) (by simp)
          (fun id l' _ e _ => absurd e (hn1 l'))
        have hmx := mixed_put (d1.node n).cur 0 l kk k1
        refine good_change (r' := { r with disk := d2 }) ⟨⟨h.st.nodup, h.st.slot, h.st.snodup, h.st.lt, h.st.uniq, h.st.used⟩, hinv.dk.same hs, ?_⟩
          _ _ hnu nm rfl (some ((d1.node n).cur.put 0 (l.take kk))) ?_ ?_ ?_
        · exact Bind.same (r := r) hinv.bd hs
        · exact (congrFun (content_same hs) nm).trans hcm.1
        · intro nm' hU' hne
          exact (congrFun (content_same hs) nm').trans ((hcm.2 nm' hU' hne).trans (hoth nm' hU' hne))
        · rw [hcur] at hmx ⊢
          refine ⟨?_, ?_⟩
          · intro hr
            have := hok hr
            subst this
            refine ⟨_, rfl, hmx, ?_⟩
            rw [List.take_length]
            show (if l = [] then _ else max _ (0 + l.length)) = _
            rw [if_neg hl, Nat.zero_add]
          · intro _
            exact Or.inr ⟨_, kk, k1, rfl, hmx⟩
      cases hp : pwriten (d1.node n).cur l 0 k.data with
      | mk res f =>
        rw [hp] at k2 k3 k4
        dsimp only at k2 k3 k4
        subst k2
        cases res with
        | undef => exact absurd rfl k4
        | err x => exact hput _ _ (Same.refl _) (by simp) (by simp)
        | ok =>
          dsimp only
          refine hput _ _ (same_fsync _ _ _) (by split <;> simp) (fun _ => k3.mp rfl)

theorem load_good {c : Cfg} {U : Name → Prop} {r : Repo} (h : Inv c U r) (k : K) (nm : Name) (len : Nat) :
    Good c U r (.load nm len) ⟨(loadObj c k r nm len).1, (loadObj c k r nm len).2, 0⟩ r := by
  have hq : ∀ x b, Good c U r (.load nm len) ⟨.err x, b, 0⟩ r := fun x b =>
    good_quiet (Mild.refl h).quiet _ _ (by simp) (fun nm _ => by simp [Own])
  unfold loadObj
  cases hd : r.disk.dir (pathOf c nm) with
  | none => exact hq _ _
  | some n =>
    dsimp only
    by_cases h1 : k.openf ≠ 0
    · rw [if_pos h1]; exact hq _ _
    · rw [if_neg h1]
      refine good_quiet (Mild.refl h).quiet _ _ ?_ ?_
      · exact (preadn_loop (r.disk.node n).cur len 0 k.data [] (Nat.zero_le _) (got_nil _ _)).2.1
      · intro nm' hnm
        cases hnm
        exact ⟨rfl, fun hr => ⟨_, content_some hd, C53_read _ _ _ k.data _ (by dsimp only at hr; rw [← hr])⟩⟩

theorem statObj_good {c : Cfg} {U : Name → Prop} {r : Repo} (h : Inv c U r) (k : K) (nm : Name) :
    Good c U r (.size nm) ⟨(statObj c k r nm).1, [], (statObj c k r nm).2⟩ r := by
  have hq : ∀ x b, Good c U r (.size nm) ⟨.err x, [], b⟩ r := fun x b =>
    good_quiet (Mild.refl h).quiet _ _ (by simp) (fun nm _ => by simp [Own])
  unfold statObj
  cases hd : r.disk.dir (pathOf c nm) with
  | none => exact hq _ _
  | some n =>
    dsimp only
    by_cases h1 : k.stat ≠ 0
    · rw [if_pos h1]; exact hq _ _
    · rw [if_neg h1]
      refine good_quiet (Mild.refl h).quiet _ _ (by simp) ?_
      intro nm' hnm
      cases hnm
      exact ⟨rfl, fun _ => ⟨_, content_some hd, rfl⟩⟩

theorem unlinkObj_good {c : Cfg} {U : Name → Prop} (hi : PathInj c U) {r : Repo} (h : Inv c U r) (k : K) (nm : Name) (hU : U nm)
    (hn1 : ∀ l, nm ≠ .lseg l) (hn2 : ∀ p, nm ≠ .pseg p) :
    Good c U r (.unlink nm) ⟨(unlinkObj c k r nm).1, [], 0⟩ (unlinkObj c k r nm).2 := by
  have hq : ∀ x, Good c U r (.unlink nm) ⟨.err x, [], 0⟩ r := fun x =>
    good_quiet (Mild.refl h).quiet _ _ (by simp) (fun nm _ => by simp [Own])
  unfold unlinkObj
  cases hd : r.disk.dir (pathOf c nm) with
  | none => exact hq _
  | some n =>
    dsimp only
    by_cases h1 : k.unlink ≠ 0
    · rw [if_pos h1]; exact hq _
    · rw [if_neg h1]
      have hcu := content_unlink hi (d := r.disk) hU
      refine good_change ?_ _ _ (by simp) nm rfl none hcu.1 hcu.2 ?_
      · refine ⟨⟨h.st.nodup, h.st.slot, h.st.snodup, h.st.lt, h.st.uniq, h.st.used⟩, h.dk.unlink _, ?_⟩
        refine Bind.unlink (r := r) h.bd _ ?_
        intro id hid hp
        have e := hi _ _ (h.st.used id hid).1 hU hp
        have hs := (h.st.used id hid).2
        rw [e] at hs
        cases nm with
        | lseg l => exact hn1 l rfl
        | pseg p => exact hn2 p rfl
        | cobj _ => exact hs
        | ref _ => exact hs
        | pack _ => exact hs
      · simp only [Own, if_true]
        rw [content_some hd]; simp

/-! ### Segments of the physical store -/

theorem hasPseg_cases {c : Cfg} {U : Name → Prop} {r : Repo} (h : Inv c U r) (k : K) (p : Psid) :
    (hasPseg c k r p = .ok ∧ content c r.disk (.pseg p) ≠ none) ∨
    (∃ e, hasPseg c k r p = .err e ∧ (k.stat ≠ 2 → e = SENOENT → lookup c r (.pseg p) = none ∧ (r.disk.dir (pathOf c (.pseg p)) = none ∨ k.stat = SENOENT))) := by
  unfold hasPseg
  cases hlk : lookup c r (.pseg p) with
  | some id =>
    left
    obtain ⟨a1, a2⟩ := lookup_some h.st hlk
    obtain ⟨n, b1, b2, _⟩ := h.bd id a1
    rw [a2] at b2
    exact ⟨rfl, by rw [content_some b2]; simp⟩
  | none =>
    dsimp only
    cases hd : r.disk.dir (pathOf c (.pseg p)) with
    | none => right; exact ⟨_, rfl, fun _ _ => ⟨rfl, Or.inl rfl⟩⟩
    | some n =>
      dsimp only
      by_cases h1 : k.stat ≠ 0
      · rw [if_pos h1]
        right
        refine ⟨_, rfl, ?_⟩
        intro h2 h3
        rw [if_neg (show ¬ k.stat = ENOENT from h2)] at h3
        exact ⟨rfl, Or.inr h3⟩
      · rw [if_neg h1]; left; exact ⟨rfl, by rw [content_some hd]; simp⟩

theorem pcreate_good {c : Cfg} {U : Name → Prop} (hi : PathInj c U) {r : Repo} (h : Inv c U r) (k : K) (p : Psid) (hU : U (.pseg p))
    (hk : k.stat ≠ 2) (hk2 : k.stat ≠ SENOENT) : Good c U r (.pcreate p) ⟨(pcreate c k r p).1, [], 0⟩ (pcreate c k r p).2 := by
  have hq : ∀ r' x, Quiet c U r r' → Good c U r (.pcreate p) ⟨.err x, [], 0⟩ r' := fun r' x q =>
    good_quiet q _ _ (by simp) (fun nm _ => by simp [Own])
  unfold pcreate
  rcases checkOpen_cases r true with e | ⟨x, e⟩
  · rw [e]
    dsimp only
    rcases hasPseg_cases h k p with ⟨e1, _⟩ | ⟨e0, e1, e2⟩
    · rw [e1]; exact hq _ _ (Mild.refl h).quiet
    · rw [e1]
      dsimp only
      by_cases h1 : e0 ≠ SENOENT
      · rw [if_pos h1]; exact hq _ _ (Mild.refl h).quiet
      · rw [if_neg h1]
        obtain ⟨q1, q2⟩ := e2 hk (by omega)
        have q2 := q2.resolve_right hk2
        have hl := overpop_less k r h
        have hkk : ∀ id, id ∈ (overpop c k r).lruq → ((overpop c k r).heap id).key ≠ .pseg p := by
          intro id hid
          rw [hl.heap]
          exact lookup_none h.st q1 id (hl.sub id hid)
        by_cases h2 : k.openf ≠ 0
        · rw [if_pos h2, newEnt_insert]
          refine hq _ _ (Mild.quiet ⟨fail_inv hl.inv.st k _ _ hl.inv.dk hl.inv.bd, ?_, hl.ro, hl.opened⟩)
          rw [(insert_evict hl.inv.st k _ _).2.2]
          exact hl.same.trans (same_close _ _ _)
        · have hd : (overpop c k r).disk.dir (pathOf c (.pseg p)) = none := by rw [hl.same.dir]; exact q2
          rw [if_neg h2, creat_none hd]
          dsimp only
          have hdk := hl.inv.dk.made (pathOf c (.pseg p))
          have hbd := hl.inv.bd.made hl.inv.dk (pathOf c (.pseg p)) hd
          have hc0 := content_made hi hl.inv.dk hU
          have hins := insert_inv (e := ⟨.pseg p, 0, some (overpop c k r).disk.next, false⟩) hl.inv.st
            (made (overpop c k r).disk (pathOf c (.pseg p))) hdk hbd hU trivial hkk (overpop c k r).disk.next rfl (made_dir _ _)
            (fun l hl => by cases hl)
          refine good_change (r' := insert c (overpop c k r) ⟨.pseg p, 0, some (overpop c k r).disk.next, false⟩ (made (overpop c k r).disk (pathOf c (.pseg p))))
            hins _ _ (by simp) (.pseg p) rfl _ hc0.1 ?_ ?_
          · intro nm' hU' hne
            rw [← content_same hl.same]
            exact hc0.2 nm' hU' hne
          · simp only [Own, if_true]
            exact ⟨content_none q2, _, rfl, rfl, fun _ => rfl⟩
  · rw [e]; exact hq _ _ (Mild.refl h).quiet

theorem pstage_good {c : Cfg} {U : Name → Prop} {r : Repo} (h : Inv c U r) (k : K) (p : Psid) (hU : U (.pseg p)) :
    Good c U r (.pstage p) ⟨(pstage c k r p).1, [], 0⟩ (pstage c k r p).2 := by
  have hq : ∀ r' x, Quiet c U r r' → Good c U r (.pstage p) ⟨.err x, [], 0⟩ r' := fun r' x q =>
    good_quiet q _ _ (by simp) (fun nm _ => by simp [Own])
  unfold pstage
  rcases checkOpen_cases r true with e | ⟨x, e⟩
  · rw [e]
    dsimp only
    rcases hasPseg_cases h k p with ⟨e1, e2⟩ | ⟨e0, e1, _⟩
    · rw [e1]
      dsimp only
      have s := pstageOf_spec h k p hU
      refine good_quiet s.mild.quiet _ _ s.noundef ?_
      intro nm hnm
      cases hnm
      exact ⟨rfl, fun _ => e2⟩
    · rw [e1]; exact hq _ _ (Mild.refl h).quiet
  · rw [e]; exact hq _ _ (Mild.refl h).quiet

theorem pflush_good {c : Cfg} {U : Name → Prop} {r : Repo} (h : Inv c U r) (k : K) (p : Psid) (hU : U (.pseg p)) :
    Good c U r (.pflush p) ⟨(pflush c k r p).1, [], 0⟩ (pflush c k r p).2 := by
  have hq : ∀ r' x, Quiet c U r r' → Good c U r (.pflush p) ⟨.err x, [], 0⟩ r' := fun r' x q =>
    good_quiet q _ _ (by simp) (fun nm _ => by simp [Own])
  unfold pflush
  rcases checkOpen_cases r true with e | ⟨x, e⟩
  · rw [e]
    dsimp only
    rcases hasPseg_cases h k p with ⟨e1, e2⟩ | ⟨e0, e1, _⟩
    · rw [e1]
      dsimp only
      have s := pstageOf_spec h k p hU
      cases hst : pstageOf c k r p with
      | mk res rest =>
      obtain ⟨r1, id⟩ := rest
      rw [hst] at s
      dsimp only at s ⊢
      cases res with
      | undef => exact absurd rfl s.noundef
      | err x => exact hq _ _ s.mild.quiet
      | ok =>
        dsimp only
        obtain ⟨n, b1, b2, b3, _⟩ := s.file
        rw [b1]
        dsimp only
        have hs := same_fsync r1.disk n (k.sync n)
        have hi1 := s.mild.inv
        refine good_quiet (Mild.quiet (r' := { r1 with disk := r1.disk.fsync n (k.sync n) })
          ⟨⟨⟨hi1.st.nodup, hi1.st.slot, hi1.st.snodup, hi1.st.lt, hi1.st.uniq, hi1.st.used⟩, hi1.dk.same hs, Bind.same (r := r1) hi1.bd hs⟩,
            s.mild.same.trans hs, s.mild.ro, s.mild.opened⟩) _ _ (by dsimp only; split <;> simp) ?_
        intro nm hnm
        cases hnm
        exact ⟨rfl, fun _ => e2⟩
    · rw [e1]; exact hq _ _ (Mild.refl h).quiet
  · rw [e]; exact hq _ _ (Mild.refl h).quiet

theorem psave_good {c : Cfg} {U : Name → Prop} (hi : PathInj c U) {r : Repo} (h : Inv c U r) (k : K) (p : Psid) (hU : U (.pseg p)) (off : Nat) (l : List Nat) :
    Good c U r (.psave p off l) ⟨(psave c k r p off l).1, [], 0⟩ (psave c k r p off l).2 := by
  have hq : ∀ r' x, Quiet c U r r' → Good c U r (.psave p off l) ⟨.err x, [], 0⟩ r' := fun r' x q =>
    good_quiet q _ _ (by simp) (fun nm _ => ⟨by simp, fun _ => Or.inl rfl⟩)
  unfold psave
  rcases checkOpen_cases r true with e | ⟨x, e⟩
  · rw [e]
    dsimp only
    rcases hasPseg_cases h k p with ⟨e1, e2⟩ | ⟨e0, e1, _⟩
    · rw [e1]
      dsimp only
      have s := pstageOf_spec h k p hU
      cases hst : pstageOf c k r p with
      | mk res rest =>
      obtain ⟨r1, id⟩ := rest
      rw [hst] at s
      dsimp only at s ⊢
      cases res with
      | undef => exact absurd rfl s.noundef
      | err x => exact hq _ _ s.mild.quiet
      | ok =>
        dsimp only
        obtain ⟨n, b1, b2, b3, _⟩ := s.file
        rw [b1]
        dsimp only
        obtain ⟨⟨kk, k1, k2, k3⟩, k4, _⟩ := pwriten_spec (r1.disk.node n).cur l off k.data
        rw [k2]
        have hi1 := s.mild.inv
        have hcm := content_modify hi hi1.dk hU b2 ((r1.disk.node n).cur.put off (l.take kk)) true
        refine good_change (hi1.modify hi hU b2 _ true (tail_put (hi1.dk.tail n) _ _) (by simp) (fun _ _ _ e _ => by cases e))
          _ _ k4 (.pseg p) rfl _ hcm.1 ?_ ?_
        · intro nm' hU' hne
          rw [hcm.2 nm' hU' hne, content_same s.mild.same]
        · refine ⟨?_, ?_⟩
          · intro hr
            have := k3.mp hr
            subst this
            refine ⟨_, _, b3, rfl, ?_⟩
            rw [List.take_length]
            exact put_wrote _ _ _
          · intro _
            exact Or.inr ⟨_, _, kk, k1, b3, rfl, mixed_put _ _ _ _ k1⟩
    · rw [e1]; exact hq _ _ (Mild.refl h).quiet
  · rw [e]; exact hq _ _ (Mild.refl h).quiet

theorem pload_good {c : Cfg} {U : Name → Prop} {r : Repo} (h : Inv c U r) (k : K) (p : Psid) (hU : U (.pseg p)) (off len : Nat) :
    Good c U r (.pload p off len) ⟨(pload c k r p off len).1, (pload c k r p off len).2.1, 0⟩ (pload c k r p off len).2.2 := by
  have hq : ∀ r' x b, Quiet c U r r' → Good c U r (.pload p off len) ⟨.err x, b, 0⟩ r' := fun r' x b q =>
    good_quiet q _ _ (by simp) (fun nm _ => by simp [Own])
  unfold pload
  rcases checkOpen_cases r false with e | ⟨x, e⟩
  · rw [e]
    dsimp only
    rcases hasPseg_cases h k p with ⟨e1, e2⟩ | ⟨e0, e1, _⟩
    · rw [e1]
      dsimp only
      have s := pstageOf_spec h k p hU
      cases hst : pstageOf c k r p with
      | mk res rest =>
      obtain ⟨r1, id⟩ := rest
      rw [hst] at s
      dsimp only at s ⊢
      cases res with
      | undef => exact absurd rfl s.noundef
      | err x => exact hq _ _ _ s.mild.quiet
      | ok =>
        dsimp only
        obtain ⟨n, b1, b2, b3, _⟩ := s.file
        rw [b1]
        dsimp only
        refine good_quiet s.mild.quiet _ _ ?_ ?_
        · exact (preadn_loop (r1.disk.node n).cur len off k.data [] (Nat.zero_le _) (got_nil _ _)).2.1
        · intro nm hnm
          cases hnm
          exact ⟨rfl, fun hr => ⟨_, b3, C53_read _ _ _ k.data _ (by dsimp only at hr; rw [← hr])⟩⟩
    · rw [e1]; exact hq _ _ _ (Mild.refl h).quiet
  · rw [e]; exact hq _ _ _ (Mild.refl h).quiet

theorem premove_good {c : Cfg} {U : Name → Prop} (hi : PathInj c U) {r : Repo} (h : Inv c U r) (k : K) (p : Psid) (hU : U (.pseg p)) :
    Good c U r (.premove p) ⟨(premove c k r p).1, [], 0⟩ (premove c k r p).2 := by
  have hq : ∀ r' x, Quiet c U r r' → Good c U r (.premove p) ⟨.err x, [], 0⟩ r' := fun r' x q =>
    good_quiet q _ _ (by simp) (fun nm _ => by simp [Own])
  unfold premove
  rcases checkOpen_cases r true with e | ⟨x, e⟩
  · rw [e]
    dsimp only
    rcases hasPseg_cases h k p with ⟨e1, e2⟩ | ⟨e0, e1, _⟩
    · rw [e1]
      dsimp only
      have s := pstageOf_spec h k p hU
      cases hst : pstageOf c k r p with
      | mk res rest =>
      obtain ⟨r1, id⟩ := rest
      rw [hst] at s
      dsimp only at s ⊢
      cases res with
      | undef => exact absurd rfl s.noundef
      | err x => exact hq _ _ s.mild.quiet
      | ok =>
        dsimp only
        obtain ⟨f1, f2⟩ := s.found rfl
        obtain ⟨n, b1, b2, b3, _⟩ := s.file
        rw [b1]
        dsimp only
        have hi1 := s.mild.inv
        have hcm := content_modify hi hi1.dk hU b2 (truncFile (r1.disk.node n).cur 0) false
        have hmod := hi1.modify hi hU b2 (truncFile (r1.disk.node n).cur 0) false (tail_trunc _ _) (fun _ => trunc_zero _) (fun _ _ _ e _ => by cases e)
        by_cases h1 : k.trunc ≠ 0
        · rw [if_pos h1]; exact hq _ _ s.mild.quiet
        · rw [if_neg h1]
          by_cases h2 : k.unlink ≠ 0
          · rw [if_pos h2]
            refine good_change hmod _ _ (by simp) (.pseg p) rfl _ hcm.1 ?_ ?_
            · intro nm' hU' hne
              rw [hcm.2 nm' hU' hne, content_same s.mild.same]
            · rw [b3]
              exact Or.inr ⟨_, _, rfl, rfl, rfl, trunc_zero _⟩
          · rw [if_neg h2]
            dsimp only
            have hcu := content_unlink hi (d := r1.disk.modify n (truncFile (r1.disk.node n).cur 0) false) hU
            have hsame := same_close k ((r1.disk.modify n (truncFile (r1.disk.node n).cur 0) false).unlink (pathOf c (.pseg p))) (r1.heap id)
            have hst2 := evict_struct (r := { r1 with disk := (r1.disk.modify n (truncFile (r1.disk.node n).cur 0) false).unlink (pathOf c (.pseg p)) })
              ⟨hi1.st.nodup, hi1.st.slot, hi1.st.snodup, hi1.st.lt, hi1.st.uniq, hi1.st.used⟩ k id
            refine good_change ⟨hst2, (hmod.dk.unlink _).same hsame, ?_⟩ _ _ (by simp) (.pseg p) rfl none ?_ ?_ ?_
            · have hb : Bind c ((r1.disk.modify n (truncFile (r1.disk.node n).cur 0) false).unlink (pathOf c (.pseg p))) { r1 with lruq := r1.lruq.erase id } := by
                refine Bind.unlink (r := { r1 with lruq := r1.lruq.erase id }) ?_ _ ?_
                · intro x hx
                  exact hmod.bd x (hi1.st.nodup.mem_erase_iff.mp hx).2
                · intro x hx hp
                  obtain ⟨x1, x2⟩ := hi1.st.nodup.mem_erase_iff.mp hx
                  exact x1 (hi1.st.uniq x id x2 f1 ((hi _ _ (hi1.st.used x x2).1 hU hp).trans f2.symm))
              exact hb.same hsame
            · exact (congrFun (content_same hsame) _).trans hcu.1
            · intro nm' hU' hne
              refine (congrFun (content_same hsame) _).trans ((hcu.2 nm' hU' hne).trans ?_)
              rw [hcm.2 nm' hU' hne, content_same s.mild.same]
            · simp only [Own, if_true]
              exact ⟨e2, trivial⟩
    · rw [e1]; exact hq _ _ (Mild.refl h).quiet
  · rw [e]; exact hq _ _ (Mild.refl h).quiet

/-! ### Storing safely -/

theorem fsyncEnt_same (k : K) (d : Disk) (e : Ent) : Same d (fsyncEnt k d e).2 := by
  unfold fsyncEnt
  split
  · split
    · exact Same.refl d
    · exact same_fsync _ _ _
  · exact same_fsync _ _ _
  · exact Same.refl d

theorem fsyncList_same (k : K) (heap : Nat → Ent) : ∀ ids ret d, Same d (fsyncList k heap ids ret d).2 := by
  intro ids
  induction ids with
  | nil => intro ret d; exact Same.refl d
  | cons id ids ih =>
    intro ret d
    unfold fsyncList
    exact (fsyncEnt_same k d _).trans (ih _ _)

theorem fsyncAll_mild {c : Cfg} {U : Name → Prop} {r : Repo} (h : Inv c U r) (k : K) : Mild c U r (fsyncAll k r).2 := by
  have hs := fsyncList_same k r.heap r.lruq.reverse 0 r.disk
  exact ⟨⟨⟨h.st.nodup, h.st.slot, h.st.snodup, h.st.lt, h.st.uniq, h.st.used⟩, h.dk.same hs, Bind.same (r := r) h.bd hs⟩, hs, rfl, rfl⟩

/-! ### All operations -/

/-- C54: every operation keeps the invariant of the repository, and its answer and its effect are
what the map from names to contents allows. -/
theorem C54_step {c : Cfg} {U : Name → Prop} (hi : PathInj c U) {r : Repo} (h : Inv c U r) (k : K) (op : Op) (hw : WellFormed U k op) :
    Inv c U (step c r k op).2 ∧ Allowed U (content c r.disk) op (step c r k op).1 (content c (step c r k op).2.disk) := by
  obtain ⟨hU, h2, h3, hw⟩ := hw
  have hk : k.stat ≠ SENOENT := by unfold SENOENT; omega
  cases op with
  | spawn l =>
    have hU := hU _ rfl
    show Good c U r (.spawn l) _ _
    rcases spawn_spec hi h k l hU with ⟨q, x2, e2⟩ | ⟨e2, q, hne⟩ | ⟨e2, hno, hinv, hop, hlk, ⟨f, hf, hz, hsz⟩, hoth⟩
    · exact good_quiet q _ _ (by simp [step, e2]) (fun nm hnm => by simp [Own, step, e2])
    · refine good_quiet q.quiet _ _ (by simp [step, e2]) ?_
      intro nm hnm
      cases hnm
      show (if (spawn c k r l).1 = .ok then _ else _)
      rw [if_pos e2]
      cases hcc : content c r.disk (.lseg l) with
      | none => exact absurd hcc hne
      | some f => exact rfl
    · refine good_change hinv _ _ (by simp [step, e2]) (.lseg l) rfl (some f) hf hoth ?_
      show (if (spawn c k r l).1 = .ok then _ else _)
      rw [if_pos e2, hno]
      exact ⟨f, rfl, hz, hsz⟩
  | stage rw l =>
    obtain ⟨m1, m2, m3⟩ := stage_good h k rw l (hU _ rfl)
    refine good_quiet m1.quiet _ _ m2 ?_
    intro nm hnm; cases hnm
    exact ⟨rfl, m3⟩
  | stat cache l =>
    obtain ⟨m1, m2, _⟩ := statLseg_good h k l cache
    refine good_quiet (Mild.refl h).quiet _ _ m1 ?_
    intro nm hnm; cases hnm
    exact ⟨rfl, m2⟩
  | remove l => exact remove_good hi h k l (hU _ rfl)
  | punch l => exact punch_good hi h k l (hU _ rfl) hw
  | require l => exact require_good hi h k l (hU _ rfl)
  | requireAt l pos len => exact requireLaddr_good hi h k l (hU _ rfl) pos len
  | write l pos bufs => exact write_good hi h k l (hU _ rfl) pos bufs hw
  | read l pos len => exact read_good h k l (hU _ rfl) pos len
  | save nm l => exact save_good hi h k nm (hU _ rfl) hw.1 l
  | load nm len => exact load_good h k nm len
  | unlink nm => exact unlinkObj_good hi h k nm (hU _ rfl) hw.1 hw.2
  | size nm => exact statObj_good h k nm
  | pcreate p => exact pcreate_good hi h k p (hU _ rfl) h2 hk
  | pstage p => exact pstage_good h k p (hU _ rfl)
  | psave p off l => exact psave_good hi h k p (hU _ rfl) off l
  | pload p off len => exact pload_good h k p (hU _ rfl) off len
  | premove p => exact premove_good hi h k p (hU _ rfl)
  | pflush p => exact pflush_good h k p (hU _ rfl)
  | relax => exact good_quiet (evictSome_less k r 1 h).mild.quiet _ _ (by simp [step]) (fun nm hnm => by cases hnm)
  | drop =>
    have hm := fsyncAll_mild h k
    exact good_quiet (hm.trans (evictSome_less k _ _ hm.inv).mild).quiet _ _ (by simp [step]) (fun nm hnm => by cases hnm)
  | sync =>
    exact good_quiet (fsyncAll_mild h k).quiet _ _ (by simp only [step]; split <;> simp) (fun nm hnm => by cases hnm)

end Silofs.Repo
