import Verif.Props.RepoDisk
/-
Every operation of the repository does what the map of names to contents allows.
-/
set_option linter.unusedSimpArgs false
namespace Silofs.Repo
open Silofs Silofs.Addr Silofs.Sysio

/-- An operation that kept the invariant and did what is allowed. -/
def Good (c : Cfg) (U : Name → Prop) (r : Repo) (op : Op) (o : Out) (r' : Repo) : Prop :=
  Inv c U r' ∧ Allowed U (content c r.disk) op o (content c r'.disk)

theorem good_change {c : Cfg} {U : Name → Prop} {r r' : Repo} (h : Inv c U r') (op : Op) (o : Out) (hn : o.res ≠ .undef) (nm : Name)
    (ht : target op = some nm) (x : Option File) (hx : content c r'.disk nm = x)
    (hf : ∀ nm', U nm' → nm' ≠ nm → content c r'.disk nm' = content c r.disk nm') (ho : Own op o (content c r.disk nm) x) :
    Good c U r op o r' := by
  refine ⟨h, hn, ?_, ?_⟩
  · intro nm' ht'
    rw [ht] at ht'; cases ht'
    rw [hx]; exact ho
  · intro nm' hU hne
    apply hf nm' hU
    intro e; subst e; exact hne ht

/-- An operation that changed no content. -/
structure Quiet (c : Cfg) (U : Name → Prop) (r r' : Repo) : Prop where
  inv : Inv c U r'
  same : content c r'.disk = content c r.disk
  ro : r'.ro = r.ro
  opened : r'.opened = r.opened

theorem Mild.quiet {c : Cfg} {U : Name → Prop} {r r' : Repo} (m : Mild c U r r') : Quiet c U r r' :=
  ⟨m.inv, content_same m.same, m.ro, m.opened⟩

theorem good_quiet {c : Cfg} {U : Name → Prop} {r r' : Repo} (m : Quiet c U r r') (op : Op) (o : Out) (hn : o.res ≠ .undef)
    (ho : ∀ nm, target op = some nm → Own op o (content c r.disk nm) (content c r.disk nm)) : Good c U r op o r' := by
  refine ⟨m.inv, hn, ?_, ?_⟩
  · rw [m.same]; exact ho
  · intro nm _ _; rw [m.same]

theorem checkOpen_cases (r : Repo) (rw : Bool) : checkOpen r rw = .ok ∨ ∃ e, checkOpen r rw = .err e := by
  unfold checkOpen
  split
  · exact Or.inr ⟨_, rfl⟩
  · split
    · exact Or.inr ⟨_, rfl⟩
    · exact Or.inl rfl

theorem checkRange_cases (l : Lsid) (off len : Nat) : checkRange l off len = .ok ∨ ∃ e, checkRange l off len = .err e := by
  unfold checkRange
  split
  · exact Or.inr ⟨_, rfl⟩
  · exact Or.inl rfl

/-! ### Bringing segments into the cache -/

theorem openLsegOf_spec {c : Cfg} {U : Name → Prop} {r : Repo} (h : Inv c U r) (k : K) (rw : Bool) (l : Lsid) (hU : U (.lseg l))
    (hk : ∀ id, id ∈ r.lruq → (r.heap id).key ≠ .lseg l) :
    (∃ e : Ent, openLsegOf c k (newEnt c r (.lseg l)) r.nent rw l = (.ok, insert c r e r.disk) ∧ e.key = .lseg l ∧ e.rdonly = !rw ∧
      Inv c U (insert c r e r.disk)) ∨
    (∃ (x : Nat) (e : Ent), openLsegOf c k (newEnt c r (.lseg l)) r.nent rw l = (.err x, insert c r e r.disk)) := by
  unfold openLsegOf
  cases hd : r.disk.dir (pathOf c (.lseg l)) with
  | none =>
    have hdd : (newEnt c r (.lseg l)).disk.dir (pathOf c (.lseg l)) = none := hd
    rw [hdd]
    right; exact ⟨_, _, congrArg _ (newEnt_insert c r _)⟩
  | some n =>
    have hdd : (newEnt c r (.lseg l)).disk.dir (pathOf c (.lseg l)) = some n := hd
    rw [hdd]
    dsimp only
    by_cases h1 : k.openf ≠ 0
    · right; rw [if_pos h1]; exact ⟨_, _, congrArg _ (newEnt_insert c r _)⟩
    · rw [if_neg h1]
      by_cases h2 : k.stat ≠ 0
      · right; rw [if_pos h2]; exact ⟨_, _, congrArg _ (setEnt_insert c r _ _ rfl)⟩
      · rw [if_neg h2]
        by_cases h3 : ((newEnt c r (.lseg l)).disk.node n).cur.size % LBK ≠ 0
        · right; rw [if_pos h3]; exact ⟨_, _, congrArg _ (setEnt_insert c r _ _ rfl)⟩
        · rw [if_neg h3]
          by_cases h4 : ((newEnt c r (.lseg l)).disk.node n).cur.size > l.lsize + LBK
          · right; rw [if_pos h4]; exact ⟨_, _, congrArg _ (setEnt_insert c r _ _ rfl)⟩
          · left
            rw [if_neg h4]
            refine ⟨_, congrArg _ (setEnt_insert c r _ _ rfl), rfl, rfl, ?_⟩
            exact insert_inv h.st _ _ h.dk h.bd hU trivial hk n rfl hd (fun _ _ => rfl)

/-- What bringing a segment into the cache gives. -/
structure Staged (c : Cfg) (U : Name → Prop) (r : Repo) (key : Name) (res : Res) (r1 : Repo) (id : Nat) : Prop where
  mild : Mild c U r r1
  noundef : res ≠ .undef
  found : res = .ok → id ∈ r1.lruq ∧ (r1.heap id).key = key

theorem stageOf_spec {c : Cfg} {U : Name → Prop} {r : Repo} (h : Inv c U r) (k : K) (rw : Bool) (l : Lsid) (hU : U (.lseg l)) :
    Staged c U r (.lseg l) (stageOf c k r rw l).1 (stageOf c k r rw l).2.1 (stageOf c k r rw l).2.2 := by
  unfold stageOf
  cases e : lookup c r (.lseg l) with
  | some id =>
    dsimp only
    obtain ⟨h1, h2⟩ := lookup_some h.st e
    obtain ⟨a1, a2, a3, a4, _⟩ := requeue_inv h id h1
    exact ⟨requeue_mild h id h1, by simp, fun _ => ⟨(a2 id).mpr h1, by rw [a4]; exact h2⟩⟩
  | none =>
    dsimp only
    unfold openLseg
    have hl := overpop_less k r h
    have hk : ∀ id, id ∈ (overpop c k r).lruq → ((overpop c k r).heap id).key ≠ .lseg l := by
      intro id hid
      rw [hl.heap]
      exact lookup_none h.st e id (hl.sub id hid)
    rcases openLsegOf_spec hl.inv k rw l hU hk with ⟨en, q1, q2, _, q3⟩ | ⟨x, en, q1⟩
    · rw [q1]
      dsimp only
      refine ⟨⟨q3, hl.same, hl.ro, hl.opened⟩, by simp, fun _ => ⟨List.mem_cons_self, ?_⟩⟩
      rw [insert_heap, if_pos rfl]; exact q2
    · rw [q1]
      dsimp only
      refine ⟨⟨fail_inv hl.inv.st k en _ hl.inv.dk hl.inv.bd, ?_, hl.ro, hl.opened⟩, by simp, by simp⟩
      rw [(insert_evict hl.inv.st k en _).2.2]
      exact hl.same.trans (same_close _ _ _)

theorem pstageOf_spec {c : Cfg} {U : Name → Prop} {r : Repo} (h : Inv c U r) (k : K) (p : Psid) (hU : U (.pseg p)) :
    Staged c U r (.pseg p) (pstageOf c k r p).1 (pstageOf c k r p).2.1 (pstageOf c k r p).2.2 := by
  unfold pstageOf
  cases e : lookup c r (.pseg p) with
  | some id =>
    dsimp only
    obtain ⟨h1, h2⟩ := lookup_some h.st e
    obtain ⟨a1, a2, a3, a4, _⟩ := requeue_inv h id h1
    exact ⟨requeue_mild h id h1, by simp, fun _ => ⟨(a2 id).mpr h1, by rw [a4]; exact h2⟩⟩
  | none =>
    dsimp only
    have hl := overpop_less k r h
    have hk : ∀ id, id ∈ (overpop c k r).lruq → ((overpop c k r).heap id).key ≠ .pseg p := by
      intro id hid
      rw [hl.heap]
      exact lookup_none h.st e id (hl.sub id hid)
    have hf : ∀ x, Staged c U r (.pseg p) (.err x) (evict c k (newEnt c (overpop c k r) (.pseg p)) (overpop c k r).nent) (overpop c k r).nent := by
      intro x
      rw [newEnt_insert]
      refine ⟨⟨fail_inv hl.inv.st k _ _ hl.inv.dk hl.inv.bd, ?_, hl.ro, hl.opened⟩, by simp, by simp⟩
      rw [(insert_evict hl.inv.st k _ _).2.2]
      exact hl.same.trans (same_close _ _ _)
    cases hd : (overpop c k r).disk.dir (pathOf c (.pseg p)) with
    | none => exact hf _
    | some n =>
      dsimp only
      by_cases h1 : k.openf ≠ 0
      · rw [if_pos h1]; exact hf _
      · rw [if_neg h1]
        dsimp only
        rw [setEnt_insert c (overpop c k r) (.pseg p) ⟨.pseg p, 0, some n, false⟩ rfl]
        refine ⟨⟨?_, hl.same, hl.ro, hl.opened⟩, by simp, fun _ => ⟨List.mem_cons_self, ?_⟩⟩
        · exact insert_inv hl.inv.st _ _ hl.inv.dk hl.inv.bd hU trivial hk n rfl hd (fun l hl => by cases hl)
        · rw [insert_heap, if_pos rfl]

/-- The file of a cached segment. -/
theorem Staged.file {c : Cfg} {U : Name → Prop} {r r1 : Repo} {key : Name} {id : Nat} (s : Staged c U r key .ok r1 id) :
    ∃ n, (r1.heap id).fd = some n ∧ r1.disk.dir (pathOf c key) = some n ∧ content c r.disk key = some (r1.disk.node n).cur ∧
      ∀ l, key = .lseg l → (r1.disk.node n).cur.size = (r1.heap id).size := by
  obtain ⟨h1, h2⟩ := s.found rfl
  obtain ⟨n, a1, a2, a3⟩ := s.mild.inv.bd id h1
  rw [h2] at a2 a3
  exact ⟨n, a1, a2, by rw [← content_same s.mild.same, content_some a2], a3⟩

/-! ### Segments of volumes -/

theorem stage_good {c : Cfg} {U : Name → Prop} {r : Repo} (h : Inv c U r) (k : K) (rw : Bool) (l : Lsid) (hU : U (.lseg l)) :
    Mild c U r (stage c k r rw l).2 ∧ (stage c k r rw l).1 ≠ .undef ∧ ((stage c k r rw l).1 = .ok → content c r.disk (.lseg l) ≠ none) := by
  unfold stage
  rcases checkOpen_cases r false with e | ⟨x, e⟩
  · rw [e]
    have s := stageOf_spec h k rw l hU
    refine ⟨s.mild, s.noundef, ?_⟩
    intro ho
    dsimp only at ho
    rw [ho] at s
    obtain ⟨n, _, _, h3, _⟩ := s.file
    rw [h3]; simp
  · rw [e]
    exact ⟨Mild.refl h, by simp, by simp⟩

theorem statLseg_good {c : Cfg} {U : Name → Prop} {r : Repo} (h : Inv c U r) (k : K) (l : Lsid) (cache : Bool) :
    (statLseg c k r l cache).1 ≠ .undef ∧
    ((statLseg c k r l cache).1 = .ok → ∃ f, content c r.disk (.lseg l) = some f ∧ (statLseg c k r l cache).2 = f.size) ∧
    (k.stat ≠ 2 → (statLseg c k r l cache).1 = .err SENOENT → content c r.disk (.lseg l) ≠ none → k.stat = SENOENT) := by
  unfold statLseg
  rcases checkOpen_cases r false with e | ⟨x, e⟩
  · rw [e]
    dsimp only
    have hdir : (match r.disk.dir (pathOf c (.lseg l)) with
      | none => (Res.err SENOENT, 0)
      | some n =>
        if k.stat ≠ 0 then (.err (if k.stat = ENOENT then SENOENT else k.stat), 0)
        else if (r.disk.node n).cur.size > l.lsize + LBK then (.err SEIO, 0)
        else (.ok, (r.disk.node n).cur.size)).1 ≠ .undef ∧
      ((match r.disk.dir (pathOf c (.lseg l)) with
      | none => (Res.err SENOENT, 0)
      | some n =>
        if k.stat ≠ 0 then (.err (if k.stat = ENOENT then SENOENT else k.stat), 0)
        else if (r.disk.node n).cur.size > l.lsize + LBK then (.err SEIO, 0)
        else (.ok, (r.disk.node n).cur.size)).1 = .ok → ∃ f, content c r.disk (.lseg l) = some f ∧ (match r.disk.dir (pathOf c (.lseg l)) with
      | none => (Res.err SENOENT, 0)
      | some n =>
        if k.stat ≠ 0 then (.err (if k.stat = ENOENT then SENOENT else k.stat), 0)
        else if (r.disk.node n).cur.size > l.lsize + LBK then (.err SEIO, 0)
        else (.ok, (r.disk.node n).cur.size)).2 = f.size) ∧
      (k.stat ≠ 2 → (match r.disk.dir (pathOf c (.lseg l)) with
      | none => (Res.err SENOENT, 0)
      | some n =>
        if k.stat ≠ 0 then (.err (if k.stat = ENOENT then SENOENT else k.stat), 0)
        else if (r.disk.node n).cur.size > l.lsize + LBK then (.err SEIO, 0)
        else (.ok, (r.disk.node n).cur.size)).1 = .err SENOENT → content c r.disk (.lseg l) ≠ none → k.stat = SENOENT) := by
      cases hd : r.disk.dir (pathOf c (.lseg l)) with
      | none => exact ⟨by simp, by simp, fun _ _ hc => absurd (content_none hd) hc⟩
      | some n =>
        dsimp only
        by_cases h1 : k.stat ≠ 0
        · rw [if_pos h1]
          refine ⟨by simp, by simp, ?_⟩
          intro h2 h3 _
          dsimp only at h3
          rw [if_neg (show ¬ k.stat = ENOENT from h2)] at h3
          injection h3
        · rw [if_neg h1]
          by_cases h2 : (r.disk.node n).cur.size > l.lsize + LBK
          · rw [if_pos h2]; refine ⟨by simp, by simp, ?_⟩; intro _ h3; exact absurd h3 (by simp [SEIO, SENOENT])
          · rw [if_neg h2]; exact ⟨by simp, fun _ => ⟨_, content_some hd, rfl⟩, by simp⟩
    cases hlk : lookup c r (.lseg l) with
    | none => cases cache <;> exact hdir
    | some id =>
      cases cache with
      | false => exact hdir
      | true =>
        dsimp only
        obtain ⟨a1, a2⟩ := lookup_some h.st hlk
        obtain ⟨n, b1, b2, _⟩ := h.bd id a1
        rw [a2] at b2
        rw [b1]
        dsimp only
        by_cases h1 : k.stat ≠ 0
        · rw [if_pos h1]
          refine ⟨by simp, by simp, ?_⟩
          intro _ h3 _
          injection h3
        · rw [if_neg h1]; exact ⟨by simp, fun _ => ⟨_, content_some b2, rfl⟩, by simp⟩
  · rw [e]
    refine ⟨by simp, by simp, ?_⟩
    intro _ h3
    dsimp only at h3
    unfold checkOpen at e
    exfalso
    split at e
    · injection e with e; injection h3 with h3; rw [← e] at h3; exact absurd h3 (by decide)
    · split at e
      · injection e with e; injection h3 with h3; rw [← e] at h3; exact absurd h3 (by decide)
      · cases e

theorem spawn_spec {c : Cfg} {U : Name → Prop} (hi : PathInj c U) {r : Repo} (h : Inv c U r) (k : K) (l : Lsid) (hU : U (.lseg l)) :
    (Quiet c U r (spawn c k r l).2 ∧ (∃ e, (spawn c k r l).1 = .err e)) ∨
    ((spawn c k r l).1 = .ok ∧ Mild c U r (spawn c k r l).2 ∧ content c r.disk (.lseg l) ≠ none) ∨
    ((spawn c k r l).1 = .ok ∧ content c r.disk (.lseg l) = none ∧ Inv c U (spawn c k r l).2 ∧ 
      (spawn c k r l).2.opened = r.opened ∧ lookup c (spawn c k r l).2 (.lseg l) ≠ none ∧
      (∃ f, content c (spawn c k r l).2.disk (.lseg l) = some f ∧ AllZero f ∧ l.lsize ≤ f.size ∧ f.size < l.lsize + 65536 ∧ f.size % 65536 = 0) ∧
      ∀ nm', U nm' → nm' ≠ .lseg l → content c (spawn c k r l).2.disk nm' = content c r.disk nm') := by
  unfold spawn
  rcases checkOpen_cases r true with e | ⟨x, e⟩
  · rw [e]
    dsimp only
    cases hlk : lookup c r (.lseg l) with
    | some id =>
      dsimp only
      obtain ⟨h1, h2⟩ := lookup_some h.st hlk
      right; left
      refine ⟨rfl, requeue_mild h id h1, ?_⟩
      obtain ⟨n, b1, b2, _⟩ := h.bd id h1
      rw [h2] at b2
      rw [content_some b2]; simp
    | none =>
      dsimp only
      have hl := overpop_less k r h
      have hk : ∀ id, id ∈ (overpop c k r).lruq → ((overpop c k r).heap id).key ≠ .lseg l := by
        intro id hid
        rw [hl.heap]
        exact lookup_none h.st hlk id (hl.sub id hid)
      have hf : ∀ (x : Nat) (en : Ent), (Quiet c U r (evict c k (insert c (overpop c k r) en (overpop c k r).disk) (overpop c k r).nent) ∧ ∃ e, Res.err x = .err e) := by
        intro x en
        refine ⟨Mild.quiet ⟨fail_inv hl.inv.st k _ _ hl.inv.dk hl.inv.bd, ?_, hl.ro, hl.opened⟩, ⟨x, rfl⟩⟩
        rw [(insert_evict hl.inv.st k _ _).2.2]
        exact hl.same.trans (same_close _ _ _)
      unfold createLsegOf
      cases hd : (overpop c k r).disk.dir (pathOf c (.lseg l)) with
      | some n =>
        have hdd : (newEnt c (overpop c k r) (.lseg l)).disk.dir (pathOf c (.lseg l)) = some n := hd
        rw [hdd]
        dsimp only
        left
        rw [newEnt_insert]
        exact hf _ _
      | none =>
        have hdd : (newEnt c (overpop c k r) (.lseg l)).disk.dir (pathOf c (.lseg l)) = none := hd
        rw [hdd]
        dsimp only
        by_cases h1 : k.stat ≠ 0 ∧ k.stat ≠ ENOENT
        · rw [if_pos h1]; left; dsimp only; rw [newEnt_insert]; exact hf _ _
        · rw [if_neg h1]
          by_cases h2 : k.openf ≠ 0
          · rw [if_pos h2]; left; dsimp only; rw [newEnt_insert]; exact hf _ _
          · rw [if_neg h2, creat_none hdd]
            dsimp only
            have hdk := hl.inv.dk.made (pathOf c (.lseg l))
            have hbd := hl.inv.bd.made hl.inv.dk (pathOf c (.lseg l)) hd
            have hc0 := content_made hi hl.inv.dk hU
            by_cases h3 : k.trunc ≠ 0
            · rw [if_pos h3]
              dsimp only
              left
              refine ⟨?_, ⟨_, rfl⟩⟩
              -- made and removed again
              have hbd2 : Bind c ((made (overpop c k r).disk (pathOf c (.lseg l))).unlink (pathOf c (.lseg l))) (overpop c k r) := by
                apply hbd.unlink
                intro id hid hp
                obtain ⟨n, _, b2, _⟩ := hl.inv.bd id hid
                rw [hp, hd] at b2; cases b2
              have hfi := fail_inv hl.inv.st k ⟨.lseg l, 0, some (overpop c k r).disk.next, false⟩ _ (hdk.unlink _) hbd2
              have hdisk := (insert_evict hl.inv.st k ⟨.lseg l, 0, some (overpop c k r).disk.next, false⟩
                ((made (overpop c k r).disk (pathOf c (.lseg l))).unlink (pathOf c (.lseg l)))).2.2
              refine ⟨hfi, ?_, hl.ro, hl.opened⟩
              refine (congrArg (content c) hdisk).trans ?_
              rw [content_same (same_close _ _ _), ← content_same hl.same]
              funext nm
              by_cases hp : pathOf c nm = pathOf c (.lseg l)
              · rw [content_none (by show (if _ then _ else _) = _; rw [if_pos hp]), content_none (by rw [hp]; exact hd)]
              · unfold content
                show ((if pathOf c nm = pathOf c (.lseg l) then none else
                  (if pathOf c nm = pathOf c (.lseg l) then some _ else (overpop c k r).disk.dir (pathOf c nm)))).map _ = _
                rw [if_neg hp, if_neg hp]
                cases em : (overpop c k r).disk.dir (pathOf c nm) with
                | none => rfl
                | some m =>
                  simp only [Option.map_some]
                  show some ((if m = (overpop c k r).disk.next then _ else (overpop c k r).disk.node m : Node)).cur = _
                  rw [if_neg (Nat.ne_of_lt (hl.inv.dk.lt _ _ em))]
            · rw [if_neg h3]
              dsimp only
              right; right
              have hz : AllZero (truncFile noBytes (alignUp l.lsize)) := trunc_allZero (fun _ => rfl) _
              have hdk2 := hdk.modify (overpop c k r).disk.next (truncFile noBytes (alignUp l.lsize)) false (tail_trunc _ _) (fun _ => hz)
              have hbd2 : Bind c ((made (overpop c k r).disk (pathOf c (.lseg l))).modify (overpop c k r).disk.next (truncFile noBytes (alignUp l.lsize)) false)
                  (overpop c k r) := by
                apply hbd.modify
                intro id l' hid hkey hdir
                exfalso
                apply hk id hid
                rw [hkey]
                exact hi _ _ (hkey ▸ (hl.inv.st.used id hid).1) hU (hdk.inj _ _ _ hdir (made_dir _ _))
              have hci := content_modify hi hdk hU (made_dir (overpop c k r).disk (pathOf c (.lseg l))) (truncFile noBytes (alignUp l.lsize)) false
              have hins := insert_inv (e := ⟨.lseg l, alignUp l.lsize, some (overpop c k r).disk.next, false⟩) hl.inv.st
                ((made (overpop c k r).disk (pathOf c (.lseg l))).modify (overpop c k r).disk.next (truncFile noBytes (alignUp l.lsize)) false)
                hdk2 hbd2 hU trivial hk (overpop c k r).disk.next rfl (made_dir _ _)
                (fun _ _ => by rw [node_modify, if_pos rfl]; rfl)
              refine ⟨rfl, ?_, hins, hl.opened, ?_, ⟨_, hci.1, hz, alignUp_ge _, alignUp_lt _, alignUp_dvd _⟩, ?_⟩
              · rw [← content_same hl.same]; exact content_none hd
              · have := (lookup_iff hins.st (.lseg l) (overpop c k r).nent).mpr ⟨List.mem_cons_self, by rw [insert_heap, if_pos rfl]⟩
                intro hno
                exact absurd (this.symm.trans hno) (by simp)
              · intro nm' hU' hne
                rw [← content_same hl.same, ← hc0.2 nm' hU' hne]
                exact hci.2 nm' hU' hne
  · rw [e]
    exact Or.inl ⟨(Mild.refl h).quiet, ⟨x, rfl⟩⟩

theorem remove_good {c : Cfg} {U : Name → Prop} (hi : PathInj c U) {r : Repo} (h : Inv c U r) (k : K) (l : Lsid) (hU : U (.lseg l)) :
    Good c U r (.remove l) ⟨(remove c k r l).1, [], 0⟩ (remove c k r l).2 := by
  have hq : ∀ e, Good c U r (.remove l) ⟨.err e, [], 0⟩ r := fun e =>
    good_quiet (Mild.refl h).quiet _ _ (by simp) (fun nm _ => by simp [Own])
  unfold remove
  rcases checkOpen_cases r true with e | ⟨x, e⟩
  · rw [e]
    dsimp only
    cases hd : r.disk.dir (pathOf c (.lseg l)) with
    | none => exact hq _
    | some n =>
      dsimp only
      by_cases h1 : k.stat ≠ 0
      · rw [if_pos h1]; exact hq _
      · rw [if_neg h1]
        by_cases h2 : k.unlink ≠ 0
        · rw [if_pos h2]; exact hq _
        · rw [if_neg h2]
          have hcu := content_unlink hi (d := r.disk) hU
          have hown : Own (.remove l) ⟨.ok, [], 0⟩ (content c r.disk (.lseg l)) none := by
            simp only [Own, if_true]
            rw [content_some hd]; simp
          cases hlk : lookup c r (.lseg l) with
          | none =>
            dsimp only
            refine good_change ?_ _ _ (by simp) (.lseg l) rfl none hcu.1 hcu.2 hown
            refine ⟨⟨h.st.nodup, h.st.slot, h.st.snodup, h.st.lt, h.st.uniq, h.st.used⟩, h.dk.unlink _, ?_⟩
            refine Bind.unlink (r := r) h.bd _ ?_
            intro id hid hp
            exact lookup_none h.st hlk id hid (hi _ _ (h.st.used id hid).1 hU hp)
          | some id =>
            dsimp only
            obtain ⟨a1, a2⟩ := lookup_some h.st hlk
            have hsame := same_close k (r.disk.unlink (pathOf c (.lseg l))) (r.heap id)
            have hst := evict_struct (r := { r with disk := r.disk.unlink (pathOf c (.lseg l)) })
              ⟨h.st.nodup, h.st.slot, h.st.snodup, h.st.lt, h.st.uniq, h.st.used⟩ k id
            refine good_change ⟨hst, (h.dk.unlink _).same hsame, ?_⟩ _ _ (by simp) (.lseg l) rfl none
              ?_ ?_ hown
            · have hb : Bind c (r.disk.unlink (pathOf c (.lseg l))) { r with lruq := r.lruq.erase id } := by
                refine Bind.unlink (r := { r with lruq := r.lruq.erase id }) ?_ _ ?_
                · intro x hx
                  exact h.bd x (h.st.nodup.mem_erase_iff.mp hx).2
                · intro x hx hp
                  obtain ⟨x1, x2⟩ := h.st.nodup.mem_erase_iff.mp hx
                  exact x1 (h.st.uniq x id x2 a1 ((hi _ _ (h.st.used x x2).1 hU hp).trans a2.symm))
              exact hb.same hsame
            · exact (congrFun (content_same hsame) _).trans hcu.1
            · intro nm' hU' hne
              exact (congrFun (content_same hsame) _).trans (hcu.2 nm' hU' hne)
  · rw [e]; exact hq _

theorem Inv.modify {c : Cfg} {U : Name → Prop} (hi : PathInj c U) {r : Repo} (h : Inv c U r) {nm : Name} {n : Nat} (hU : U nm)
    (hn : r.disk.dir (pathOf c nm) = some n) (f : File) (b : Bool) (ht : Tail f) (hz : b = false → AllZero f)
    (hs : ∀ id l, id ∈ r.lruq → nm = .lseg l → (r.heap id).key = nm → f.size = (r.heap id).size) :
    Inv c U { r with disk := r.disk.modify n f b } := by
  refine ⟨⟨h.st.nodup, h.st.slot, h.st.snodup, h.st.lt, h.st.uniq, h.st.used⟩, h.dk.modify n f b ht hz, ?_⟩
  refine Bind.modify (r := r) h.bd n f b ?_
  intro id l hid hk hd
  have e : Name.lseg l = nm := hi _ _ (hk ▸ (h.st.used id hid).1) hU (h.dk.inj _ _ _ hd hn)
  exact hs id l hid e.symm (hk.trans e)

/-! #### Room -/

/-- An element of the cache gets a new size. -/
theorem Struct.setSize {c : Cfg} {U : Name → Prop} {r : Repo} (h : Struct c U r) (id sz : Nat) (d : Disk) :
    Struct c U (setEnt { r with disk := d } id { r.heap id with size := sz }) := by
  have hk : ∀ x, ((setEnt { r with disk := d } id { r.heap id with size := sz }).heap x).key = (r.heap x).key := by
    intro x
    show ((if x = id then _ else r.heap x : Ent)).key = _
    by_cases e : x = id
    · rw [if_pos e, e]
    · rw [if_neg e]
  refine ⟨h.nodup, ?_, h.snodup, h.lt, ?_, ?_⟩
  · intro s x; rw [hk]; exact h.slot s x
  · intro a b; rw [hk, hk]; exact h.uniq a b
  · intro x; rw [hk]; exact h.used x

/-- What asking for room in a cached segment gives. -/
structure Roomy (c : Cfg) (U : Name → Prop) (r : Repo) (l : Lsid) (id n : Nat) (want : Nat) (r1 : Repo) : Prop where
  inv : Inv c U r1
  ro : r1.ro = r.ro
  opened : r1.opened = r.opened
  mem : id ∈ r1.lruq
  key : (r1.heap id).key = .lseg l
  fd : (r1.heap id).fd = some n
  rdonly : (r1.heap id).rdonly = (r.heap id).rdonly
  dir : r1.disk.dir (pathOf c (.lseg l)) = some n
  room : want ≤ (r1.heap id).size
  grow : (r.disk.node n).cur.size ≤ (r1.disk.node n).cur.size
  byte : ∀ i, (r1.disk.node n).cur.byte i = (r.disk.node n).cur.byte i
  other : ∀ nm', U nm' → nm' ≠ .lseg l → content c r1.disk nm' = content c r.disk nm'
  sized : Sized l (r.disk.node n).cur (r1.disk.node n).cur

theorem requireSize_spec {c : Cfg} {U : Name → Prop} (hi : PathInj c U) {r : Repo} (h : Inv c U r) (k : K) (l : Lsid) (hU : U (.lseg l))
    (id n : Nat) (hid : id ∈ r.lruq) (hkey : (r.heap id).key = .lseg l) (hfd : (r.heap id).fd = some n)
    (hdir : r.disk.dir (pathOf c (.lseg l)) = some n) (hle : (r.disk.node n).cur.size = (r.heap id).size) (off len : Nat) :
    (∃ e, requireSize k r id l off len = (.err e, r)) ∨
    (∃ r1, requireSize k r id l off len = (.ok, r1) ∧ Roomy c U r l id n (off + len) r1) := by
  unfold requireSize
  by_cases h1 : (r.heap id).size ≥ max (off + len) (nextLbk off)
  · rw [if_pos h1]
    right
    exact ⟨r, rfl, h, rfl, rfl, hid, hkey, hfd, rfl, hdir, by omega, Nat.le_refl _, fun _ => rfl, fun _ _ _ => rfl, Or.inl rfl⟩
  · rw [if_neg h1]
    rcases checkRange_cases l (max (off + len) (nextLbk off)) 0 with e | ⟨x, e⟩
    · rw [e]
      dsimp only
      by_cases h2 : (r.heap id).rdonly = true
      · rw [if_pos h2]; exact Or.inl ⟨_, rfl⟩
      · rw [if_neg h2, hfd]
        dsimp only
        by_cases h3 : k.trunc ≠ 0
        · rw [if_pos h3]; exact Or.inl ⟨_, rfl⟩
        · rw [if_neg h3]
          right
          have hge := alignUp_ge (max (off + len) (nextLbk off))
          have hgr : (r.disk.node n).cur.size ≤ alignUp (max (off + len) (nextLbk off)) := by omega
          have htl : Tail (r.disk.node n).cur := h.dk.tail n
          have hb := trunc_byte htl _ hgr
          refine ⟨_, rfl, ?_⟩
          have hsst := h.st.setSize id (alignUp (max (off + len) (nextLbk off)))
            (r.disk.modify n (truncFile (r.disk.node n).cur (alignUp (max (off + len) (nextLbk off)))) (r.disk.node n).blocks)
          dsimp only at hsst
          rw [hfd] at hsst
          have hnode : ((r.disk.modify n (truncFile (r.disk.node n).cur (alignUp (max (off + len) (nextLbk off)))) (r.disk.node n).blocks).node n).cur =
              truncFile (r.disk.node n).cur (alignUp (max (off + len) (nextLbk off))) := by rw [node_modify, if_pos rfl]
          have hheap : ∀ x, (setEnt { r with disk := r.disk.modify n (truncFile (r.disk.node n).cur (alignUp (max (off + len) (nextLbk off)))) (r.disk.node n).blocks } id
              ⟨(r.heap id).key, alignUp (max (off + len) (nextLbk off)), some n, (r.heap id).rdonly⟩).heap x =
              if x = id then ⟨(r.heap id).key, alignUp (max (off + len) (nextLbk off)), some n, (r.heap id).rdonly⟩ else r.heap x := fun _ => rfl
          refine ⟨⟨hsst, ?_, ?_⟩, rfl, rfl, hid, ?_, ?_, ?_, hdir, ?_, ?_, ?_, ?_, ?_⟩
          · apply h.dk.modify
            · exact tail_trunc _ _
            · intro hbl i
              rw [hb]; exact h.dk.hole n hbl i
          · intro x hx
            obtain ⟨m, b1, b2, b3⟩ := h.bd x hx
            rw [hheap]
            by_cases ex : x = id
            · rw [if_pos ex]
              dsimp only
              refine ⟨n, rfl, by rw [hkey]; exact hdir, ?_⟩
              intro l' _
              exact congrArg File.size hnode
            · rw [if_neg ex]
              refine ⟨m, b1, b2, ?_⟩
              intro l' hl'
              have hm : m ≠ n := by
                intro em
                subst em
                apply ex
                apply h.st.uniq x id hx hid
                rw [hkey]
                exact hi _ _ (h.st.used x hx).1 hU (h.dk.inj _ _ _ b2 hdir)
              refine Eq.trans ?_ (b3 l' hl')
              exact congrArg File.size ((node_modify _ _ _ _ _).trans (if_neg hm))
          · rw [hheap, if_pos rfl]; exact hkey
          · rw [hheap, if_pos rfl]
          · rw [hheap, if_pos rfl]
          · rw [hheap, if_pos rfl]; show off + len ≤ alignUp _; omega
          · exact Nat.le_trans hgr (Nat.le_of_eq (congrArg File.size hnode).symm)
          · intro i
            exact (congrArg (fun f : File => f.byte i) hnode).trans (hb i)
          · exact (content_modify hi h.dk hU hdir _ _).2
          · right
            intro hls
            refine Eq.mpr (congrArg (Fit l) hnode) ⟨alignUp_dvd _, ?_⟩
            show alignUp _ ≤ _
            unfold checkRange at e
            split at e
            · cases e
            · unfold alignUp LBK at *
              omega
    · rw [e]; exact Or.inl ⟨_, rfl⟩

theorem requireLaddr_good {c : Cfg} {U : Name → Prop} (hi : PathInj c U) {r : Repo} (h : Inv c U r) (k : K) (l : Lsid) (hU : U (.lseg l)) (pos len : Nat) :
    Good c U r (.requireAt l pos len) ⟨(requireLaddr c k r l pos len).1, [], 0⟩ (requireLaddr c k r l pos len).2 := by
  unfold requireLaddr
  rcases checkOpen_cases r false with e | ⟨x, e⟩
  · rw [e]
    dsimp only
    have s := stageOf_spec h k true l hU
    cases hst : stageOf c k r true l with
    | mk res rest =>
    obtain ⟨r1, id⟩ := rest
    rw [hst] at s
    dsimp only at s ⊢
    cases res with
    | undef => exact absurd rfl s.noundef
    | err x => exact good_quiet s.mild.quiet _ _ (by simp) (fun nm _ => by simp [Own])
    | ok =>
      dsimp only
      obtain ⟨f1, f2⟩ := s.found rfl
      obtain ⟨n, b1, b2, b3, b4⟩ := s.file
      rcases requireSize_spec hi s.mild.inv k l hU id n f1 f2 b1 b2 (b4 l rfl) pos len with ⟨x, q⟩ | ⟨r2, q, ro⟩
      · rw [q]; exact good_quiet s.mild.quiet _ _ (by simp) (fun nm _ => by simp [Own])
      · rw [q]
        refine good_change ro.inv _ _ (by simp) (.lseg l) rfl _ (content_some ro.dir) ?_ ?_
        · intro nm' hU' hne
          rw [ro.other nm' hU' hne, content_same s.mild.same]
        · simp only [Own, if_true]
          refine ⟨_, _, b3, rfl, ro.byte, ro.grow, ?_, ro.sized⟩
          obtain ⟨m, c1, c2, c3⟩ := ro.inv.bd id ro.mem
          rw [ro.fd] at c1; cases c1
          rw [c3 l ro.key]; exact ro.room
  · rw [e]; exact good_quiet (Mild.refl h).quiet _ _ (by simp) (fun nm _ => by simp [Own])

theorem require_good {c : Cfg} {U : Name → Prop} (hi : PathInj c U) {r : Repo} (h : Inv c U r) (k : K) (l : Lsid) (hU : U (.lseg l)) :
    Good c U r (.require l) ⟨(requireLseg c k r l).1, [], 0⟩ (requireLseg c k r l).2 := by
  have hq : ∀ r', Quiet c U r r' → ∀ e, Good c U r (.require l) ⟨.err e, [], 0⟩ r' := fun r' q e =>
    good_quiet q _ _ (by simp) (fun nm _ => by simp [Own])
  have hs := statLseg_good h k l true
  unfold requireLseg
  cases e : (statLseg c k r l true).1 with
  | undef => exact absurd e hs.1
  | ok =>
    dsimp only
    obtain ⟨m1, m2, m3⟩ := stage_good h k true l hU
    cases e2 : (stage c k r true l).1 with
    | undef => exact absurd e2 m2
    | err x => exact hq _ m1.quiet x
    | ok =>
      refine good_quiet m1.quiet _ _ (by simp) ?_
      intro nm hnm
      cases hnm
      simp only [Own, if_true]
      obtain ⟨f, hf, _⟩ := hs.2.1 e
      rw [hf]; exact rfl
  | err x =>
    dsimp only
    by_cases hx : x = SENOENT
    · rw [if_pos hx]
      rcases spawn_spec hi h k l hU with ⟨q, x2, e2⟩ | ⟨e2, q, hne⟩ | ⟨e2, hno, hinv, hop, hlk, ⟨f, hf, hz, hsz⟩, hoth⟩
      · cases e3 : spawn c k r l with
        | mk a b =>
          rw [e3] at e2 q
          dsimp only at e2 q
          subst e2
          exact hq _ q x2
      · cases e3 : spawn c k r l with
        | mk a b =>
          rw [e3] at e2 q
          dsimp only at e2 q
          subst e2
          dsimp only
          obtain ⟨m1, m2, m3⟩ := stage_good q.inv k true l hU
          have mm := (q.trans m1).quiet
          cases e4 : (stage c k b true l).1 with
          | undef => exact absurd e4 m2
          | err x => exact hq _ mm x
          | ok =>
            refine good_quiet mm _ _ (by simp) ?_
            intro nm hnm
            cases hnm
            simp only [Own, if_true]
            cases hcc : content c r.disk (.lseg l) with
            | none => exact absurd hcc hne
            | some f => exact rfl
      · cases e3 : spawn c k r l with
        | mk a b =>
          rw [e3] at e2 hinv hop hlk hf hoth
          dsimp only at e2 hinv hop hlk hf hoth
          subst e2
          dsimp only
          obtain ⟨m1, m2, m3⟩ := stage_good hinv k true l hU
          -- the segment is in the cache: bringing it in can not fail
          have hok : (stage c k b true l).1 = .ok := by
            unfold stage
            have ho : checkOpen b false = .ok := by
              have hro : checkOpen r true = .ok := by
                rcases checkOpen_cases r true with eo | ⟨y, eo⟩
                · exact eo
                · exfalso; unfold spawn at e3; rw [eo] at e3; cases e3
              unfold checkOpen at hro ⊢
              rw [hop]
              by_cases hopn : ¬ r.opened = true
              · rw [if_pos hopn] at hro; cases hro
              · rw [if_neg hopn, if_neg (by simp)]
            rw [ho]
            dsimp only
            unfold stageOf
            cases e5 : lookup c b (.lseg l) with
            | none => exact absurd e5 hlk
            | some id => rfl
          rw [hok]
          have hcm := content_same (c := c) m1.same
          refine good_change m1.inv _ _ (by simp) (.lseg l) rfl (some f) (by rw [hcm]; exact hf) ?_ ?_
          · intro nm' hU' hne
            rw [hcm]; exact hoth nm' hU' hne
          · simp only [Own, if_true]
            rw [hno]
            exact ⟨f, rfl, hz, hsz⟩
    · rw [if_neg hx]; exact hq _ (Mild.refl h).quiet _

/-! #### Reading and writing -/

theorem write_good {c : Cfg} {U : Name → Prop} (hi : PathInj c U) {r : Repo} (h : Inv c U r) (k : K) (l : Lsid) (hU : U (.lseg l)) (pos : Nat)
    (bufs : List (List Nat)) (hw : bufs.length = 1 ∨ (bufs.length < 128 ∧ AllOrNothing bufs.flatten.length k.data)) :
    Good c U r (.write l pos bufs) ⟨(write c k r l pos bufs).1, [], 0⟩ (write c k r l pos bufs).2 := by
  have hq : ∀ r' e, Quiet c U r r' → Good c U r (.write l pos bufs) ⟨.err e, [], 0⟩ r' := by
    intro r' e q
    refine good_quiet q _ _ (by simp) ?_
    intro nm hnm
    cases hnm
    refine ⟨by simp, fun _ => ?_⟩
    cases hc : content c r.disk (.lseg l) with
    | none => exact Or.inl ⟨rfl, rfl⟩
    | some f => exact Or.inr ⟨f, f, 0, rfl, rfl, Nat.zero_le _, ⟨fun i b hi => absurd hi (Nat.not_lt_zero _), fun _ _ => rfl, Nat.le_refl _⟩, Or.inl rfl⟩
  unfold write
  rcases checkOpen_cases r true with e | ⟨x, e⟩
  · rw [e]
    dsimp only
    have s := stageOf_spec h k true l hU
    cases hst : stageOf c k r true l with
    | mk res rest =>
    obtain ⟨r1, id⟩ := rest
    rw [hst] at s
    dsimp only at s ⊢
    cases res with
    | undef => exact absurd rfl s.noundef
    | err x => exact hq _ _ s.mild.quiet
    | ok =>
      dsimp only
      obtain ⟨f1, f2⟩ := s.found rfl
      obtain ⟨n, b1, b2, b3, b4⟩ := s.file
      unfold writeEnt
      rcases requireSize_spec hi s.mild.inv k l hU id n f1 f2 b1 b2 (b4 l rfl) pos bufs.flatten.length with ⟨x, q⟩ | ⟨r2, q, ro⟩
      · rw [q]; exact hq _ _ s.mild.quiet
      · rw [q]
        dsimp only
        -- the state with room, nothing written
        have hidle : ∀ res, res ≠ Res.undef → (res = .ok → bufs.flatten = []) → Good c U r (.write l pos bufs) ⟨res, [], 0⟩ r2 := by
          intro res hnu hok
          refine good_change ro.inv _ _ hnu (.lseg l) rfl _ (content_some ro.dir) ?_ ?_
          · intro nm' hU' hne
            rw [ro.other nm' hU' hne, content_same s.mild.same]
          · refine ⟨?_, ?_⟩
            · intro hr
              have hfl := hok hr
              refine ⟨_, _, b3, rfl, ?_, ro.sized, fun hne => absurd hfl hne⟩
              rw [hfl]
              exact ⟨fun i b hi => absurd hi (Nat.not_lt_zero _), fun i _ => ro.byte i, ro.grow⟩
            · intro _
              exact Or.inr ⟨_, _, 0, b3, rfl, Nat.zero_le _, ⟨fun i b hi => absurd hi (Nat.not_lt_zero _), fun i _ => ro.byte i, ro.grow⟩, ro.sized⟩
        rcases checkRange_cases l pos bufs.flatten.length with e2 | ⟨x2, e2⟩
        · rw [e2, ro.fd]
          dsimp only
          by_cases hrd : (r2.heap id).rdonly = true
          · rw [if_pos hrd]
            dsimp only
            apply hidle
            · split <;> simp
            · intro hh
              by_cases hfl : bufs.flatten = []
              · exact hfl
              · rw [if_neg hfl] at hh; cases hh
          · rw [if_neg hrd]
            have htl : Tail (r2.disk.node n).cur := ro.inv.dk.tail n
            have hszs : (r2.disk.node n).cur.size = (r2.heap id).size := by
              obtain ⟨m, c1, c2, c3⟩ := ro.inv.bd id ro.mem
              rw [ro.fd] at c1; cases c1
              exact c3 l ro.key
            -- part of the bytes written
            have hput : ∀ res kk, res ≠ Res.undef → kk ≤ bufs.flatten.length → (res = .ok → kk = bufs.flatten.length) →
                Good c U r (.write l pos bufs) ⟨res, [], 0⟩
                  { r2 with disk := r2.disk.modify n ((r2.disk.node n).cur.put pos (bufs.flatten.take kk)) true } := by
              intro res kk hnu hkk hok
              have hps := size_put (r2.disk.node n).cur pos (bufs.flatten.take kk)
              have hcm := content_modify hi ro.inv.dk hU ro.dir ((r2.disk.node n).cur.put pos (bufs.flatten.take kk)) true
              have hmx := mixed_put (r2.disk.node n).cur pos bufs.flatten kk hkk
              have hmx2 : Mixed (r1.disk.node n).cur pos bufs.flatten kk ((r2.disk.node n).cur.put pos (bufs.flatten.take kk)) :=
                ⟨hmx.1, fun i hh => (hmx.2.1 i hh).trans (ro.byte i), Nat.le_trans ro.grow hmx.2.2⟩
              have hl2 : (bufs.flatten.take kk).length ≤ bufs.flatten.length := by rw [List.length_take]; omega
              have hroom := ro.room
              have hsz2 : ((r2.disk.node n).cur.put pos (bufs.flatten.take kk)).size = (r2.disk.node n).cur.size := by omega
              have hsd : Sized l (r1.disk.node n).cur ((r2.disk.node n).cur.put pos (bufs.flatten.take kk)) := by
                have := ro.sized
                unfold Sized Fit at this ⊢
                rw [hsz2]
                exact this
              refine good_change ?_ _ _ hnu (.lseg l) rfl _ hcm.1 ?_ ?_
              · refine ro.inv.modify hi hU ro.dir _ _ (tail_put htl _ _) (by simp) ?_
                intro id' l' hid' _ hk'
                have : id' = id := ro.inv.st.uniq id' id hid' ro.mem (hk'.trans ro.key.symm)
                subst this
                omega
              · intro nm' hU' hne
                rw [hcm.2 nm' hU' hne, ro.other nm' hU' hne, content_same s.mild.same]
              · refine ⟨?_, ?_⟩
                · intro hr
                  have hke := hok hr
                  subst hke
                  refine ⟨_, _, b3, rfl, hmx2, hsd, ?_⟩
                  intro hne
                  rw [List.take_length]
                  show _ ≤ (if bufs.flatten = [] then _ else _)
                  rw [if_neg hne]
                  omega
                · intro _
                  exact Or.inr ⟨_, _, kk, b3, rfl, hkk, hmx2, hsd⟩
            have hmany : (bufs.length < 128 ∧ AllOrNothing bufs.flatten.length k.data) → Good c U r (.write l pos bufs)
                ⟨(pwritevn (r2.disk.node n).cur bufs pos k.data).1, [], 0⟩
                { r2 with disk := r2.disk.modify n (pwritevn (r2.disk.node n).cur bufs pos k.data).2 true } := by
              rintro ⟨w1, w2⟩
              rcases C53_writev_partial (r2.disk.node n).cur bufs pos k.data w1 w2 with ⟨f', p1, p2⟩ | ⟨x, p1⟩
              · rw [p1]
                have : f' = (r2.disk.node n).cur.put pos (bufs.flatten.take bufs.flatten.length) := by
                  rw [List.take_length]
                  exact wrote_unique _ _ _ _ _ p2 (put_wrote _ _ _)
                dsimp only
                rw [this]
                exact hput .ok bufs.flatten.length (by simp) (Nat.le_refl _) (fun _ => rfl)
              · rw [p1]
                have : (r2.disk.node n).cur = (r2.disk.node n).cur.put pos (bufs.flatten.take 0) := by
                  rw [List.take_zero, put_nil]
                dsimp only
                conv => arg 6; rw [this]
                exact hput (.err x) 0 (by simp) (Nat.zero_le _) (by simp)
            match bufs, hw, hput, hmany with
            | [], hw, _, hmany => exact hmany (hw.resolve_left (by simp))
            | b1 :: b2 :: bs, hw, _, hmany => exact hmany (hw.resolve_left (by simp))
            | [buf], _, hput, _ =>
              dsimp only
              have hfl : [buf].flatten = buf := by simp
              rw [hfl] at hput
              obtain ⟨⟨kk, k1, k2, k3⟩, k4, _⟩ := pwriten_spec (r2.disk.node n).cur buf pos k.data
              rw [k2]
              exact hput _ kk k4 k1 (fun hh => k3.mp hh)
        · rw [e2]; exact hidle _ (by simp) (by simp)
  · rw [e]; exact hq _ _ (Mild.refl h).quiet

theorem read_good {c : Cfg} {U : Name → Prop} {r : Repo} (h : Inv c U r) (k : K) (l : Lsid) (hU : U (.lseg l)) (pos len : Nat) :
    Good c U r (.read l pos len) ⟨(read c k r l pos len).1, (read c k r l pos len).2.1, 0⟩ (read c k r l pos len).2.2 := by
  have hq : ∀ r' x b, Quiet c U r r' → Good c U r (.read l pos len) ⟨.err x, b, 0⟩ r' := fun r' x b q =>
    good_quiet q _ _ (by simp) (fun nm _ => by simp [Own])
  unfold read
  rcases checkOpen_cases r false with e | ⟨x, e⟩
  · rw [e]
    dsimp only
    have s := stageOf_spec h k false l hU
    cases hst : stageOf c k r false l with
    | mk res rest =>
    obtain ⟨r1, id⟩ := rest
    rw [hst] at s
    dsimp only at s ⊢
    cases res with
    | undef => exact absurd rfl s.noundef
    | err x => exact hq _ _ _ s.mild.quiet
    | ok =>
      dsimp only
      obtain ⟨n, b1, b2, b3, b4⟩ := s.file
      unfold readEnt
      by_cases h1 : (r1.heap id).size < pos + len
      · rw [if_pos h1]; exact hq _ _ _ s.mild.quiet
      · rw [if_neg h1]
        rcases checkRange_cases l pos len with e2 | ⟨x2, e2⟩
        · rw [e2, b1]
          dsimp only
          by_cases h0 : len = 0
          · rw [if_pos h0]; exact hq _ _ _ s.mild.quiet
          · rw [if_neg h0]
            by_cases h2 : k.stat ≠ 0
            · rw [if_pos h2]; exact hq _ _ _ s.mild.quiet
            · rw [if_neg h2]
              have hres : ∀ res bytes, res ≠ Res.undef → (res = .ok → Holds (r1.disk.node n).cur pos len bytes) →
                  Good c U r (.read l pos len) ⟨res, bytes, 0⟩ r1 := by
                intro res bytes hnu hb
                refine good_quiet s.mild.quiet _ _ hnu ?_
                intro nm hnm
                cases hnm
                exact ⟨rfl, fun hr => ⟨_, b3, hb hr⟩⟩
              by_cases h3 : pos + len > (r1.disk.node n).cur.size
              · exact absurd (b4 l rfl) (by omega)
              · rw [if_neg h3]
                apply hres
                · exact (preadn_loop (r1.disk.node n).cur len pos k.data [] (Nat.zero_le _) (got_nil _ _)).2.1
                · intro hr
                  exact C53_read _ _ _ k.data _ (by rw [← hr])
        · rw [e2]; exact hq _ _ _ s.mild.quiet
  · rw [e]; exact hq _ _ _ (Mild.refl h).quiet

end Silofs.Repo
