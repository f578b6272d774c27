import Verif.Props.Fork
/-!
C49: a snapshot that fails or is cut off; where the claim fails.
-/
set_option linter.unusedSimpArgs false
set_option linter.unusedVariables false
namespace Silofs.Fork
variable {α : Type}

theorem sync_disk (name : Name) (s : Sys α) (h : Good name s) (k : Nat) (hk : k ≠ s.live) :
    (s.mem k).or (s.disk k) = s.disk k := or_same _ _ (h.same k hk)

/-- Stored state of a failed or cut-off snapshot, short of saving names. -/
theorem clone_stored (name : Name) (s : Sys α) (h : Good name s) (v : Vol α) (hv : s.mem s.live = some v)
    (hf : v.fossil = false) (fails part : Nat → Bool) :
    let s1 := (clone fails part s).1
    s1.names = s.names ∧ (∀ b, b < s.next → s1.boots b = s.boots b) ∧
    (∀ k, k < s.next → k ≠ s.live → s1.disk k = s.disk k) ∧
    ((∃ w, s1.disk s.live = some w ∧ w.content = v.content) ∨ fails 0 = true ∧ s1.disk s.live = s.disk s.live) := by
  intro s1
  have hl := h.liveLt
  rcases clone_cases s v hv hf hl fails part with ⟨e, h0⟩ | ⟨l, m, n, e⟩ | e | ⟨b, n, r, e, hb, _⟩
  · have e1 : s1 = syncPart part s := congrArg Prod.fst e
    rw [e1]
    refine ⟨rfl, fun _ _ => rfl, fun k _ hk => ?_, ?_⟩
    · show (if part k then _ else _) = _
      rw [sync_disk name s h k hk]; cases part k <;> rfl
    · show (∃ w, (if part s.live then _ else _) = _ ∧ _) ∨ _ ∧ (if part s.live then _ else _) = _
      cases part s.live with
      | true => left; exact ⟨v, by rw [if_pos rfl, hv]; rfl, rfl⟩
      | false => right; exact ⟨h0, by rw [if_neg (by decide)]⟩
  · have e1 : s1 = { sync s with mem := m, live := l, next := n } := congrArg Prod.fst e
    rw [e1]
    refine ⟨rfl, fun _ _ => rfl, fun k _ hk => sync_disk name s h k hk, .inl ⟨v, ?_, rfl⟩⟩
    show (s.mem s.live).or _ = _; rw [hv]; rfl
  · have e1 : s1 = syncPart part { sync s with mem := forkMem s v, live := s.next + 1, next := s.next + 2 } :=
      congrArg Prod.fst e
    rw [e1]
    refine ⟨rfl, fun _ _ => rfl, fun k hk hne => ?_, .inl ?_⟩
    · have e2 : forkMem s v k = s.mem k := by
        unfold forkMem
        rw [upd_ne _ _ _ _ hne, upd_ne _ _ _ _ (by omega), upd_ne _ _ _ _ (by omega)]
      show (if part k then (forkMem s v k).or ((s.mem k).or (s.disk k)) else (s.mem k).or (s.disk k)) = _
      rw [e2, sync_disk name s h k hne, h.same k hne, or_same _ _ rfl]; cases part k <;> rfl
    · show ∃ w, (if part s.live then (forkMem s v s.live).or _ else (s.mem s.live).or (s.disk s.live)) = _ ∧ _
      cases part s.live with
      | true => exact ⟨{ v with fossil := true }, by rw [if_pos rfl]; unfold forkMem; rw [upd_self]; rfl, rfl⟩
      | false => exact ⟨v, by rw [if_neg (by decide), hv]; rfl, rfl⟩
  · have e1 : s1 = { cloned s v with boots := b, boot := (clone fails part s).1.boot, next := n } := by
      show (clone fails part s).1 = _
      exact congrArg Prod.fst e
    rw [e1]
    exact ⟨rfl, hb, fun k hk hne => cloned_disk_other name s v h k hk hne,
      .inl ⟨{ v with fossil := true }, cloned_disk_live s v, rfl⟩⟩

/-- The clone returns addresses only when it is complete. -/
theorem clone_some (s : Sys α) (v : Vol α) (hv : s.mem s.live = some v)
    (hf : v.fossil = false) (hl : s.live < s.next) (fails part : Nat → Bool) (s1 : Sys α) (a : Nat × Nat)
    (h1 : clone fails part s = (s1, some a)) : s1 = cloned s v ∧ a = (s.next + 2, s.next + 3) := by
  rcases clone_cases s v hv hf hl fails part with ⟨e, h0⟩ | ⟨l, m, n, e⟩ | e | ⟨b, n, r, e, hb, hr⟩
  · rw [h1] at e; cases e
  · rw [h1] at e; cases e
  · rw [h1] at e; cases e
  · rcases hr with hr | ⟨hr, e2⟩
    · rw [hr, h1] at e
      exact absurd (congrArg Prod.snd e) (by simp)
    · rw [h1] at e2
      have := Prod.mk.inj e2
      exact ⟨this.1, Option.some.inj this.2⟩

/-- **C49 (failed or cut off)**: whichever step of a snapshot fails, whatever a failing flush has
stored, and wherever the command is killed: no other name changes what it opens to; the
file-system's own name still opens, at least read-only, to the content of that moment (to
what was stored before, if already the first flush failed); the new name does not
exist or opens to the content of that moment. -/
theorem C49_cut_off (name snapname : Name) (s : Sys α) (h : Good name s) (x : α) (hx : current s = some x)
    (hne : snapname ≠ name) (hn : s.names snapname = none) (fails part : Nat → Bool) (saves : Nat) :
    let s' := (snap fails part saves name snapname s).1
    (∀ m, m ≠ name → m ≠ snapname → (∀ b, s.names m = some b → s.boots b ≠ some s.live) →
      ∀ rd, openBy s' m rd = openBy s m rd) ∧
    (openBy s' name true = .ok x ∨ fails 0 = true ∧ openBy s' name true = openBy s name true) ∧
    (∀ rd, openBy s' snapname rd = .error .enoent ∨ openBy s' snapname rd = .ok x) := by
  obtain ⟨v, hv, hf⟩ := h.live
  have hl := h.liveLt
  have hb0 := h.bootLt
  have hxv : v.content = x := by
    unfold current at hx; rw [hv] at hx; exact Option.some.inj hx
  have S := clone_stored name s h v hv hf fails part
  have base : ∀ (s2 : Sys α), s2.boots = (clone fails part s).1.boots → s2.disk = (clone fails part s).1.disk →
      (∀ m, m ≠ name → m ≠ snapname → s2.names m = s.names m) →
      (∀ m, m ≠ name → m ≠ snapname → (∀ b, s.names m = some b → s.boots b ≠ some s.live) →
      ∀ rd, openBy s2 m rd = openBy s m rd) ∧
      (s2.names name = s.names name →
        (openBy s2 name true = .ok x ∨ fails 0 = true ∧ openBy s2 name true = openBy s name true)) := by
    intro s2 eb ed en
    obtain ⟨S1, S2, S3, S4⟩ := S
    refine ⟨fun m m1 m2 hb rd => open_congr s s2 m rd (en m m1 m2) ?_ ?_, fun en' => ?_⟩
    · intro b hb'; rw [eb]; exact S2 b (h.namesLt m b hb')
    · intro b k hb' hk
      rw [ed]; exact S3 k (h.bootsLt b k hk) (fun e => hb b hb' (by rw [hk, e]))
    · rcases S4 with ⟨w, hw, hc⟩ | ⟨h0, hd⟩
      · left
        rw [open_of s2 name s.boot s.live w (by rw [en', h.named])
          (by rw [eb, S2 _ hb0, h.booted]) (by rw [ed]; exact hw) true, hc, hxv]
        simp
      · right
        refine ⟨h0, open_congr s s2 name true en' ?_ ?_⟩
        · intro b hb'; rw [eb]; exact S2 b (h.namesLt name b hb')
        · intro b k hb' hk
          rw [h.named] at hb'; cases hb'
          rw [h.booted] at hk; cases hk
          rw [ed]; exact hd
  have hno : ∀ (s2 : Sys α), s2.names snapname = none → ∀ rd, openBy s2 snapname rd = .error .enoent := by
    intro s2 e rd; unfold openBy; rw [e]
  intro s'
  cases hc : clone fails part s with
  | mk s1 o =>
    cases o with
    | none =>
      have e : s' = s1 := by
        show (snap fails part saves name snapname s).1 = s1
        unfold snap
        rw [hn, hc]; rfl
      have e2 : s1.names = s.names := by have := S.1; rw [hc] at this; exact this
      have B := base s1 (by rw [hc]) (by rw [hc]) (fun m _ _ => by rw [e2])
      rw [e]
      exact ⟨B.1, B.2 (by rw [e2]), fun rd => .inl (hno _ (by rw [e2]; exact hn) rd)⟩
    | some a =>
      obtain ⟨ea, eb⟩ := clone_some s v hv hf hl fails part s1 a hc
      subst ea eb
      have hsn : openBy (α := α) { cloned s v with names := upd s.names snapname (s.next + 3) } snapname =
          fun _ => .ok x := by
        funext rd
        rw [open_of { cloned s v with names := upd s.names snapname (s.next + 3) } snapname (s.next + 3) s.next v
          (upd_self _ _ _) (by show upd _ _ _ _ = _; rw [upd_self]) (cloned_disk_alt s v hl) rd, hf, hxv]
        rfl
      by_cases h0 : saves = 0
      · have e : s' = cloned s v := by
          show (snap fails part saves name snapname s).1 = _
          unfold snap
          rw [hn, hc]
          simp only [Option.isSome_none, Bool.false_eq_true, if_false]
          rw [if_pos h0]
        have B := base (cloned s v) (by rw [hc]) (by rw [hc]) (fun m _ _ => rfl)
        rw [e]
        exact ⟨B.1, B.2 rfl, fun rd => .inl (hno (cloned s v) hn rd)⟩
      · by_cases h1 : saves = 1
        · have e : s' = { cloned s v with names := upd s.names snapname (s.next + 3) } := by
            show (snap fails part saves name snapname s).1 = _
            unfold snap
            rw [hn, hc]
            simp only [Option.isSome_none, Bool.false_eq_true, if_false]
            rw [if_neg h0, if_pos h1]
            rfl
          have B := base { cloned s v with names := upd s.names snapname (s.next + 3) } (by rw [hc]) (by rw [hc])
            (fun m _ m2 => upd_ne _ _ _ _ m2)
          rw [e]
          exact ⟨B.1, B.2 (upd_ne _ _ _ _ (fun e => hne e.symm)), fun rd => .inr (by rw [hsn])⟩
        · have e : s' = snapped name snapname s v := by
            show (snap fails part saves name snapname s).1 = _
            unfold snap
            rw [hn, hc]
            simp only [Option.isSome_none, Bool.false_eq_true, if_false]
            rw [if_neg h0, if_neg h1]
            rfl
          have B := base (snapped name snapname s v) (by rw [hc]; rfl) (by rw [hc]; rfl)
            (fun m m1 m2 => by show upd _ _ _ _ = _; rw [upd_ne _ _ _ _ m1, upd_ne _ _ _ _ m2])
          rw [e]
          refine ⟨B.1, .inl ?_, fun rd => .inr ?_⟩
          · rw [open_of (snapped name snapname s v) name (s.next + 2) (s.next + 1) v
              (by show upd _ _ _ _ = _; rw [upd_self])
              (by show upd _ _ _ _ = _; rw [upd_ne _ _ _ _ (by omega), upd_self]) (cloned_disk_new s v hl) true,
              hf, hxv]
            rfl
          · rw [open_of (snapped name snapname s v) snapname (s.next + 3) s.next v
              (by show upd _ _ _ _ = _; rw [upd_ne _ _ _ _ hne, upd_self])
              (by show upd _ _ _ _ = _; rw [upd_self]) (cloned_disk_alt s v hl) rd, hf, hxv]
            rfl

/-! ### Where the claim fails -/

theorem current_write (f : α → α) (s : Sys α) (v : Vol α) (hv : s.mem s.live = some v) (hf : v.fossil = false) :
    current (write f s) = some (f v.content) := by
  have e : write f s = { s with mem := upd s.mem s.live ⟨f v.content, false⟩ } := by
    unfold write; rw [hv]; simp only [hf, Bool.false_eq_true, if_false]
  rw [e]
  unfold current
  show Option.map _ (upd _ s.live _ s.live) = _
  rw [upd_self]; rfl

/-- Writing to the clone, then syncing. -/
theorem cloned_write (s : Sys α) (v : Vol α) (hf : v.fossil = false) (hl : s.live < s.next) (f : α → α)
    (nm : Name → Option Nat) :
    (sync (write f { cloned s v with names := nm })).disk s.live = some { v with fossil := true } ∧
    (sync (write f { cloned s v with names := nm })).boots = (cloned s v).boots ∧
    (sync (write f { cloned s v with names := nm })).names = nm := by
  have hm : (cloned s v).mem (s.next + 1) = some v := by
    show forkMem s v _ = _
    unfold forkMem; rw [upd_ne _ _ _ _ (by omega), upd_self]
  have e : write f { cloned s v with names := nm } =
      { cloned s v with names := nm, mem := upd (cloned s v).mem (s.next + 1) ⟨f v.content, false⟩ } := by
    unfold write
    show (match (cloned s v).mem (s.next + 1) with | some v => _ | none => _) = _
    rw [hm]; simp only [hf, Bool.false_eq_true, if_false]; rfl
  rw [e]
  refine ⟨?_, rfl, rfl⟩
  show (upd (cloned s v).mem (s.next + 1) _ s.live).or _ = _
  rw [upd_ne _ _ _ _ (by omega)]
  show (forkMem s v s.live).or _ = _
  unfold forkMem; rw [upd_self]; rfl

/-- **C49 is not met (command killed)**: when the snapshot command is killed after the server's part
and before it has saved the original name again, that name can no longer be opened for writing,
and whatever the still mounted file-system is changed to from then on, synced or not, the name
keeps opening to the content at the time of the snapshot. -/
theorem C49_killed_violated (name snapname : Name) (s : Sys α) (h : Good name s) (x : α) (hx : current s = some x)
    (hne : snapname ≠ name) (hn : s.names snapname = none) (fails part : Nat → Bool)
    (hok : ∀ i, i < 7 → fails i = false) (saves : Nat) (hs : saves < 2) :
    let s' := (snap fails part saves name snapname s).1
    openBy s' name false = .error .erofs ∧
    ∀ f : α → α, current (write f s') = some (f x) ∧ openBy (sync (write f s')) name true = .ok x ∧
      openBy (sync (write f s')) name false = .error .erofs := by
  obtain ⟨v, hv, hf⟩ := h.live
  have hl := h.liveLt
  have hb0 := h.bootLt
  have hxv : v.content = x := by
    unfold current at hx; rw [hv] at hx; exact Option.some.inj hx
  intro s'
  have e : ∃ nm, s' = { cloned s v with names := nm } ∧ nm name = some s.boot := by
    have hc := clone_all s v hv hf hl fails part hok
    by_cases h0 : saves = 0
    · refine ⟨s.names, ?_, h.named⟩
      show (snap fails part saves name snapname s).1 = _
      unfold snap
      rw [hn, hc]
      simp only [Option.isSome_none, Bool.false_eq_true, if_false]
      rw [if_pos h0]; rfl
    · refine ⟨upd s.names snapname (s.next + 3), ?_, by rw [upd_ne _ _ _ _ (fun e => hne e.symm)]; exact h.named⟩
      show (snap fails part saves name snapname s).1 = _
      unfold snap
      rw [hn, hc]
      simp only [Option.isSome_none, Bool.false_eq_true, if_false]
      rw [if_neg h0, if_pos (by omega)]; rfl
  obtain ⟨nm, e, hnm⟩ := e
  have hbt : (cloned s v).boots s.boot = some s.live := by
    show upd _ _ _ _ = _
    rw [upd_ne _ _ _ _ (by omega), upd_ne _ _ _ _ (by omega)]; exact h.booted
  rw [e]
  refine ⟨?_, fun f => ⟨?_, ?_, ?_⟩⟩
  · rw [open_of { cloned s v with names := nm } name s.boot s.live { v with fossil := true } hnm hbt (cloned_disk_live s v)]; rfl
  · have hm : (cloned s v).mem (s.next + 1) = some v := by
      show forkMem s v _ = _
      unfold forkMem; rw [upd_ne _ _ _ _ (by omega), upd_self]
    rw [← hxv]
    exact current_write f { cloned s v with names := nm } v hm hf
  · obtain ⟨d1, d2, d3⟩ := cloned_write s v hf hl f nm
    rw [open_of (sync (write f { cloned s v with names := nm })) name s.boot s.live { v with fossil := true } (by rw [d3]; exact hnm) (by rw [d2]; exact hbt) d1]
    show Except.ok v.content = _
    rw [hxv]
  · obtain ⟨d1, d2, d3⟩ := cloned_write s v hf hl f nm
    rw [open_of (sync (write f { cloned s v with names := nm })) name s.boot s.live { v with fossil := true } (by rw [d3]; exact hnm) (by rw [d2]; exact hbt) d1]
    rfl

/-- **C49 is not met (second super-block cannot be made)**: the snapshot fails with an error, yet the
mount has already been moved to the first clone, which has no boot record.  From then on
changes are seen in the mount and lost to everyone who opens the name later, synced or not. -/
theorem C49_half_violated (name snapname : Name) (s : Sys α) (h : Good name s) (x : α) (hx : current s = some x)
    (hn : s.names snapname = none) (fails part : Nat → Bool) (h0 : fails 0 = false) (h1 : fails 1 = false)
    (h2 : fails 2 = true) (saves : Nat) :
    let r := snap fails part saves name snapname s
    r.2 = .error .refused ∧ ∀ f : α → α, current (write f r.1) = some (f x) ∧
      ∀ rd, openBy (sync (write f r.1)) name rd = .ok x := by
  obtain ⟨v, hv, hf⟩ := h.live
  have hl := h.liveLt
  have hxv : v.content = x := by
    unfold current at hx; rw [hv] at hx; exact Option.some.inj hx
  intro r
  have hc : clone fails part s =
      ({ sync s with mem := upd s.mem s.next v, live := s.next, next := s.next + 1 }, none) := by
    unfold clone; rw [hv]; simp only [hf, Bool.false_eq_true, if_false, h0, h1, h2, if_true]
    unfold cloneRebind
    rw [show (sync s).mem s.live = some v from hv]; rfl
  have hr : r = ({ sync s with mem := upd s.mem s.next v, live := s.next, next := s.next + 1 }, .error .refused) := by
    show snap fails part saves name snapname s = _
    unfold snap
    rw [hn, hc]; rfl
  rw [hr]
  refine ⟨rfl, fun f => ?_⟩
  have e : write f { sync s with mem := upd s.mem s.next v, live := s.next, next := s.next + 1 } =
      { sync s with mem := upd (upd s.mem s.next v) s.next ⟨f v.content, false⟩, live := s.next, next := s.next + 1 } := by
    unfold write
    show (match upd s.mem s.next v s.next with | some v => _ | none => _) = _
    rw [upd_self]; simp only [hf, Bool.false_eq_true, if_false]
  show current (write f _) = _ ∧ _
  rw [e]
  refine ⟨?_, fun rd => ?_⟩
  · unfold current
    show Option.map _ (upd _ s.next _ s.next) = _
    rw [upd_self, ← hxv]; rfl
  · refine (open_of (sync { sync s with mem := upd (upd s.mem s.next v) s.next ⟨f v.content, false⟩, live := s.next, next := s.next + 1 })
      name s.boot s.live v h.named h.booted ?_ rd).trans ?_
    rotate_left
    · rw [hf, hxv]; rfl
    · show (upd (upd s.mem s.next v) s.next _ s.live).or _ = _
      rw [upd_ne _ _ _ _ (by omega), upd_ne _ _ _ _ (by omega), hv]; rfl

/-- **C49 is not met (two snapshots at a time)**: with two snapshot commands running beside each other,
both succeeding, the file-system's name may end at the volume the other one has frozen: it can no
longer be opened for writing, and misses all later changes of the mount. -/
theorem C49_race_violated (name sn1 sn2 : Name) (s : Sys α) (h : Good name s) (x : α) (hx : current s = some x)
    (h1 : sn1 ≠ name) (h2 : sn2 ≠ name) (h12 : sn1 ≠ sn2) :
    let s' := snapRace name sn1 sn2 s
    openBy s' name false = .error .erofs ∧ openBy s' name true = .ok x ∧
    ∀ f : α → α, current (write f s') = some (f x) ∧ openBy (sync (write f s')) name true = .ok x := by
  obtain ⟨v, hv, hf⟩ := h.live
  have hl := h.liveLt
  have hxv : v.content = x := by
    unfold current at hx; rw [hv] at hx; exact Option.some.inj hx
  intro s'
  have c1 := clone_all s v hv hf hl (fun _ => false) (fun _ => false) (fun _ _ => rfl)
  have hm1 : (cloned s v).mem (s.next + 1) = some v := by
    show forkMem s v _ = _
    unfold forkMem; rw [upd_ne _ _ _ _ (by omega), upd_self]
  have c2 := clone_all (cloned s v) v hm1 hf (by show s.next + 1 < s.next + 4; omega) (fun _ => false)
    (fun _ => false) (fun _ _ => rfl)
  obtain ⟨nm, e, hnm⟩ : ∃ nm, s' = { cloned (cloned s v) v with names := nm } ∧ nm name = some (s.next + 2) := by
    refine ⟨upd (upd (upd (upd s.names sn2 (s.next + 4 + 3)) name (s.next + 4 + 2)) sn1 (s.next + 3)) name (s.next + 2),
      ?_, upd_self _ _ _⟩
    show snapRace name sn1 sn2 s = _
    unfold snapRace
    rw [c1]; simp only; rw [c2]; rfl
  have hbt : (cloned (cloned s v) v).boots (s.next + 2) = some (s.next + 1) := by
    show upd (upd (upd (upd s.boots (s.next + 2) (s.next + 1)) (s.next + 3) s.next) (s.next + 4 + 2) _)
      (s.next + 4 + 3) _ _ = _
    rw [upd_ne _ _ _ _ (by omega), upd_ne _ _ _ _ (by omega), upd_ne _ _ _ _ (by omega), upd_self]
  have hd : (cloned (cloned s v) v).disk (s.next + 1) = some { v with fossil := true } :=
    cloned_disk_live (cloned s v) v
  rw [e]
  refine ⟨?_, ?_, fun f => ⟨?_, ?_⟩⟩
  · rw [open_of { cloned (cloned s v) v with names := nm } name (s.next + 2) (s.next + 1) { v with fossil := true }
      hnm hbt hd]; rfl
  · rw [open_of { cloned (cloned s v) v with names := nm } name (s.next + 2) (s.next + 1) { v with fossil := true }
      hnm hbt hd]
    show Except.ok v.content = _
    rw [hxv]
  · have hm : (cloned (cloned s v) v).mem (s.next + 4 + 1) = some v := by
      show forkMem (cloned s v) v (s.next + 4 + 1) = _
      unfold forkMem
      rw [upd_ne _ _ _ _ (by show s.next + 4 + 1 ≠ s.next + 1; omega)]
      exact upd_self _ _ _
    rw [← hxv]
    exact current_write f { cloned (cloned s v) v with names := nm } v hm hf
  · obtain ⟨d1, d2, d3⟩ := cloned_write (cloned s v) v hf (by show s.next + 1 < s.next + 4; omega) f nm
    rw [open_of (sync (write f { cloned (cloned s v) v with names := nm })) name (s.next + 2) (s.next + 1)
      { v with fossil := true } (by rw [d3]; exact hnm)
      (by rw [d2]; exact hbt) d1]
    show Except.ok v.content = _
    rw [hxv]

/-- **C49 is not met (offline snapshot of a mounted file-system)**: nothing stops it.  Afterwards the
mount goes on in the volume that was to be frozen: its changes, synced, are not what the
name opens to. -/
theorem C49_offline_violated (name snapname : Name) (s : Sys α) (h : Good name s) (x y : α)
    (hx : current s = some x) (hy : ∃ w, s.disk s.live = some w ∧ w.content = y) (hne : snapname ≠ name) :
    let s' := snapOffline name snapname s
    ∀ f : α → α, current (write f s') = some (f x) ∧ openBy (sync (write f s')) name false = .ok y := by
  obtain ⟨v, hv, hf⟩ := h.live
  obtain ⟨w', hw', hwf'⟩ := h.stored
  obtain ⟨w, hw, hwy⟩ := hy
  have hwf : w.fossil = false := by rw [hw] at hw'; cases hw'; exact hwf'
  have hl := h.liveLt
  have hxv : v.content = x := by
    unfold current at hx; rw [hv] at hx; exact Option.some.inj hx
  intro s' f
  have e : s' = { s with
          disk := upd (upd (upd s.disk s.next w) (s.next + 1) w) s.live { w with fossil := true }
          boots := upd (upd s.boots (s.next + 2) (s.next + 1)) (s.next + 3) s.next
          names := upd (upd s.names snapname (s.next + 3)) name (s.next + 2)
          next := s.next + 4 } := by
    show snapOffline name snapname s = _
    unfold snapOffline
    rw [h.named]; simp only; rw [h.booted]; simp only; rw [hw]; simp only [hwf, Bool.false_eq_true, if_false]
  have e2 : write f s' = { s' with mem := upd s.mem s.live ⟨f v.content, false⟩ } := by
    rw [e]
    unfold write
    simp only
    rw [hv]; simp only [hf, Bool.false_eq_true, if_false]
  rw [e2, e]
  constructor
  · unfold current
    show Option.map _ (upd _ s.live _ s.live) = _
    rw [upd_self, ← hxv]; rfl
  · refine (open_of _ name (s.next + 2) (s.next + 1) w (by show upd _ _ _ _ = _; rw [upd_self])
      (by show upd _ _ _ _ = _; rw [upd_ne _ _ _ _ (by omega), upd_self])
      (by
        show (upd s.mem s.live _ (s.next + 1)).or (upd _ _ _ _) = _
        rw [upd_ne _ _ _ _ (by omega), h.freshMem (s.next + 1) (by omega), upd_ne _ _ _ _ (by omega), upd_self]; rfl)
      false).trans ?_
    rw [hwf, hwy]; rfl

/-! ### Not vacuous -/

namespace Sample

/-- Name `[97]`, boot record 0, volume 0, content 5 in memory and 4 on disk. -/
def s : Sys Nat where
  mem := fun k => if k = 0 then some ⟨5, false⟩ else none
  disk := fun k => if k = 0 then some ⟨4, false⟩ else none
  boots := fun k => if k = 0 then some 0 else none
  names := fun m => if m = [97] then some 0 else none
  live := 0
  boot := 0
  next := 1

theorem good : Good [97] s where
  named := rfl
  booted := rfl
  live := ⟨⟨5, false⟩, rfl, rfl⟩
  stored := ⟨⟨4, false⟩, rfl, rfl⟩
  same := by
    intro v hv
    have hv : v ≠ 0 := hv
    show (if v = 0 then _ else _) = (if v = 0 then _ else _)
    rw [if_neg hv, if_neg hv]
  freshVol := by
    intro k hk
    have hk' : 1 ≤ k := hk
    show (if k = 0 then _ else _) = _
    rw [if_neg (by omega)]
  freshBoot := by
    intro k hk
    have hk' : 1 ≤ k := hk
    show (if k = 0 then _ else _) = _
    rw [if_neg (by omega)]
  namesLt := by
    intro m b hm
    have hm' : (if m = [97] then some 0 else none) = some b := hm
    by_cases h : m = [97]
    · rw [if_pos h] at hm'; cases hm'; decide
    · rw [if_neg h] at hm'; cases hm'
  bootsLt := by
    intro b v hb
    have hb' : (if b = 0 then some 0 else none) = some v := hb
    by_cases h : b = 0
    · rw [if_pos h] at hb'; cases hb'; decide
    · rw [if_neg h] at hb'; cases hb'

/-- Two snapshots with a change between them. -/
example :
    let s' := [Op.snap [98], .change (· + 1), .snap [99], .change (· * 2)].foldl (step [97]) s
    openBy s' [98] false = .ok 5 ∧ openBy s' [99] false = .ok 6 ∧ openBy (sync s') [97] false = .ok 12 := by
  intro s'
  have H := C49_history [97] s 5 good rfl [Op.snap [98], .change (· + 1), .snap [99], .change (· * 2)]
  exact ⟨H.1 [98] 5 (by decide) false, H.1 [99] 6 (by decide) false, H.2.2 false⟩

example : openBy (sync (write (· + 1) (snap (fun _ => false) (fun _ => false) 1 [97] [98] s).1)) [97] true = .ok 5 :=
  ((C49_killed_violated [97] [98] s good 5 rfl (by decide) rfl _ _ (fun _ _ => rfl) 1 (by decide)).2 (· + 1)).2.1

end Sample
end Silofs.Fork
