import Verif.Spec.Serve
/- C72: a mounted file-system serves requests, and when it is unmounted or told to stop it finishes them,
stores everything and ends. -/
set_option linter.unusedSimpArgs false
set_option linter.unusedVariables false
namespace Silofs.Srv

/-! ### Small facts -/

theorem setD_same (s : S) (i : Nat) (d : Disp) : (setD s i d).disp i = d := by simp [setD]
theorem setD_other (s : S) {i j : Nat} (d : Disp) (h : j ≠ i) : (setD s i d).disp j = s.disp j := by
  simp [setD, h]

/-- What a step of a dispatcher can do, without the reasons. -/
structure Frame (s t : S) (i : Nat) : Prop where
  nd : t.nd = s.nd
  nw : t.nw = s.nw
  drun : t.drun = s.drun
  wrun : t.wrun = s.wrun
  main : t.main = s.main
  saved : t.saved = s.saved
  work : t.work = s.work
  other : ∀ j, j ≠ i → t.disp j = s.disp j

theorem frame_refl (s : S) (i : Nat) : Frame s s i := ⟨rfl, rfl, rfl, rfl, rfl, rfl, rfl, fun _ _ => rfl⟩

theorem frame_post (s : S) (i e : Nat) : Frame s (post s i e) i := by
  unfold post
  split
  · exact ⟨rfl, rfl, rfl, rfl, rfl, rfl, rfl, fun j h => setD_other _ _ h⟩
  · split
    · exact ⟨rfl, rfl, rfl, rfl, rfl, rfl, rfl, fun j h => setD_other _ _ h⟩
    · split <;> exact ⟨rfl, rfl, rfl, rfl, rfl, rfl, rfl, fun j h => setD_other _ _ h⟩

theorem frame_post' {s s' : S} (i e : Nat) (h : Frame s s' i) : Frame s (post s' i e) i := by
  have k := frame_post s' i e
  exact ⟨k.nd.trans h.nd, k.nw.trans h.nw, k.drun.trans h.drun, k.wrun.trans h.wrun, k.main.trans h.main,
    k.saved.trans h.saved, k.work.trans h.work, fun j hj => (k.other j hj).trans (h.other j hj)⟩

theorem frame_disp (s : S) (i : Nat) (a : Recv) (e : Nat) : Frame s (dispStep s i a e) i := by
  unfold dispStep
  split
  · unfold take
    split
    · split
      · exact ⟨rfl, rfl, rfl, rfl, rfl, rfl, rfl, fun j h => setD_other _ _ h⟩
      · exact frame_refl s i
    · exact ⟨rfl, rfl, rfl, rfl, rfl, rfl, rfl, fun j h => setD_other _ _ h⟩
  · unfold recv
    split
    · cases a with
      | timeout => exact ⟨rfl, rfl, rfl, rfl, rfl, rfl, rfl, fun j h => setD_other _ _ h⟩
      | err c =>
        dsimp only
        split
        · exact frame_post' i _ ⟨rfl, rfl, rfl, rfl, rfl, rfl, rfl, fun _ _ => rfl⟩
        · split
          · exact frame_post' i _ ⟨rfl, rfl, rfl, rfl, rfl, rfl, rfl, fun _ _ => rfl⟩
          · split <;> exact frame_post' i _ ⟨rfl, rfl, rfl, rfl, rfl, rfl, rfl, fun _ _ => rfl⟩
      | req r =>
        dsimp only
        split
        · exact ⟨rfl, rfl, rfl, rfl, rfl, rfl, rfl, fun j h => setD_other _ _ h⟩
        · exact frame_post' i _ ⟨rfl, rfl, rfl, rfl, rfl, rfl, rfl, fun _ _ => rfl⟩
      | refused => exact frame_post' i _ ⟨rfl, rfl, rfl, rfl, rfl, rfl, rfl, fun _ _ => rfl⟩
    · exact frame_post' i _ ⟨rfl, rfl, rfl, rfl, rfl, rfl, rfl, fun _ _ => rfl⟩
  · unfold finish
    split <;> exact ⟨rfl, rfl, rfl, rfl, rfl, rfl, rfl, fun j h => setD_other _ _ h⟩
  · exact frame_post s i _
  · exact frame_refl s i
  · exact frame_refl s i

/-- Everything which `post` does. -/
theorem post_cases (s : S) (i e : Nat) :
    (post s i e = setD s i .loop) ∨
    (post s i e = setD { s with active := false } i (.ended e) ∧ e = 19) ∨
    (post s i e = setD s i (.ended e) ∧ e ≠ 19) := by
  unfold post
  by_cases h0 : e = 0
  · rw [if_pos h0]; exact Or.inl rfl
  · rw [if_neg h0]
    by_cases h1 : e = 19
    · rw [if_pos h1]; exact Or.inr (Or.inl ⟨rfl, h1⟩)
    · rw [if_neg h1]
      by_cases h2 : e = 10009 ∨ e = 10010
      · rw [if_pos h2]; exact Or.inl rfl
      · rw [if_neg h2]; exact Or.inr (Or.inr ⟨rfl, h1⟩)

/-- Outcomes of `dispStep`, one by one. -/
inductive Out (s : S) (i : Nat) : S → Prop where
  | same : Out s i s
  | take : s.disp i = .loop → s.execMode = true → s.allowed i = true → s.lock = none →
      Out s i (setD { s with lock := some i } i .chan)
  | leave : s.disp i = .loop → s.execMode = false → Out s i (setD s i (.ended 0))
  | back : s.disp i = .chan → Out s i (setD { s with lock := none } i .loop)
  | drop (e : Nat) : s.disp i = .chan → Out s i (setD { s with lock := none } i (.ended e))
  | dropOff (e : Nat) : s.disp i = .chan → Out s i (setD { s with lock := none, active := false } i (.ended e))
  | got (r : Req) : s.disp i = .chan → s.execMode = true → s.accepts r = true →
      Out s i (setD { s with lock := none, nopers := s.nopers + 1 } i (.exec r))
  | fin (r : Req) (e : Nat) : s.disp i = .exec r → Out s i (finish s i r e)
  | next (c : Nat) : s.disp i = .submit c → Out s i (setD s i .loop)
  | quit (c e : Nat) : s.disp i = .submit c → Out s i (setD s i (.ended e))
  | quitOff (c e : Nat) : s.disp i = .submit c → Out s i (setD { s with active := false } i (.ended e))

theorem out_post_chan (s : S) (i e : Nat) (h : s.disp i = .chan) : Out s i (post { s with lock := none } i e) := by
  rcases post_cases { s with lock := none } i e with h1 | ⟨h1, _⟩ | ⟨h1, _⟩
  · rw [h1]; exact .back h
  · rw [h1]; exact .dropOff e h
  · rw [h1]; exact .drop e h

theorem out_disp (s : S) (i : Nat) (a : Recv) (e : Nat) : Out s i (dispStep s i a e) := by
  unfold dispStep
  split
  · next h =>
    unfold take
    by_cases hm : s.execMode = true
    · rw [if_pos hm]
      by_cases hc : s.allowed i = true ∧ s.lock = none
      · rw [if_pos hc]; exact .take h hm hc.1 hc.2
      · rw [if_neg hc]; exact .same
    · rw [if_neg hm]; exact .leave h (by simpa using hm)
  · next h =>
    unfold recv
    by_cases hm : s.execMode = true
    · rw [if_pos hm]
      cases a with
      | timeout => exact .back h
      | err c =>
        dsimp only
        by_cases h1 : c = 19
        · rw [if_pos h1]
          exact .dropOff 19 h
        · rw [if_neg h1]
          by_cases h2 : c = 1022
          · rw [if_pos h2]
            exact .dropOff 1022 h
          · rw [if_neg h2]
            split
            · exact out_post_chan s i _ h
            · exact out_post_chan s i _ h
      | req r =>
        dsimp only
        by_cases h1 : s.accepts r = true
        · rw [if_pos h1]; exact .got r h hm h1
        · rw [if_neg h1]; exact out_post_chan s i _ h
      | refused => exact out_post_chan s i _ h
    · rw [if_neg hm]; exact out_post_chan s i _ h
  · next r h => exact .fin r e h
  · next c h =>
    rcases post_cases s i (if c ≠ 0 then (if c = 2 then 10010 else c) else (if e = 2 then 10010 else e))
      with h1 | ⟨h1, _⟩ | ⟨h1, _⟩
    · rw [h1]; exact .next c h
    · rw [h1]; exact .quitOff c _ h
    · rw [h1]; exact .quit c _ h
  · exact .same
  · exact .same

/-! ### What holds in every state -/

/-- Closing has begun. -/
def Main.closing : Main → Bool
  | .close0 => true
  | .flush => true
  | .fsync => true
  | .shut => true
  | .done => true
  | _ => false

/-- The dispatchers are joined. -/
def Main.joined : Main → Bool
  | .joinW _ _ => true
  | m => m.closing

/-- The flush is done. -/
def Main.flushed : Main → Bool
  | .fsync => true
  | .shut => true
  | .done => true
  | _ => false

/-- Past the start. -/
def Main.up : Main → Bool
  | .wait => true
  | .joinD _ false => true
  | .joinW _ false => true
  | m => m.closing

structure Inv (s : S) : Prop where
  le : s.drun ≤ s.nd
  unmade : ∀ i, s.drun ≤ i → s.disp i = .none
  alive : ∀ i, i < s.drun → s.disp i ≠ .none
  lock : ∀ i, s.lock = some i ↔ s.disp i = .chan
  startW : ∀ k, s.main = .startW k → s.drun = 0
  startD : ∀ k, s.main = .startD k → s.drun = k
  up : s.main.up = true → s.drun = s.nd
  few : s.drun < s.nd → (∀ i, s.disp i = .none ∨ s.disp i = .loop ∨ (s.disp i).over = true) ∧ s.made = []
  lead : ∀ i, i ≠ 0 → (s.disp i = .chan ∨ Busy (s.disp i)) → s.gotInit = true ∧ s.replyOk = true ∧ 1 < s.nopers
  got : ∀ i n, s.disp i = .exec (.other n) → s.gotInit = true
  joined : s.main.joined = true → ∀ i, i < s.drun → (s.disp i).over = true
  flushed : s.main.flushed = true → s.saved = s.made
  workers : s.main.closing = true → ∀ i, i < s.wrun → s.work i = .ended

theorem inv_init (nd nw : Nat) : Inv (init nd nw) where
  le := Nat.zero_le _
  unmade := fun _ _ => rfl
  alive := fun i h => by simp [init] at h
  lock := fun i => by simp [init]
  startW := fun _ _ => rfl
  startD := fun _ h => by simp [init] at h
  up := fun h => by simp [init, Main.up, Main.closing] at h
  few := fun _ => ⟨fun _ => Or.inl rfl, rfl⟩
  lead := fun i _ h => by simp [init, Busy] at h
  got := fun i n h => by simp [init] at h
  joined := fun h => by simp [init, Main.joined, Main.closing] at h
  flushed := fun h => by simp [init, Main.flushed] at h
  workers := fun h => by simp [init, Main.closing] at h

theorem inv_move {s t : S} {i : Nat} {d : Disp} (h : Inv s) (hi : s.disp i ≠ .none)
    (ho : (s.disp i).over = false) (hnd : t.nd = s.nd) (hdr : t.drun = s.drun) (hwr : t.wrun = s.wrun)
    (hm : t.main = s.main) (hsv : t.saved = s.saved) (hw : t.work = s.work)
    (hs : t.disp i = d) (hot : ∀ j, j ≠ i → t.disp j = s.disp j) (hd : d ≠ .none)
    (hlock : ∀ j, t.lock = some j ↔ t.disp j = .chan)
    (hfew : s.drun < s.nd → (d = .loop ∨ d.over = true) ∧ t.made = s.made)
    (hlead : ∀ j, j ≠ 0 → (t.disp j = .chan ∨ Busy (t.disp j)) → t.gotInit = true ∧ t.replyOk = true ∧ 1 < t.nopers)
    (hgot : ∀ j n, t.disp j = .exec (.other n) → t.gotInit = true) : Inv t := by
  have hlt : i < s.drun := by
    rcases Nat.lt_or_ge i s.drun with h1 | h1
    · exact h1
    · exact absurd (h.unmade i h1) hi
  have hj : s.main.joined = false := by
    cases hq : s.main.joined with
    | false => rfl
    | true => rw [h.joined hq i hlt] at ho; cases ho
  constructor
  · rw [hdr, hnd]; exact h.le
  · intro j hj2
    rw [hdr] at hj2
    rw [hot j (by omega)]; exact h.unmade j hj2
  · intro j hj2
    rw [hdr] at hj2
    by_cases hji : j = i
    · rw [hji, hs]; exact hd
    · rw [hot j hji]; exact h.alive j hj2
  · exact hlock
  · intro k hk; rw [hdr]; exact h.startW k (hm ▸ hk)
  · intro k hk; rw [hdr]; exact h.startD k (hm ▸ hk)
  · intro hu; rw [hdr, hnd]; exact h.up (hm ▸ hu)
  · intro hl
    rw [hdr, hnd] at hl
    refine ⟨fun j => ?_, (hfew hl).2.trans (h.few hl).2⟩
    by_cases hji : j = i
    · rw [hji, hs]; exact Or.inr (hfew hl).1
    · rw [hot j hji]; exact (h.few hl).1 j
  · exact hlead
  · exact hgot
  · intro hq; rw [hm, hj] at hq; cases hq
  · intro hq
    rw [hm] at hq
    have : s.main.joined = true := by
      revert hq; cases s.main <;> simp [Main.flushed, Main.joined, Main.closing]
    rw [hj] at this; cases this
  · intro hq
    rw [hm] at hq
    have : s.main.joined = true := by
      revert hq; cases s.main <;> simp [Main.flushed, Main.joined, Main.closing]
    rw [hj] at this; cases this

theorem busy_exec (r : Req) : Busy (.exec r) := trivial
theorem busy_submit (e : Nat) : Busy (.submit e) := trivial

theorem full_of {s : S} (h : Inv s) {i : Nat} (hd : s.disp i = .chan ∨ Busy (s.disp i)) : ¬ s.drun < s.nd := by
  intro hl
  have h1 := (h.few hl).1 i
  rcases h1 with h1 | h1 | h1
  · rw [h1] at hd; rcases hd with hd | hd <;> cases hd
  · rw [h1] at hd; rcases hd with hd | hd <;> cases hd
  · cases hq : s.disp i <;> rw [hq] at h1 hd <;> simp [Disp.over, Busy] at h1 hd

theorem inv_out {s t : S} {i : Nat} (h : Inv s) (o : Out s i t) : Inv t := by
  have hlk := h.lock
  have hld := h.lead
  have hgt := h.got
  cases o with
  | same => exact h
  | take h1 h2 h3 h4 =>
    refine inv_move (i := i) (d := .chan) h (by rw [h1]; nofun) (by rw [h1]; rfl) rfl rfl rfl rfl rfl rfl
      (setD_same _ _ _) (fun j hj => setD_other _ _ hj) nofun ?_ ?_ ?_ ?_
    · simp only [setD]; grind
    · intro hl; exfalso
      unfold S.allowed at h3
      simp only [Bool.and_eq_true, decide_eq_true_eq] at h3
      omega
    · intro j hj hb
      by_cases hji : j = i
      · subst hji
        unfold S.allowed S.normal at h3
        simp only [Bool.and_eq_true, Bool.or_eq_true, decide_eq_true_eq] at h3
        rcases h3.2 with h5 | h5
        · exact absurd h5 hj
        · exact ⟨h5.1.1.1, h5.1.1.2, h5.2⟩
      · rw [setD_other _ _ hji] at hb; exact hld j hj hb
    · intro j n hb
      by_cases hji : j = i
      · rw [hji, setD_same] at hb; cases hb
      · rw [setD_other _ _ hji] at hb; exact hgt j n hb
  | leave h1 h2 =>
    refine inv_move (i := i) (d := .ended 0) h (by rw [h1]; nofun) (by rw [h1]; rfl) rfl rfl rfl rfl rfl rfl
      (setD_same _ _ _) (fun j hj => setD_other _ _ hj) nofun ?_ (fun _ => ⟨Or.inr rfl, rfl⟩) ?_ ?_
    · simp only [setD]; grind
    · intro j hj hb
      by_cases hji : j = i
      · rw [hji, setD_same] at hb; rcases hb with hb | hb <;> cases hb
      · rw [setD_other _ _ hji] at hb; exact hld j hj hb
    · intro j n hb
      by_cases hji : j = i
      · rw [hji, setD_same] at hb; cases hb
      · rw [setD_other _ _ hji] at hb; exact hgt j n hb
  | back h1 =>
    refine inv_move (i := i) (d := .loop) h (by rw [h1]; nofun) (by rw [h1]; rfl) rfl rfl rfl rfl rfl rfl
      (setD_same _ _ _) (fun j hj => setD_other _ _ hj) nofun ?_ (fun _ => ⟨Or.inl rfl, rfl⟩) ?_ ?_
    · simp only [setD]; grind
    · intro j hj hb
      by_cases hji : j = i
      · rw [hji, setD_same] at hb; rcases hb with hb | hb <;> cases hb
      · rw [setD_other _ _ hji] at hb; exact hld j hj hb
    · intro j n hb
      by_cases hji : j = i
      · rw [hji, setD_same] at hb; cases hb
      · rw [setD_other _ _ hji] at hb; exact hgt j n hb
  | drop e h1 =>
    refine inv_move (i := i) (d := .ended e) h (by rw [h1]; nofun) (by rw [h1]; rfl) rfl rfl rfl rfl rfl rfl
      (setD_same _ _ _) (fun j hj => setD_other _ _ hj) nofun ?_ (fun _ => ⟨Or.inr rfl, rfl⟩) ?_ ?_
    · simp only [setD]; grind
    · intro j hj hb
      by_cases hji : j = i
      · rw [hji, setD_same] at hb; rcases hb with hb | hb <;> cases hb
      · rw [setD_other _ _ hji] at hb; exact hld j hj hb
    · intro j n hb
      by_cases hji : j = i
      · rw [hji, setD_same] at hb; cases hb
      · rw [setD_other _ _ hji] at hb; exact hgt j n hb
  | dropOff e h1 =>
    refine inv_move (i := i) (d := .ended e) h (by rw [h1]; nofun) (by rw [h1]; rfl) rfl rfl rfl rfl rfl rfl
      (setD_same _ _ _) (fun j hj => setD_other _ _ hj) nofun ?_ (fun _ => ⟨Or.inr rfl, rfl⟩) ?_ ?_
    · simp only [setD]; grind
    · intro j hj hb
      by_cases hji : j = i
      · rw [hji, setD_same] at hb; rcases hb with hb | hb <;> cases hb
      · rw [setD_other _ _ hji] at hb; exact hld j hj hb
    · intro j n hb
      by_cases hji : j = i
      · rw [hji, setD_same] at hb; cases hb
      · rw [setD_other _ _ hji] at hb; exact hgt j n hb
  | got r h1 h2 h3 =>
    refine inv_move (i := i) (d := .exec r) h (by rw [h1]; nofun) (by rw [h1]; rfl) rfl rfl rfl rfl rfl rfl
      (setD_same _ _ _) (fun j hj => setD_other _ _ hj) nofun ?_ (fun hl => absurd hl (full_of h (Or.inl h1))) ?_ ?_
    · simp only [setD]; grind
    · intro j hj hb
      have key : s.gotInit = true ∧ s.replyOk = true ∧ 1 < s.nopers := by
        by_cases hji : j = i
        · rw [hji] at hj; exact hld i hj (Or.inl h1)
        · rw [setD_other _ _ hji] at hb; exact hld j hj hb
      exact ⟨key.1, key.2.1, Nat.lt_succ_of_lt key.2.2⟩
    · intro j n hb
      by_cases hji : j = i
      · rw [hji, setD_same] at hb
        cases hb
        exact h3
      · rw [setD_other _ _ hji] at hb; exact hgt j n hb
  | fin r e h1 =>
    have hfull := full_of h (i := i) (Or.inr (by rw [h1]; trivial))
    have hl2 : ∀ (u : S) (c : Nat), u.lock = s.lock → u.disp = s.disp →
        ∀ j, (setD u i (.submit c)).lock = some j ↔ (setD u i (.submit c)).disp j = .chan := by
      intro u c h5 h6; simp only [setD, h5, h6]; grind
    have hl3 : ∀ (u : S) (c : Nat), (s.gotInit = true → u.gotInit = true) → (s.replyOk = true → u.replyOk = true) →
        u.nopers = s.nopers → u.disp = s.disp → ∀ j, j ≠ 0 →
        ((setD u i (.submit c)).disp j = .chan ∨ Busy ((setD u i (.submit c)).disp j)) →
        u.gotInit = true ∧ u.replyOk = true ∧ 1 < u.nopers := by
      intro u c h5 h6 h7 h8 j hj hb
      have key : s.gotInit = true ∧ s.replyOk = true ∧ 1 < s.nopers := by
        by_cases hji : j = i
        · rw [hji] at hj; exact hld i hj (Or.inr (by rw [h1]; trivial))
        · rw [setD_other _ _ hji, h8] at hb; exact hld j hj hb
      exact ⟨h5 key.1, h6 key.2.1, by rw [h7]; exact key.2.2⟩
    have hl4 : ∀ (u : S) (c : Nat), (s.gotInit = true → u.gotInit = true) → u.disp = s.disp →
        ∀ j n, (setD u i (.submit c)).disp j = .exec (.other n) → u.gotInit = true := by
      intro u c h5 h8 j n hb
      by_cases hji : j = i
      · rw [hji, setD_same] at hb; cases hb
      · rw [setD_other _ _ hji, h8] at hb; exact h5 (hgt j n hb)
    unfold finish
    split
    · exact inv_move (i := i) (d := .submit e) h (by rw [h1]; nofun) (by rw [h1]; rfl) rfl rfl rfl rfl rfl rfl
        (setD_same _ _ _) (fun j hj => setD_other _ _ hj) nofun (hl2 _ _ rfl rfl) (fun hl => absurd hl hfull)
        (hl3 _ _ (fun _ => rfl) (fun hr => by simp [hr]) rfl rfl) (hl4 _ _ (fun _ => rfl) rfl)
    · exact inv_move (i := i) (d := .submit 71) h (by rw [h1]; nofun) (by rw [h1]; rfl) rfl rfl rfl rfl rfl rfl
        (setD_same _ _ _) (fun j hj => setD_other _ _ hj) nofun (hl2 _ _ rfl rfl) (fun hl => absurd hl hfull)
        (hl3 _ _ (fun x => x) (fun x => x) rfl rfl) (hl4 _ _ (fun x => x) rfl)
    · exact inv_move (i := i) (d := .submit e) h (by rw [h1]; nofun) (by rw [h1]; rfl) rfl rfl rfl rfl rfl rfl
        (setD_same _ _ _) (fun j hj => setD_other _ _ hj) nofun (hl2 _ _ rfl rfl) (fun hl => absurd hl hfull)
        (hl3 _ _ (fun x => x) (fun x => x) rfl rfl) (hl4 _ _ (fun x => x) rfl)
    · exact inv_move (i := i) (d := .submit e) h (by rw [h1]; nofun) (by rw [h1]; rfl) rfl rfl rfl rfl rfl rfl
        (setD_same _ _ _) (fun j hj => setD_other _ _ hj) nofun (hl2 _ _ rfl rfl) (fun hl => absurd hl hfull)
        (hl3 _ _ (fun x => x) (fun x => x) rfl rfl) (hl4 _ _ (fun x => x) rfl)
  | next c h1 =>
    refine inv_move (i := i) (d := .loop) h (by rw [h1]; nofun) (by rw [h1]; rfl) rfl rfl rfl rfl rfl rfl
      (setD_same _ _ _) (fun j hj => setD_other _ _ hj) nofun ?_ (fun _ => ⟨Or.inl rfl, rfl⟩) ?_ ?_
    · simp only [setD]; grind
    · intro j hj hb
      by_cases hji : j = i
      · rw [hji, setD_same] at hb; rcases hb with hb | hb <;> cases hb
      · rw [setD_other _ _ hji] at hb; exact hld j hj hb
    · intro j n hb
      by_cases hji : j = i
      · rw [hji, setD_same] at hb; cases hb
      · rw [setD_other _ _ hji] at hb; exact hgt j n hb
  | quit c e h1 =>
    refine inv_move (i := i) (d := .ended e) h (by rw [h1]; nofun) (by rw [h1]; rfl) rfl rfl rfl rfl rfl rfl
      (setD_same _ _ _) (fun j hj => setD_other _ _ hj) nofun ?_ (fun _ => ⟨Or.inr rfl, rfl⟩) ?_ ?_
    · simp only [setD]; grind
    · intro j hj hb
      by_cases hji : j = i
      · rw [hji, setD_same] at hb; rcases hb with hb | hb <;> cases hb
      · rw [setD_other _ _ hji] at hb; exact hld j hj hb
    · intro j n hb
      by_cases hji : j = i
      · rw [hji, setD_same] at hb; cases hb
      · rw [setD_other _ _ hji] at hb; exact hgt j n hb
  | quitOff c e h1 =>
    refine inv_move (i := i) (d := .ended e) h (by rw [h1]; nofun) (by rw [h1]; rfl) rfl rfl rfl rfl rfl rfl
      (setD_same _ _ _) (fun j hj => setD_other _ _ hj) nofun ?_ (fun _ => ⟨Or.inr rfl, rfl⟩) ?_ ?_
    · simp only [setD]; grind
    · intro j hj hb
      by_cases hji : j = i
      · rw [hji, setD_same] at hb; rcases hb with hb | hb <;> cases hb
      · rw [setD_other _ _ hji] at hb; exact hld j hj hb
    · intro j n hb
      by_cases hji : j = i
      · rw [hji, setD_same] at hb; cases hb
      · rw [setD_other _ _ hji] at hb; exact hgt j n hb

theorem setD_id (s : S) (i : Nat) (d : Disp) (h : s.disp i = d) : setD s i d = s := by
  have : (fun j => if j = i then d else s.disp j) = s.disp := by
    funext j; split
    · next hj => rw [hj, h]
    · rfl
  unfold setD
  rw [this]

theorem inv_end {s : S} {i : Nat} (h : Inv s) (e : Nat) (b : Bool) (h1 : s.disp i = .loop) :
    Inv (setD { s with active := b } i (.ended e)) := by
  have hlk := h.lock
  refine inv_move (i := i) (d := .ended e) h (by rw [h1]; nofun) (by rw [h1]; rfl) rfl rfl rfl rfl rfl rfl
    (setD_same _ _ _) (fun j hj => setD_other _ _ hj) nofun ?_ (fun _ => ⟨Or.inr rfl, rfl⟩) ?_ ?_
  · simp only [setD]; grind
  · intro j hj hb
    by_cases hji : j = i
    · rw [hji, setD_same] at hb; rcases hb with hb | hb <;> cases hb
    · rw [setD_other _ _ hji] at hb; exact h.lead j hj hb
  · intro j n hb
    by_cases hji : j = i
    · rw [hji, setD_same] at hb; cases hb
    · rw [setD_other _ _ hji] at hb; exact h.got j n hb

theorem inv_prep {s : S} {i e : Nat} (h : Inv s) : Inv (step s (.prep i e)) := by
  unfold step
  dsimp only
  by_cases hc : s.disp i = .loop ∧ s.execMode = true ∧ s.allowed i = true
  · rw [if_pos hc]
    rcases post_cases s i e with h1 | ⟨h1, _⟩ | ⟨h1, _⟩
    · rw [h1, setD_id _ _ _ hc.1]; exact h
    · rw [h1]; exact inv_end h e false hc.1
    · rw [h1]; exact inv_end h e s.active hc.1
  · rw [if_neg hc]; exact h

theorem inv_work {s : S} {i e : Nat} (h : Inv s) : Inv (step s (.work i e)) := by
  unfold step
  dsimp only
  by_cases hc : s.work i = .run
  · rw [if_pos hc]
    by_cases hd : s.execMode = true ∧ e = 0
    · rw [if_pos hd]; exact h
    · rw [if_neg hd]
      refine ⟨h.le, h.unmade, h.alive, h.lock, h.startW, h.startD, h.up, h.few, h.lead, h.got, h.joined, h.flushed, ?_⟩
      intro hq j hj
      have := h.workers hq j hj
      show (if j = i then Work.ended else s.work j) = .ended
      split
      · rfl
      · exact this
  · rw [if_neg hc]; exact h

theorem inv_sig {s : S} (h : Inv s) : Inv (halt s) := by
  unfold halt
  split
  all_goals first
    | exact h
    | exact ⟨h.le, h.unmade, h.alive, h.lock, h.startW, h.startD, h.up, h.few, h.lead, h.got, h.joined, h.flushed, h.workers⟩
    | exact ⟨h.le, h.unmade, h.alive, h.lock, nofun, nofun, nofun, h.few, h.lead, h.got, nofun, nofun, nofun⟩

theorem allD_iff (s : S) : s.allD = true ↔ ∀ i, i < s.drun → (s.disp i).over = true := by
  simp [S.allD, List.all_eq_true]

theorem allW_iff (s : S) : s.allW = true ↔ ∀ i, i < s.wrun → s.work i = .ended := by
  simp [S.allW, List.all_eq_true]

theorem inv_main {s : S} (ok : Bool) (h : Inv s) : Inv (mainStep s ok) := by
  unfold mainStep
  split
  · next k hk =>
    have h0 := h.startW k hk
    split
    · split
      · refine ⟨h.le, h.unmade, h.alive, h.lock, fun _ _ => h0, nofun, nofun, h.few, h.lead, h.got, nofun, nofun, nofun⟩
      · refine ⟨h.le, h.unmade, h.alive, h.lock, nofun, nofun, nofun, h.few, h.lead, h.got, nofun, nofun, nofun⟩
    · refine ⟨h.le, h.unmade, h.alive, h.lock, nofun, ?_, nofun, h.few, h.lead, h.got, nofun, nofun, nofun⟩
      intro k' hk'; cases hk'; exact h0
  · next k hk =>
    have h0 := h.startD k hk
    split
    · next hlt =>
      split
      · have hle := h.le
        have hun := h.unmade k (by omega)
        refine ⟨hlt, ?_, ?_, ?_, nofun, ?_, nofun, ?_, ?_, ?_, nofun, nofun, nofun⟩
        · intro i hi
          have hi2 : k + 1 ≤ i := hi
          show (if i = k then Disp.loop else s.disp i) = .none
          rw [if_neg (by omega)]
          exact h.unmade i (by omega)
        · intro i hi
          have hi2 : i < k + 1 := hi
          show (if i = k then Disp.loop else s.disp i) ≠ .none
          split
          · nofun
          · exact h.alive i (by omega)
        · intro i
          have h2 := h.lock i
          show s.lock = some i ↔ (if i = k then Disp.loop else s.disp i) = .chan
          split
          · next hik =>
            subst hik
            rw [hun] at h2
            constructor
            · intro h3; exact absurd (h2.mp h3) nofun
            · nofun
          · exact h2
        · intro k' hk'; cases hk'; rfl
        · intro hl
          have hf := h.few (by omega)
          refine ⟨fun i => ?_, hf.2⟩
          show (if i = k then Disp.loop else s.disp i) = .none ∨ (if i = k then Disp.loop else s.disp i) = .loop ∨
            (if i = k then Disp.loop else s.disp i).over = true
          split
          · exact Or.inr (Or.inl rfl)
          · exact hf.1 i
        · intro i hi hb
          have hb2 : (if i = k then Disp.loop else s.disp i) = .chan ∨ Busy (if i = k then Disp.loop else s.disp i) := hb
          split at hb2
          · rcases hb2 with hb2 | hb2 <;> cases hb2
          · exact h.lead i hi hb2
        · intro i n hb
          have hb2 : (if i = k then Disp.loop else s.disp i) = .exec (.other n) := hb
          split at hb2
          · cases hb2
          · exact h.got i n hb2
      · refine ⟨h.le, h.unmade, h.alive, h.lock, nofun, nofun, nofun, h.few, h.lead, h.got, nofun, nofun, nofun⟩
    · next hge =>
      refine ⟨h.le, h.unmade, h.alive, h.lock, nofun, nofun, ?_, h.few, h.lead, h.got, nofun, nofun, nofun⟩
      intro _
      have := h.le
      show s.drun = s.nd
      omega
  · next hk =>
    split
    · exact h
    · exact ⟨h.le, h.unmade, h.alive, h.lock, nofun, nofun, fun _ => h.up (by rw [hk]; rfl), h.few, h.lead, h.got, nofun, nofun, nofun⟩
  · next n f hk =>
    split
    · exact ⟨h.le, h.unmade, h.alive, h.lock, nofun, nofun, nofun, h.few, h.lead, h.got, nofun, nofun, nofun⟩
    · split
      · next ha =>
        refine ⟨h.le, h.unmade, h.alive, h.lock, nofun, nofun, ?_, h.few, h.lead, h.got, ?_, nofun, nofun⟩
        · intro hu
          cases f with
          | true => cases hu
          | false => exact h.up (by rw [hk]; rfl)
        · intro _; exact (allD_iff s).mp ha
      · refine ⟨h.le, h.unmade, h.alive, h.lock, nofun, nofun, ?_, h.few, h.lead, h.got, nofun, nofun, nofun⟩
        intro hu
        cases f with
        | true => cases hu
        | false => exact h.up (by rw [hk]; rfl)
  · next n f hk =>
    split
    · exact ⟨h.le, h.unmade, h.alive, h.lock, nofun, nofun, nofun, h.few, h.lead, h.got, nofun, nofun, nofun⟩
    · split
      · next ha =>
        split
        · exact ⟨h.le, h.unmade, h.alive, h.lock, nofun, nofun, nofun, h.few, h.lead, h.got, nofun, nofun, nofun⟩
        · next hf =>
          refine ⟨h.le, h.unmade, h.alive, h.lock, nofun, nofun, ?_, h.few, h.lead, h.got, ?_, nofun, ?_⟩
          · intro _
            cases f with
            | true => exact absurd rfl hf
            | false => exact h.up (by rw [hk]; rfl)
          · intro _; exact h.joined (by rw [hk]; rfl)
          · intro _; exact (allW_iff s).mp ha
      · refine ⟨h.le, h.unmade, h.alive, h.lock, nofun, nofun, ?_, h.few, h.lead, h.got, fun _ => h.joined (by rw [hk]; rfl), nofun, nofun⟩
        intro hu
        cases f with
        | true => cases hu
        | false => exact h.up (by rw [hk]; rfl)
  · next hk =>
    exact ⟨h.le, h.unmade, h.alive, h.lock, nofun, nofun, fun _ => h.up (by rw [hk]; rfl), h.few, h.lead, h.got,
      fun _ => h.joined (by rw [hk]; rfl), nofun, fun _ => h.workers (by rw [hk]; rfl)⟩
  · next hk =>
    split
    · exact ⟨h.le, h.unmade, h.alive, h.lock, nofun, nofun, fun _ => h.up (by rw [hk]; rfl), h.few, h.lead, h.got,
        fun _ => h.joined (by rw [hk]; rfl), fun _ => rfl, fun _ => h.workers (by rw [hk]; rfl)⟩
    · exact ⟨h.le, h.unmade, h.alive, h.lock, nofun, nofun, nofun, h.few, h.lead, h.got, nofun, nofun, nofun⟩
  · next hk =>
    split
    · exact ⟨h.le, h.unmade, h.alive, h.lock, nofun, nofun, fun _ => h.up (by rw [hk]; rfl), h.few, h.lead, h.got,
        fun _ => h.joined (by rw [hk]; rfl), fun _ => h.flushed (by rw [hk]; rfl), fun _ => h.workers (by rw [hk]; rfl)⟩
    · exact ⟨h.le, h.unmade, h.alive, h.lock, nofun, nofun, nofun, h.few, h.lead, h.got, nofun, nofun, nofun⟩
  · next hk =>
    split
    · exact ⟨h.le, h.unmade, h.alive, h.lock, nofun, nofun, fun _ => h.up (by rw [hk]; rfl), h.few, h.lead, h.got,
        fun _ => h.joined (by rw [hk]; rfl), fun _ => h.flushed (by rw [hk]; rfl), fun _ => h.workers (by rw [hk]; rfl)⟩
    · exact ⟨h.le, h.unmade, h.alive, h.lock, nofun, nofun, nofun, h.few, h.lead, h.got, nofun, nofun, nofun⟩
  · exact h

theorem inv_step {s : S} (h : Inv s) (ev : Ev) : Inv (step s ev) := by
  cases ev with
  | disp i a e => exact inv_out h (out_disp s i a e)
  | prep i e => exact inv_prep h
  | work i e => exact inv_work h
  | main ok => exact inv_main ok h
  | sig => exact inv_sig h

theorem inv_run {s : S} (h : Inv s) (es : List Ev) : Inv (run s es) := by
  induction es generalizing s with
  | nil => exact h
  | cons e es ih => exact ih (inv_step h e)

theorem inv_reach {s : S} (h : Reach s) : Inv s := by
  obtain ⟨nd, nw, es, _, rfl⟩ := h
  exact inv_run (inv_init nd nw) es

/-! ### Stopping -/

/-- Sum of the first values. -/
def sumTo (f : Nat → Nat) : Nat → Nat
  | 0 => 0
  | n + 1 => sumTo f n + f n

theorem sumTo_le {f g : Nat → Nat} : ∀ n, (∀ i, i < n → f i ≤ g i) → sumTo f n ≤ sumTo g n
  | 0, _ => Nat.le_refl _
  | n + 1, h => Nat.add_le_add (sumTo_le n (fun i hi => h i (by omega))) (h n (by omega))

theorem sumTo_lt {f g : Nat → Nat} : ∀ n, (∀ i, i < n → f i ≤ g i) → (∃ i, i < n ∧ f i < g i) →
    sumTo f n < sumTo g n
  | 0, _, ⟨i, hi, _⟩ => absurd hi (by omega)
  | n + 1, h, ⟨i, hi, hlt⟩ => by
    have h1 := sumTo_le n (fun i hi => h i (by omega))
    have h2 := h n (by omega)
    show sumTo f n + f n < sumTo g n + g n
    by_cases hin : i = n
    · subst hin; omega
    · have := sumTo_lt n (fun i hi => h i (by omega)) ⟨i, by omega, hlt⟩
      omega

theorem sumTo_bound {f : Nat → Nat} {c : Nat} : ∀ n, (∀ i, i < n → f i ≤ c) → sumTo f n ≤ c * n
  | 0, _ => Nat.le_refl _
  | n + 1, h => by
    have h1 := sumTo_bound n (fun i hi => h i (by omega))
    have h2 := h n (by omega)
    show sumTo f n + f n ≤ c * (n + 1)
    rw [Nat.mul_succ]; omega

theorem sumTo_zero {f : Nat → Nat} : ∀ n, sumTo f n = 0 → ∀ i, i < n → f i = 0
  | 0, _, i, hi => absurd hi (by omega)
  | n + 1, h, i, hi => by
    have h0 : sumTo f n + f n = 0 := h
    by_cases hin : i = n
    · subst hin; omega
    · exact sumTo_zero n (by omega) i (by omega)

/-- How far a dispatcher is from its end. -/
def w (active live : Bool) : Disp → Nat
  | .none => 0
  | .ended _ => 0
  | .exec _ => if active then 30 else 20
  | .submit _ => if active then 28 else if live then 18 else 3
  | .loop => if active then 26 else if live then 16 else 1
  | .chan => if active then 24 else if live then 16 else 2

def phi (s : S) : Nat := sumTo (fun i => w s.active s.live (s.disp i)) s.nd

theorem w_mono (a a' l l' : Bool) (d : Disp) (ha : a' = true → a = true) (hl : l' = true → l = true) :
    w a' l' d ≤ w a l d := by
  cases a <;> cases a' <;> cases l <;> cases l' <;> cases d <;> simp [w] at *

theorem live_iff (s : S) : s.live = true ↔ ∃ i, i < s.nd ∧ (s.disp i).live = true := by
  simp [S.live, List.any_eq_true]

/-- Someone will bring the file-system down. -/
def Hope (g : Bool) (s : S) : Prop :=
  s.active = false ∨ (g = true ∧ ∃ i, i < s.nd ∧ (i = 0 ∨ s.normal = true) ∧ Fine (s.disp i))

/-- A dispatcher which gets on as soon as it is given the processor. -/
def Ready (s : S) (i : Nat) : Prop :=
  match s.disp i with
  | .none => False
  | .ended _ => False
  | .exec _ => True
  | .submit _ => True
  | .chan => s.active = true ∨ s.live = false
  | .loop => (s.active = true ∧ s.allowed i = true ∧ s.lock = none) ∨ s.execMode = false

theorem live_mono {s t : S} {i : Nat} (hnd : t.nd = s.nd) (hot : ∀ j, j ≠ i → t.disp j = s.disp j)
    (hi : (t.disp i).live = true → (s.disp i).live = true) : t.live = true → s.live = true := by
  rw [live_iff, live_iff, hnd]
  rintro ⟨j, hj, hl⟩
  refine ⟨j, hj, ?_⟩
  by_cases hji : j = i
  · rw [hji] at hl ⊢; exact hi hl
  · rw [← hot j hji]; exact hl

theorem live_same {s t : S} {i : Nat} (hnd : t.nd = s.nd) (hot : ∀ j, j ≠ i → t.disp j = s.disp j)
    (hi : (t.disp i).live = (s.disp i).live) : t.live = s.live := by
  have h1 := live_mono hnd hot (fun h => hi ▸ h)
  have h2 := live_mono (s := t) (t := s) hnd.symm (fun j hj => (hot j hj).symm) (fun h => hi ▸ h)
  cases ht : t.live <;> cases hs : s.live
  · rfl
  · rw [h2 hs] at ht; cases ht
  · rw [h1 ht] at hs; cases hs
  · rfl

theorem phi_le {s t : S} {i : Nat} (hnd : t.nd = s.nd) (ha : t.active = true → s.active = true)
    (hot : ∀ j, j ≠ i → t.disp j = s.disp j) (hi : (t.disp i).live = true → (s.disp i).live = true)
    (hw : w s.active s.live (t.disp i) ≤ w s.active s.live (s.disp i)) : phi t ≤ phi s := by
  unfold phi
  rw [hnd]
  apply sumTo_le
  intro j hj
  have h1 := w_mono s.active t.active s.live t.live (t.disp j) ha (live_mono hnd hot hi)
  by_cases hji : j = i
  · subst hji; exact Nat.le_trans h1 hw
  · rw [hot j hji] at h1 ⊢; exact h1

theorem phi_lt {s t : S} {i : Nat} (hin : i < s.nd) (hnd : t.nd = s.nd) (ha : t.active = true → s.active = true)
    (hot : ∀ j, j ≠ i → t.disp j = s.disp j) (hi : (t.disp i).live = true → (s.disp i).live = true)
    (hw : w s.active s.live (t.disp i) < w s.active s.live (s.disp i)) : phi t < phi s := by
  unfold phi
  rw [hnd]
  apply sumTo_lt
  · intro j hj
    have h1 := w_mono s.active t.active s.live t.live (t.disp j) ha (live_mono hnd hot hi)
    by_cases hji : j = i
    · subst hji; exact Nat.le_trans h1 (Nat.le_of_lt hw)
    · rw [hot j hji] at h1 ⊢; exact h1
  · exact ⟨i, hin, Nat.lt_of_le_of_lt (w_mono s.active t.active s.live t.live (t.disp i) ha (live_mono hnd hot hi)) hw⟩

theorem execMode_false {s : S} (h : s.execMode = false) : s.active = false ∧ s.live = false := by
  unfold S.execMode at h
  simpa using h

theorem execMode_true {s : S} (h : s.execMode = true) (ha : s.active = false) : s.live = true := by
  unfold S.execMode at h
  simpa [ha] using h

/-- What a quiet event does to the distance. -/
def Gets (s t : S) (ev : Ev) : Prop :=
  phi t < phi s ∨ (phi t ≤ phi s ∧ ∀ j, Ready s j → Ready t j ∧ ∀ a e, ev ≠ .disp j a e)

theorem gets_same {s : S} {ev : Ev} (h : ∀ j a e, ev = .disp j a e → ¬ Ready s j) : Gets s s ev :=
  Or.inr ⟨Nat.le_refl _, fun j hj => ⟨hj, fun a e he => h j a e he hj⟩⟩

/-- A dispatcher goes between the head of its loop and the channel while others are live. -/
theorem gets_swap {s t : S} {i : Nat} {a : Recv} {e : Nat} (hact : s.active = false) (hlive : s.live = true)
    (hnd : t.nd = s.nd) (ha : t.active = s.active) (hot : ∀ j, j ≠ i → t.disp j = s.disp j)
    (hd : (s.disp i = .loop ∧ t.disp i = .chan) ∨ (s.disp i = .chan ∧ t.disp i = .loop)) :
    Gets s t (.disp i a e) := by
  have hl : (t.disp i).live = (s.disp i).live := by
    rcases hd with ⟨h1, h2⟩ | ⟨h1, h2⟩ <;> rw [h1, h2] <;> rfl
  have hls := live_same hnd hot hl
  have hni : ¬ Ready s i := by
    unfold Ready
    rcases hd with ⟨h1, h2⟩ | ⟨h1, h2⟩
    · rw [h1]; simp only [hact, S.execMode, hlive]; simp
    · rw [h1]; simp only [hact, hlive]; simp
  refine Or.inr ⟨phi_le hnd (fun h => ha ▸ h) hot (fun h => hl ▸ h) ?_, ?_⟩
  · rw [hact, hlive]
    rcases hd with ⟨h1, h2⟩ | ⟨h1, h2⟩ <;> rw [h1, h2] <;> decide
  · intro j hj
    have hji : j ≠ i := fun h => hni (h ▸ hj)
    refine ⟨?_, fun a' e' he => hji (by cases he; rfl)⟩
    unfold Ready at hj ⊢
    rw [hot j hji]
    cases hq : s.disp j with
    | none => rw [hq] at hj; exact hj
    | ended _ => rw [hq] at hj; exact hj
    | exec _ => trivial
    | submit _ => trivial
    | chan => rw [hq] at hj; simp [hact, hlive] at hj
    | loop => rw [hq] at hj; simp [hact, hlive, S.execMode] at hj

theorem finish_frame (s : S) (i : Nat) (r : Req) (e : Nat) :
    ∃ c, (finish s i r e).disp i = .submit c ∧ (finish s i r e).nd = s.nd ∧
      ((finish s i r e).active = true → s.active = true) ∧ ∀ j, j ≠ i → (finish s i r e).disp j = s.disp j := by
  unfold finish
  split
  · exact ⟨_, setD_same _ _ _, rfl, fun h => h, fun j h => setD_other _ _ h⟩
  · exact ⟨_, setD_same _ _ _, rfl, fun h => h, fun j h => setD_other _ _ h⟩
  · exact ⟨_, setD_same _ _ _, rfl, nofun, fun j h => setD_other _ _ h⟩
  · exact ⟨_, setD_same _ _ _, rfl, fun h => h, fun j h => setD_other _ _ h⟩

theorem w_pos {d : Disp} (h1 : d ≠ .none) (h2 : d.over = false) (a l : Bool) : 0 < w a l d := by
  cases d <;> cases a <;> cases l <;> simp_all [w, Disp.over]

theorem gets_disp {g : Bool} {s : S} {i : Nat} {a : Recv} {e : Nat} (hinv : Inv s) (hfull : s.drun = s.nd)
    (hope : Hope g s) (hq : Quiet g (.disp i a e)) : Gets s (dispStep s i a e) (.disp i a e) := by
  by_cases hin : i < s.nd
  · unfold dispStep
    split
    · next hd =>
      unfold take
      by_cases hm : s.execMode = true
      · rw [if_pos hm]
        by_cases hc : s.allowed i = true ∧ s.lock = none
        · rw [if_pos hc]
          by_cases ha : s.active = true
          · refine Or.inl (phi_lt (i := i) hin rfl (fun h => h) (fun j h => setD_other _ _ h) ?_ ?_)
            · rw [setD_same]; nofun
            · rw [setD_same, hd, ha]; simp [w]
          · have ha : s.active = false := by simpa using ha
            exact gets_swap ha (execMode_true hm ha) rfl rfl (fun j h => setD_other _ _ h)
              (Or.inl ⟨hd, setD_same _ _ _⟩)
        · rw [if_neg hc]
          apply gets_same
          intro j a' e' he hr
          cases he
          unfold Ready at hr
          rw [hd] at hr
          dsimp only at hr
          rcases hr with hr | hr
          · exact hc hr.2
          · rw [hm] at hr; cases hr
      · rw [if_neg hm]
        have hm2 : s.execMode = false := by simpa using hm
        obtain ⟨h1, h2⟩ := execMode_false hm2
        refine Or.inl (phi_lt (i := i) hin rfl (fun h => h) (fun j h => setD_other _ _ h) ?_ ?_)
        · rw [setD_same]; nofun
        · rw [setD_same, hd, h1, h2]; decide
    · next hd =>
      unfold recv
      by_cases hm : s.execMode = true
      · rw [if_pos hm]
        rcases hq.1 with rfl | ⟨hg, rfl⟩
        · dsimp only
          rw [if_pos rfl]
          refine Or.inl (phi_lt (i := i) (t := setD { s with lock := none, active := false } i (.ended 19)) hin rfl
            (by nofun) (fun j h => setD_other _ _ h) ?_ ?_)
          · rw [setD_same]; nofun
          · rw [setD_same]
            exact w_pos (by rw [hd]; nofun) (by rw [hd]; rfl) _ _
        · have ha : s.active = false := by
            rcases hope with h | ⟨h, _⟩
            · exact h
            · rw [hg] at h; cases h
          exact gets_swap ha (execMode_true hm ha) rfl rfl (fun j h => setD_other _ _ h)
            (Or.inr ⟨hd, setD_same _ _ _⟩)
      · rw [if_neg hm]
        have hm2 : s.execMode = false := by simpa using hm
        obtain ⟨h1, h2⟩ := execMode_false hm2
        refine Or.inl (phi_lt (i := i) (t := setD { s with lock := none } i .loop) hin rfl (fun h => h)
          (fun j h => setD_other _ _ h) ?_ ?_)
        · rw [setD_same]; nofun
        · rw [setD_same, hd, h1, h2]; decide
    · next r hd =>
      obtain ⟨c, h1, h2, h3, h4⟩ := finish_frame s i r e
      refine Or.inl (phi_lt (i := i) hin h2 h3 h4 ?_ ?_)
      · rw [h1]; nofun
      · rw [h1, hd]
        have hl : s.live = true := (live_iff s).mpr ⟨i, hin, by rw [hd]; rfl⟩
        rw [hl]
        cases s.active <;> simp [w]
    · next c hd =>
      generalize (if c ≠ 0 then (if c = 2 then 10010 else c) else (if e = 2 then 10010 else e)) = v
      rcases post_cases s i v with h1 | ⟨h1, _⟩ | ⟨h1, _⟩
      · rw [h1]
        refine Or.inl (phi_lt (i := i) hin rfl (fun h => h) (fun j h => setD_other _ _ h) ?_ ?_)
        · rw [setD_same]; nofun
        · rw [setD_same, hd]
          cases s.active <;> cases s.live <;> simp [w]
      · rw [h1]
        refine Or.inl (phi_lt (i := i) hin rfl (by nofun) (fun j h => setD_other _ _ h) ?_ ?_)
        · rw [setD_same]; nofun
        · rw [setD_same]; exact w_pos (by rw [hd]; nofun) (by rw [hd]; rfl) _ _
      · rw [h1]
        refine Or.inl (phi_lt (i := i) hin rfl (fun h => h) (fun j h => setD_other _ _ h) ?_ ?_)
        · rw [setD_same]; nofun
        · rw [setD_same]; exact w_pos (by rw [hd]; nofun) (by rw [hd]; rfl) _ _
    · next hd =>
      apply gets_same
      intro j a' e' he hr
      cases he
      unfold Ready at hr; rw [hd] at hr; exact hr
    · next hd =>
      apply gets_same
      intro j a' e' he hr
      cases he
      unfold Ready at hr; rw [hd] at hr; exact hr
  · have hd := hinv.unmade i (by omega)
    have : dispStep s i a e = s := by unfold dispStep; rw [hd]
    rw [this]
    apply gets_same
    intro j a' e' he hr
    cases he
    unfold Ready at hr; rw [hd] at hr; exact hr

/-- Nothing which matters here has changed. -/
theorem gets_frame {s t : S} {ev : Ev} (hnd : t.nd = s.nd) (ha : t.active = s.active) (hd : t.disp = s.disp)
    (hl : t.lock = s.lock) (hdr : t.drun = s.drun) (hn : t.normal = s.normal) (he : ∀ j a e, ev ≠ .disp j a e) :
    Gets s t ev := by
  have hlive : t.live = s.live := by unfold S.live; rw [hnd, hd]
  refine Or.inr ⟨?_, fun j hj => ⟨?_, he j⟩⟩
  · unfold phi; rw [hnd, ha, hd, hlive]; exact Nat.le_refl _
  · unfold Ready S.execMode S.allowed at *
    rw [hnd, ha, hd, hl, hdr, hn, hlive]; exact hj

theorem ready_lt {s : S} (hinv : Inv s) (hfull : s.drun = s.nd) {j : Nat} (h : Ready s j) :
    j < s.nd ∧ s.disp j ≠ .none ∧ (s.disp j).over = false := by
  have h1 : s.disp j ≠ .none := by
    intro h2; unfold Ready at h; rw [h2] at h; exact h
  have h2 : (s.disp j).over = false := by
    cases hq : s.disp j with
    | ended e => unfold Ready at h; rw [hq] at h; exact h.elim
    | _ => rfl
  refine ⟨?_, h1, h2⟩
  rcases Nat.lt_or_ge j s.nd with h3 | h3
  · exact h3
  · exact absurd (hinv.unmade j (by omega)) h1

/-- The file-system becomes inactive. -/
theorem gets_off {s t : S} {ev : Ev} (hinv : Inv s) (hfull : s.drun = s.nd) (hnd : t.nd = s.nd)
    (ha : t.active = false) (hd : t.disp = s.disp)
    (hl : t.lock = s.lock) (hdr : t.drun = s.drun) (hn : t.normal = s.normal) (he : ∀ j a e, ev ≠ .disp j a e) :
    Gets s t ev := by
  cases hs : s.active with
  | false => exact gets_frame hnd (by rw [ha, hs]) hd hl hdr hn he
  | true =>
    have hlive : t.live = s.live := by unfold S.live; rw [hnd, hd]
    by_cases hex : ∃ j, Ready s j
    · obtain ⟨j, hj⟩ := hex
      obtain ⟨h1, h2, h3⟩ := ready_lt hinv hfull hj
      refine Or.inl ?_
      unfold phi
      rw [hnd, hd, ha, hs, hlive]
      refine sumTo_lt _ (fun k _ => w_mono _ _ _ _ _ (by nofun) (fun h => h)) ⟨j, h1, ?_⟩
      cases hq : s.disp j <;> rw [hq] at h2 h3 <;> cases s.live <;> simp_all [w, Disp.over]
    · refine Or.inr ⟨?_, fun j hj => absurd ⟨j, hj⟩ hex⟩
      unfold phi
      rw [hnd, hd, ha, hs, hlive]
      exact sumTo_le _ (fun k _ => w_mono _ _ _ _ _ (by nofun) (fun h => h))

theorem gets_step {g : Bool} {s : S} {ev : Ev} (hinv : Inv s) (hfull : s.drun = s.nd)
    (hope : Hope g s) (hq : Quiet g ev) : Gets s (step s ev) ev := by
  cases ev with
  | disp i a e => exact gets_disp hinv hfull hope hq
  | prep i e => exact hq.elim
  | work i e =>
    unfold step
    dsimp only
    split
    · split
      · exact gets_same nofun
      · exact gets_frame rfl rfl rfl rfl rfl rfl nofun
    · exact gets_same nofun
  | main ok =>
    show Gets s (mainStep s ok) _
    unfold mainStep
    split
    · next k hk =>
      split
      · split
        · exact gets_frame rfl rfl rfl rfl rfl rfl nofun
        · exact gets_off hinv hfull rfl rfl rfl rfl rfl rfl nofun
      · exact gets_frame rfl rfl rfl rfl rfl rfl nofun
    · next k hk =>
      have := hinv.startD k hk
      rw [if_neg (by omega)]
      exact gets_frame rfl rfl rfl rfl rfl rfl nofun
    · split
      · exact gets_same nofun
      · exact gets_off hinv hfull rfl rfl rfl rfl rfl rfl nofun
    · split
      · exact gets_frame rfl rfl rfl rfl rfl rfl nofun
      · split <;> exact gets_frame rfl rfl rfl rfl rfl rfl nofun
    · split
      · exact gets_frame rfl rfl rfl rfl rfl rfl nofun
      · split
        · split <;> exact gets_frame rfl rfl rfl rfl rfl rfl nofun
        · exact gets_frame rfl rfl rfl rfl rfl rfl nofun
    · exact gets_frame rfl rfl rfl rfl rfl rfl nofun
    · split <;> exact gets_frame rfl rfl rfl rfl rfl rfl nofun
    · split <;> exact gets_frame rfl rfl rfl rfl rfl rfl nofun
    · split <;> exact gets_frame rfl rfl rfl rfl rfl rfl nofun
    · exact gets_frame rfl rfl rfl rfl rfl rfl nofun
  | sig =>
    show Gets s (halt s) _
    unfold halt
    split
    all_goals first
      | exact gets_same nofun
      | exact gets_off hinv hfull rfl rfl rfl rfl rfl rfl nofun
      | exact gets_frame rfl rfl rfl rfl rfl rfl nofun

/-! Hope stays. -/

theorem hope_frame {g : Bool} {s t : S} (hnd : t.nd = s.nd) (ha : t.active = true → s.active = true)
    (hd : t.disp = s.disp) (hn : t.normal = s.normal) (h : Hope g s) : Hope g t := by
  cases hq : t.active with
  | false => exact Or.inl hq
  | true =>
    rcases h with h | ⟨hg, i, hi, h1, h2⟩
    · rw [ha hq] at h; cases h
    · exact Or.inr ⟨hg, i, by omega, by rw [hn]; exact h1, by rw [hd]; exact h2⟩

theorem hope_disp {g : Bool} {s : S} {i : Nat} {a : Recv} {e : Nat} (hq : Quiet g (.disp i a e))
    (h : Hope g s) : Hope g (dispStep s i a e) := by
  have hf := frame_disp s i a e
  cases hta : (dispStep s i a e).active with
  | false => exact Or.inl hta
  | true =>
    rcases h with h | ⟨hg, k, hk, h1, h2⟩
    · exfalso
      have ho := out_disp s i a e
      generalize dispStep s i a e = t at ho hta
      cases ho with
      | fin r e' hd =>
        obtain ⟨_, _, _, h3, _⟩ := finish_frame s i r e'
        rw [h3 hta] at h; cases h
      | same => rw [hta] at h; cases h
      | take => rw [show s.active = true from hta] at h; cases h
      | leave => rw [show s.active = true from hta] at h; cases h
      | back => rw [show s.active = true from hta] at h; cases h
      | drop => rw [show s.active = true from hta] at h; cases h
      | got => rw [show s.active = true from hta] at h; cases h
      | next => rw [show s.active = true from hta] at h; cases h
      | quit => rw [show s.active = true from hta] at h; cases h
      | dropOff => cases hta
      | quitOff => cases hta
    · refine Or.inr ⟨hg, k, by rw [hf.nd]; exact hk, ?_, ?_⟩
      · rcases h1 with h1 | h1
        · exact Or.inl h1
        · refine Or.inr ?_
          have ho := out_disp s i a e
          have hgot : ∀ r, s.disp i = .chan → s.execMode = true →
              dispStep s i a e ≠ setD { s with lock := none, nopers := s.nopers + 1 } i (.exec r) := by
            intro r hc hm heq
            unfold dispStep recv at heq
            rw [hc] at heq
            dsimp only at heq
            rw [if_pos hm] at heq
            have hdi := congrArg (fun t => t.disp i) heq
            rcases hq.1 with rfl | ⟨_, rfl⟩
            · simp [post, setD] at hdi
            · simp [setD] at hdi
          generalize hst : dispStep s i a e = t at ho hta hgot
          cases ho with
          | fin r e' hd =>
            have : (finish s i r e').normal = true := by
              unfold finish at hta ⊢
              unfold S.normal at h1 ⊢
              simp only [Bool.and_eq_true, decide_eq_true_eq] at h1 ⊢
              split at hta
              · exact ⟨⟨⟨rfl, by simp [setD, h1.1.1.2]⟩, h1.1.2⟩, h1.2⟩
              · exact h1
              · cases hta
              · exact h1
            exact this
          | same => exact h1
          | take => exact h1
          | leave => exact h1
          | back => exact h1
          | drop => exact h1
          | got r hc hm => exact absurd rfl (hgot r hc hm)
          | next => exact h1
          | quit => exact h1
          | dropOff => cases hta
          | quitOff => cases hta
      · by_cases hki : k = i
        · subst hki
          unfold dispStep at hta ⊢
          cases hd : s.disp k with
          | none => rw [hd] at h2; exact h2.elim
          | ended c => rw [hd] at h2; exact h2.elim
          | loop =>
            rw [hd] at hta
            dsimp only at hta ⊢
            unfold take at hta ⊢
            by_cases hm : s.execMode = true
            · rw [if_pos hm]
              split
              · rw [setD_same]; trivial
              · rw [hd]; trivial
            · rw [if_neg hm] at hta
              have := execMode_false (s := s) (by simpa using hm)
              rw [show s.active = true from hta] at this
              cases this.1
          | chan =>
            rw [hd] at hta
            dsimp only at hta ⊢
            unfold recv at hta ⊢
            by_cases hm : s.execMode = true
            · rw [if_pos hm] at hta
              rcases hq.1 with rfl | ⟨hg2, _⟩
              · simp [post, setD] at hta
              · rw [hg] at hg2; cases hg2
            · rw [if_neg hm] at hta
              have := execMode_false (s := s) (by simpa using hm)
              simp [post, setD, this.1] at hta
          | exec r =>
            rw [hd] at hta
            dsimp only at hta ⊢
            rw [hd] at h2
            unfold finish at hta ⊢
            split
            · rw [setD_same]; exact hq.2
            · exact absurd rfl h2
            · rw [setD_same]; exact hq.2
            · rw [setD_same]; exact hq.2
          | submit c =>
            rw [hd] at h2
            dsimp only
            have hc : c = 0 ∨ c = 2 := h2
            have he := hq.2
            unfold post
            rcases hc with rfl | rfl <;> rcases he with rfl | rfl <;> simp [setD_same, Fine]
        · rw [hf.other k hki]; exact h2

theorem hope_step {g : Bool} {s : S} {ev : Ev} (hinv : Inv s) (hfull : s.drun = s.nd) (hq : Quiet g ev)
    (h : Hope g s) : Hope g (step s ev) := by
  cases ev with
  | disp i a e => exact hope_disp hq h
  | prep i e => exact hq.elim
  | work i e =>
    unfold step
    dsimp only
    split
    · split
      · exact h
      · exact hope_frame rfl (fun h => h) rfl rfl h
    · exact h
  | main ok =>
    show Hope g (mainStep s ok)
    unfold mainStep
    split
    · split
      · split
        · exact hope_frame rfl (fun h => h) rfl rfl h
        · exact Or.inl rfl
      · exact hope_frame rfl (fun h => h) rfl rfl h
    · next k hk =>
      have := hinv.startD k hk
      rw [if_neg (by omega)]
      exact hope_frame rfl (fun h => h) rfl rfl h
    · split
      · exact h
      · exact Or.inl rfl
    · split
      · exact hope_frame rfl (fun h => h) rfl rfl h
      · split <;> exact hope_frame rfl (fun h => h) rfl rfl h
    · split
      · exact hope_frame rfl (fun h => h) rfl rfl h
      · split
        · split <;> exact hope_frame rfl (fun h => h) rfl rfl h
        · exact hope_frame rfl (fun h => h) rfl rfl h
    · exact hope_frame rfl (fun h => h) rfl rfl h
    · split <;> exact hope_frame rfl (fun h => h) rfl rfl h
    · split <;> exact hope_frame rfl (fun h => h) rfl rfl h
    · split <;> exact hope_frame rfl (fun h => h) rfl rfl h
    · exact hope_frame rfl (fun h => h) rfl rfl h
  | sig =>
    show Hope g (halt s)
    unfold halt
    split
    all_goals first
      | exact h
      | exact Or.inl rfl
      | exact hope_frame rfl (fun h => h) rfl rfl h

/-- The threads stay created. -/
theorem full_step {s : S} (hinv : Inv s) (hfull : s.drun = s.nd) (ev : Ev) :
    (step s ev).drun = (step s ev).nd ∧ (step s ev).nd = s.nd := by
  cases ev with
  | disp i a e =>
    have hf := frame_disp s i a e
    exact ⟨by show (dispStep s i a e).drun = (dispStep s i a e).nd; rw [hf.drun, hf.nd, hfull], hf.nd⟩
  | prep i e =>
    unfold step
    dsimp only
    split
    · have hf := frame_post s i e
      exact ⟨by rw [hf.drun, hf.nd, hfull], hf.nd⟩
    · exact ⟨hfull, rfl⟩
  | work i e =>
    unfold step
    dsimp only
    split
    · split <;> exact ⟨hfull, rfl⟩
    · exact ⟨hfull, rfl⟩
  | main ok =>
    show (mainStep s ok).drun = (mainStep s ok).nd ∧ (mainStep s ok).nd = s.nd
    unfold mainStep
    split
    · split
      · split <;> exact ⟨hfull, rfl⟩
      · exact ⟨hfull, rfl⟩
    · next k hk =>
      have := hinv.startD k hk
      rw [if_neg (by omega)]
      exact ⟨hfull, rfl⟩
    · split <;> exact ⟨hfull, rfl⟩
    · split
      · exact ⟨hfull, rfl⟩
      · split <;> exact ⟨hfull, rfl⟩
    · split
      · exact ⟨hfull, rfl⟩
      · split
        · split <;> exact ⟨hfull, rfl⟩
        · exact ⟨hfull, rfl⟩
    · exact ⟨hfull, rfl⟩
    · split <;> exact ⟨hfull, rfl⟩
    · split <;> exact ⟨hfull, rfl⟩
    · split <;> exact ⟨hfull, rfl⟩
    · exact ⟨hfull, rfl⟩
  | sig =>
    show (halt s).drun = (halt s).nd ∧ (halt s).nd = s.nd
    unfold halt
    split <;> exact ⟨hfull, rfl⟩

/-- While a dispatcher is not out of its loop, one of them can get on. -/
theorem ready_exists {g : Bool} {s : S} (hinv : Inv s) (hfull : s.drun = s.nd) (hope : Hope g s)
    (hpos : ¬ ∀ i, i < s.nd → (s.disp i).over = true) : ∃ j, Ready s j := by
  apply Classical.byContradiction
  intro hno
  have hno : ∀ j, ¬ Ready s j := fun j hj => hno ⟨j, hj⟩
  have hexec : ∀ j r, s.disp j ≠ .exec r := by
    intro j r h; apply hno j; unfold Ready; rw [h]; trivial
  have hsub : ∀ j c, s.disp j ≠ .submit c := by
    intro j r h; apply hno j; unfold Ready; rw [h]; trivial
  have hlive : s.live = false := by
    cases h : s.live with
    | false => rfl
    | true =>
      obtain ⟨j, _, hj⟩ := (live_iff s).mp h
      cases hq : s.disp j <;> rw [hq] at hj <;> try cases hj
      exact absurd hq (hexec j _)
  have hchan : ∀ j, s.disp j ≠ .chan := by
    intro j h; apply hno j; unfold Ready; rw [h]; exact Or.inr hlive
  have hlock : s.lock = none := by
    cases h : s.lock with
    | none => rfl
    | some j => exact absurd ((hinv.lock j).mp h) (hchan j)
  have hact : s.active = true := by
    cases h : s.active with
    | true => rfl
    | false =>
      exfalso
      apply hpos
      intro i hi
      cases hq : s.disp i with
      | none => exact absurd hq (hinv.alive i (by omega))
      | ended c => rfl
      | exec r => exact absurd hq (hexec i r)
      | submit c => exact absurd hq (hsub i c)
      | chan => exact absurd hq (hchan i)
      | loop =>
        exfalso; apply hno i; unfold Ready; rw [hq]
        exact Or.inr (by unfold S.execMode; rw [h, hlive]; rfl)
  rcases hope with h | ⟨_, i, hi, h1, h2⟩
  · rw [hact] at h; cases h
  · cases hq : s.disp i with
    | none => rw [hq] at h2; exact h2
    | ended c => rw [hq] at h2; exact h2
    | exec r => exact hexec i r hq
    | submit c => exact hsub i c hq
    | chan => exact hchan i hq
    | loop =>
      apply hno i; unfold Ready; rw [hq]
      refine Or.inl ⟨hact, ?_, hlock⟩
      unfold S.allowed
      simp only [Bool.and_eq_true, Bool.or_eq_true, decide_eq_true_eq]
      exact ⟨hfull, h1⟩

/-- All which is carried along. -/
structure Good (g : Bool) (s : S) : Prop where
  inv : Inv s
  full : s.drun = s.nd
  hope : Hope g s

theorem good_step {g : Bool} {s : S} {ev : Ev} (h : Good g s) (hq : Quiet g ev) : Good g (step s ev) :=
  ⟨inv_step h.inv ev, (full_step h.inv h.full ev).1, hope_step h.inv h.full hq h.hope⟩

theorem good_run {g : Bool} {s : S} {es : List Ev} (h : Good g s) (hq : ∀ e ∈ es, Quiet g e) :
    Good g (run s es) ∧ phi (run s es) ≤ phi s ∧ (run s es).nd = s.nd := by
  induction es generalizing s with
  | nil => exact ⟨h, Nat.le_refl _, rfl⟩
  | cons e es ih =>
    have h1 := hq e (by simp)
    obtain ⟨h2, h3, h4⟩ := ih (good_step h h1) (fun e he => hq e (by simp [he]))
    have h5 : phi (step s e) ≤ phi s := by
      rcases gets_step h.inv h.full h.hope h1 with h | h
      · omega
      · exact h.1
    exact ⟨h2, Nat.le_trans h3 h5, h4.trans (full_step h.inv h.full e).2⟩

theorem run_ready {g : Bool} {s : S} {es : List Ev} {j : Nat} (h : Good g s) (hq : ∀ e ∈ es, Quiet g e)
    (hj : Ready s j) (hin : ∃ a e, Ev.disp j a e ∈ es) : phi (run s es) < phi s := by
  induction es generalizing s with
  | nil => obtain ⟨a, e, h⟩ := hin; cases h
  | cons ev es ih =>
    have h1 := hq ev (by simp)
    have h2 : ∀ e ∈ es, Quiet g e := fun e he => hq e (by simp [he])
    have hgood := good_step h h1
    rcases gets_step h.inv h.full h.hope h1 with h3 | ⟨h3, h4⟩
    · exact Nat.lt_of_le_of_lt (good_run hgood h2).2.1 h3
    · obtain ⟨h5, h6⟩ := h4 j hj
      refine Nat.lt_of_lt_of_le (ih hgood h2 h5 ?_) h3
      obtain ⟨a, e, hm⟩ := hin
      rcases List.mem_cons.mp hm with h7 | h7
      · exact absurd h7.symm (h6 a e)
      · exact ⟨a, e, h7⟩

theorem all_over_stays {s : S} (h : ∀ i, i < s.nd → (s.disp i).over = true) : phi s = 0 := by
  have : ∀ n, n ≤ s.nd → sumTo (fun i => w s.active s.live (s.disp i)) n = 0 := by
    intro n
    induction n with
    | zero => intro _; rfl
    | succ n ih =>
      intro hn
      show sumTo _ n + w _ _ (s.disp n) = 0
      rw [ih (by omega)]
      have := h n (by omega)
      cases hq : s.disp n <;> rw [hq] at this <;> simp_all [Disp.over, w]
  exact this s.nd (Nat.le_refl _)

theorem over_of_zero {s : S} (hinv : Inv s) (hfull : s.drun = s.nd) (h : phi s = 0) :
    ∀ i, i < s.nd → (s.disp i).over = true := by
  intro i hi
  have h1 := sumTo_zero s.nd h i hi
  have h2 := hinv.alive i (by omega)
  cases hq : (s.disp i).over with
  | true => rfl
  | false =>
    have := w_pos h2 hq s.active s.live
    omega

theorem round_down {g : Bool} {s : S} {es : List Ev} (h : Good g s) (hq : ∀ e ∈ es, Quiet g e)
    (hr : Round s.nd es) : phi (run s es) ≤ phi s - 1 := by
  by_cases hall : ∀ i, i < s.nd → (s.disp i).over = true
  · have := (good_run h hq).2.1
    rw [all_over_stays hall] at this ⊢
    omega
  · obtain ⟨j, hj⟩ := ready_exists h.inv h.full h.hope hall
    have := run_ready h hq hj (hr j (ready_lt h.inv h.full hj).1)
    omega

theorem run_append (s : S) (es fs : List Ev) : run s (es ++ fs) = run (run s es) fs := by
  unfold run; rw [List.foldl_append]

theorem rounds_down {g : Bool} {s : S} (rs : List (List Ev)) (h : Good g s)
    (hq : ∀ r ∈ rs, (∀ e ∈ r, Quiet g e) ∧ Round s.nd r) :
    Good g (run s rs.flatten) ∧ phi (run s rs.flatten) ≤ phi s - rs.length ∧ (run s rs.flatten).nd = s.nd := by
  induction rs generalizing s with
  | nil => exact ⟨h, Nat.le_refl _, rfl⟩
  | cons r rs ih =>
    obtain ⟨h1, h2⟩ := hq r (by simp)
    obtain ⟨h3, h4, h5⟩ := good_run h h1
    have h6 := round_down h h1 h2
    rw [List.flatten_cons, run_append]
    obtain ⟨h7, h8, h9⟩ := ih h3 (fun r' hr' => by rw [h5]; exact hq r' (by simp [hr']))
    refine ⟨h7, ?_, h9.trans h5⟩
    simp only [List.length_cons]
    omega

theorem phi_bound (s : S) : phi s ≤ 30 * s.nd := by
  apply sumTo_bound
  intro i _
  cases s.disp i <;> cases s.active <;> cases s.live <;> simp [w]

theorem stop_ends {g : Bool} {s : S} (rs : List (List Ev)) (h : Good g s)
    (hq : ∀ r ∈ rs, (∀ e ∈ r, Quiet g e) ∧ Round s.nd r) (hn : 30 * s.nd ≤ rs.length) :
    ∀ i, i < s.nd → ((run s rs.flatten).disp i).over = true := by
  obtain ⟨h1, h2, h3⟩ := rounds_down rs h hq
  have := phi_bound s
  have h0 := over_of_zero h1.inv h1.full (by omega)
  rw [h3] at h0; exact h0

/-! ### C72 -/

/-- **C72**: when the daemon has ended in good order, everything which any request has changed is stored, and
no thread is left. -/
theorem C72_all_stored {s : S} (h : Reach s) (hd : s.main = .done) :
    s.saved = s.made ∧ (∀ i, i < s.nd → (s.disp i).over = true) ∧ ∀ i, i < s.wrun → s.work i = .ended := by
  have hi := inv_reach h
  refine ⟨hi.flushed (by rw [hd]; rfl), ?_, hi.workers (by rw [hd]; rfl)⟩
  rw [← hi.up (by rw [hd]; rfl)]
  exact hi.joined (by rw [hd]; rfl)

theorem over_not {s : S} {i : Nat} (h : (s.disp i).over = true) : ∃ e, s.disp i = .ended e := by
  cases hq : s.disp i <;> rw [hq] at h <;> simp [Disp.over] at h
  exact ⟨_, rfl⟩

/-- Nothing moves any more. -/
theorem made_step {s : S} (hinv : Inv s) (hall : ∀ i, i < s.drun → (s.disp i).over = true) (hfull : s.drun = s.nd)
    (ev : Ev) : (step s ev).made = s.made ∧ (step s ev).disp = s.disp := by
  have hcase : ∀ i, s.disp i = .none ∨ ∃ e, s.disp i = .ended e := by
    intro i
    rcases Nat.lt_or_ge i s.drun with h | h
    · exact Or.inr (over_not (hall i h))
    · exact Or.inl (hinv.unmade i h)
  cases ev with
  | disp i a e =>
    have : step s (.disp i a e) = s := by
      simp only [step, dispStep]
      rcases hcase i with h | ⟨c, h⟩ <;> rw [h]
    rw [this]
    exact ⟨rfl, rfl⟩
  | prep i e =>
    unfold step
    dsimp only
    rw [if_neg]
    · exact ⟨rfl, rfl⟩
    · rintro ⟨h1, _⟩
      rcases hcase i with h | ⟨c, h⟩ <;> rw [h] at h1 <;> cases h1
  | work i e =>
    unfold step
    dsimp only
    split
    · split <;> exact ⟨rfl, rfl⟩
    · exact ⟨rfl, rfl⟩
  | main ok =>
    show (mainStep s ok).made = _ ∧ (mainStep s ok).disp = _
    unfold mainStep
    split
    · split
      · split <;> exact ⟨rfl, rfl⟩
      · exact ⟨rfl, rfl⟩
    · next k hk =>
      have := hinv.startD k hk
      rw [if_neg (by omega)]
      exact ⟨rfl, rfl⟩
    · split <;> exact ⟨rfl, rfl⟩
    · split
      · exact ⟨rfl, rfl⟩
      · split <;> exact ⟨rfl, rfl⟩
    · split
      · exact ⟨rfl, rfl⟩
      · split
        · split <;> exact ⟨rfl, rfl⟩
        · exact ⟨rfl, rfl⟩
    · exact ⟨rfl, rfl⟩
    · split <;> exact ⟨rfl, rfl⟩
    · split <;> exact ⟨rfl, rfl⟩
    · split <;> exact ⟨rfl, rfl⟩
    · exact ⟨rfl, rfl⟩
  | sig =>
    show (halt s).made = _ ∧ (halt s).disp = _
    unfold halt
    split <;> exact ⟨rfl, rfl⟩

/-- **C72**: while the file-system is being closed, and after, no request is executed: what is stored at the
end is not overtaken by a change. -/
theorem C72_closed_is_quiet {s : S} (h : Reach s) (hc : s.main.closing = true) (es : List Ev) :
    (run s es).made = s.made ∧ ∀ i, ¬ Busy ((run s es).disp i) := by
  have hi := inv_reach h
  have hfull := hi.up (by revert hc; cases s.main <;> simp [Main.up, Main.closing])
  have hall := hi.joined (by revert hc; cases s.main <;> simp [Main.joined, Main.closing])
  clear h hc
  induction es generalizing s with
  | nil =>
    refine ⟨rfl, fun i hb => ?_⟩
    rcases Nat.lt_or_ge i s.drun with h | h
    · obtain ⟨c, hc⟩ := over_not (hall i h)
      have hb2 : Busy (s.disp i) := hb
      rw [hc] at hb2; exact hb2
    · have hb2 : Busy (s.disp i) := hb
      rw [hi.unmade i h] at hb2; exact hb2
  | cons e es ih =>
    obtain ⟨h1, h2⟩ := made_step hi hall hfull e
    obtain ⟨h3, h4⟩ := full_step hi hfull e
    obtain ⟨h5, h6⟩ := ih (inv_step hi e) h3 (fun i hi' => by rw [h2]; exact hall i (by omega))
    exact ⟨h5.trans h1, h6⟩

/-- **C72**: nobody but the first dispatcher receives or executes a request before the kernel and the daemon
have agreed on the protocol; and nobody does before all threads are there. -/
theorem C72_leader {s : S} (h : Reach s) :
    (∀ i, i ≠ 0 → (s.disp i = .chan ∨ Busy (s.disp i)) → s.gotInit = true ∧ s.replyOk = true) ∧
    (∀ i n, s.disp i = .exec (.other n) → s.gotInit = true) ∧
    (s.drun < s.nd → s.made = [] ∧ ∀ i, s.disp i ≠ .chan ∧ ¬ Busy (s.disp i)) ∧
    (∀ i j, s.disp i = .chan → s.disp j = .chan → i = j) := by
  have hi := inv_reach h
  refine ⟨fun i h0 hb => ⟨(hi.lead i h0 hb).1, (hi.lead i h0 hb).2.1⟩, hi.got, ?_, ?_⟩
  · intro hl
    refine ⟨(hi.few hl).2, fun i => ⟨fun hc => full_of hi (Or.inl hc) hl, fun hb => full_of hi (Or.inr hb) hl⟩⟩
  · intro i j h1 h2
    have h3 := (hi.lock i).mpr h1
    have h4 := (hi.lock j).mpr h2
    rw [h3] at h4; cases h4; rfl

/-- **C72**: after the file-system is unmounted, however the threads are scheduled, all dispatchers end after
a bounded number of rounds: those which are executing requests finish them first.  Asked is only that one
of the dispatchers which may receive is in order (see `C72_unmount_violated`). -/
theorem C72_unmount_ends {s : S} (h : Reach s) (hup : s.main = .wait)
    (hone : ∃ i, i < s.nd ∧ (i = 0 ∨ s.normal = true) ∧ Fine (s.disp i)) (rs : List (List Ev))
    (hq : ∀ r ∈ rs, (∀ e ∈ r, Quiet true e) ∧ Round s.nd r) (hn : 30 * s.nd ≤ rs.length) :
    ∀ i, i < s.nd → ((run s rs.flatten).disp i).over = true := by
  have hi := inv_reach h
  exact stop_ends rs ⟨hi, hi.up (by rw [hup]; rfl), Or.inr ⟨rfl, hone⟩⟩ hq hn

/-- **C72**: the same after a signal, if no more requests come. -/
theorem C72_signal_ends {s : S} (h : Reach s) (hup : s.main = .wait) (rs : List (List Ev))
    (hq : ∀ r ∈ rs, (∀ e ∈ r, Quiet false e) ∧ Round s.nd r) (hn : 30 * s.nd ≤ rs.length) :
    ∀ i, i < s.nd → ((run (step s .sig) rs.flatten).disp i).over = true := by
  have hi := inv_reach h
  have hi2 := inv_step hi .sig
  have hs : step s .sig = { s with active := false } := by
    show halt s = _
    unfold halt; rw [hup]
  have h1 : (step s .sig).nd = s.nd := by rw [hs]
  have hfull := hi.up (by rw [hup]; rfl)
  rw [← h1] at hq hn ⊢
  exact stop_ends rs ⟨hi2, by rw [hs]; exact hfull, Or.inl (by rw [hs])⟩ hq hn

/-- What the dispatchers do to the rest. -/
theorem main_of_disp (s : S) (ev : Ev) (h : (∃ i a e, ev = .disp i a e) ∨ ∃ i e, ev = .work i e) :
    (step s ev).main = s.main ∧ (step s ev).wrun = s.wrun := by
  rcases h with ⟨i, a, e, rfl⟩ | ⟨i, e, rfl⟩
  · exact ⟨(frame_disp s i a e).main, (frame_disp s i a e).wrun⟩
  · unfold step; dsimp only
    split
    · split <;> exact ⟨rfl, rfl⟩
    · exact ⟨rfl, rfl⟩

/-- **C72**: and then, when the workers have ended too, the main thread goes through the rest, and everything
is stored, if storing succeeds. -/
theorem C72_then_closes {s : S} (h : Reach s) (hup : s.main = .wait) (hact : s.active = false)
    (hall : ∀ i, i < s.nd → (s.disp i).over = true) (hw : ∀ i, i < s.wrun → s.work i = .ended) :
    (run s (List.replicate 7 (.main true))).main = .done ∧
    (run s (List.replicate 7 (.main true))).saved = s.made := by
  have hi := inv_reach h
  have hfull := hi.up (by rw [hup]; rfl)
  have hlive : s.live = false := by
    cases hq : s.live with
    | false => rfl
    | true =>
      obtain ⟨j, hj, hl⟩ := (live_iff s).mp hq
      have := hall j hj
      cases hd : s.disp j <;> rw [hd] at hl this <;> simp [Disp.live, Disp.over] at hl this
  have hm : s.execMode = false := by unfold S.execMode; rw [hact, hlive]; rfl
  have h1 : step s (.main true) = { s with active := false, main := .joinD 30 false } := by
    simp only [step, mainStep, hup]
    rw [if_neg (by rw [hm]; nofun)]
  have h2 : step { s with active := false, main := .joinD 30 false } (.main true) =
      { s with active := false, main := .joinW 30 false } := by
    simp only [step, mainStep]
    rw [if_neg (by decide), if_pos]
    exact (allD_iff _).mpr (fun i hi' => hall i (by rw [← hfull]; exact hi'))
  have h3 : step { s with active := false, main := .joinW 30 false } (.main true) =
      { s with active := false, main := .close0 } := by
    simp only [step, mainStep]
    rw [if_neg (by decide), if_pos]
    · rfl
    · exact (allW_iff _).mpr hw
  have h4 : run s (List.replicate 7 (.main true)) =
      { s with active := false, main := .done, saved := s.made } := by
    simp only [run, List.replicate, List.foldl]
    rw [h1, h2, h3]
    simp only [step, mainStep, if_true]
  rw [h4]
  exact ⟨rfl, rfl⟩

/-- A worker which finds the file-system inactive ends at its next round. -/
theorem C72_workers_end {s : S} (hm : s.execMode = false) (i e : Nat) (hw : s.work i = .run) :
    (step s (.work i e)).work i = .ended := by
  unfold step; dsimp only
  rw [if_pos hw, if_neg (by rw [hm]; nofun)]
  simp [setW]

/-! ### What does not hold -/

/-- Nobody who may receive requests is left, but the file-system is not marked inactive. -/
structure Deaf (s : S) : Prop where
  active : s.active = true
  main : s.main = .wait
  disp : ∀ i, s.disp i = .none ∨ (s.disp i).over = true ∨ (s.disp i = .loop ∧ s.allowed i = false)

theorem deaf_step {s : S} (h : Deaf s) (ev : Ev) (hne : ev ≠ .sig) :
    Deaf (step s ev) ∧ (step s ev).disp = s.disp ∧ (step s ev).saved = s.saved ∧ (step s ev).made = s.made := by
  have hm : s.execMode = true := by unfold S.execMode; rw [h.active]; rfl
  cases ev with
  | sig => exact absurd rfl hne
  | disp i a e =>
    have : dispStep s i a e = s := by
      unfold dispStep
      rcases h.disp i with h1 | h1 | ⟨h1, h2⟩
      · rw [h1]
      · obtain ⟨c, hc⟩ := over_not h1; rw [hc]
      · rw [h1]
        dsimp only
        unfold take
        rw [if_pos hm, if_neg]
        rw [h2]; nofun
    show Deaf (dispStep s i a e) ∧ (dispStep s i a e).disp = _ ∧ (dispStep s i a e).saved = _ ∧
      (dispStep s i a e).made = _
    rw [this]; exact ⟨h, rfl, rfl, rfl⟩
  | prep i e =>
    have : step s (.prep i e) = s := by
      unfold step; dsimp only
      rw [if_neg]
      rintro ⟨h1, _, h3⟩
      rcases h.disp i with h4 | h4 | ⟨_, h5⟩
      · rw [h4] at h1; cases h1
      · rw [h1] at h4; cases h4
      · rw [h5] at h3; cases h3
    rw [this]; exact ⟨h, rfl, rfl, rfl⟩
  | work i e =>
    unfold step; dsimp only
    split
    · split
      · exact ⟨h, rfl, rfl, rfl⟩
      · exact ⟨⟨h.active, h.main, h.disp⟩, rfl, rfl, rfl⟩
    · exact ⟨h, rfl, rfl, rfl⟩
  | main ok =>
    have : mainStep s ok = s := by
      unfold mainStep; rw [h.main]; dsimp only; rw [if_pos hm]
    show Deaf (mainStep s ok) ∧ (mainStep s ok).disp = _ ∧ (mainStep s ok).saved = _ ∧ (mainStep s ok).made = _
    rw [this]; exact ⟨h, rfl, rfl, rfl⟩

theorem deaf_run {s : S} (h : Deaf s) (es : List Ev) (hne : NoSig es) :
    (run s es).main = .wait ∧ (run s es).disp = s.disp ∧ (run s es).saved = s.saved ∧ (run s es).made = s.made := by
  induction es generalizing s with
  | nil => exact ⟨h.main, rfl, rfl, rfl⟩
  | cons e es ih =>
    have h1 : e ≠ .sig := fun h => hne (by rw [h]; simp)
    obtain ⟨h2, h3, h4, h5⟩ := deaf_step h e h1
    obtain ⟨h6, h7, h8, h9⟩ := ih h2 (fun h => hne (by simp [h]))
    exact ⟨h6, h7.trans h3, h8.trans h4, h9.trans h5⟩

/-- The threads of a small mount are started. -/
def startEvs : List Ev := List.replicate 5 (.main true)

/-- The kernel and the daemon agree; the first request follows. -/
def shakeEvs : List Ev :=
  [.disp 0 .timeout 0, .disp 0 (.req (.init true)) 0, .disp 0 .timeout 0, .disp 0 .timeout 0,
   .disp 0 .timeout 0, .disp 0 (.req (.other 7)) 0, .disp 0 .timeout 0, .disp 0 .timeout 0]

/-- **C72 does not hold** when the versions of the protocol do not match: the first dispatcher ends, the
others are not allowed to receive; the file-system may be unmounted, and still no thread ever notices it.
The daemon, and who waits for it, stay for ever. -/
theorem C72_handshake_violated : ∃ es, Reach (run (init 2 1) es) ∧
    ∀ fs, NoSig fs → (run (run (init 2 1) es) fs).main = .wait := by
  refine ⟨startEvs ++ [.disp 0 .timeout 0, .disp 0 (.req (.init false)) 0, .disp 0 .timeout 0, .disp 0 .timeout 0],
    ⟨2, 1, _, by decide, rfl⟩, fun fs hf => (deaf_run ⟨rfl, rfl, ?_⟩ fs hf).1⟩
  intro i
  match i with
  | 0 => exact Or.inr (Or.inl rfl)
  | 1 => exact Or.inr (Or.inr ⟨rfl, rfl⟩)
  | i + 2 => exact Or.inl rfl

/-- **C72 does not hold** when the dispatchers fail: an error of the channel, or of an answer, ends a
dispatcher, but it does not mark the file-system as inactive.  When the last one is gone nobody serves
requests, nothing ends, and what was changed is not stored by the main thread. -/
theorem C72_unmount_violated : ∃ es, Reach (run (init 2 1) es) ∧
    ∀ fs, NoSig fs → (run (run (init 2 1) es) fs).main = .wait ∧
      (run (run (init 2 1) es) fs).made = [7] ∧ (run (run (init 2 1) es) fs).saved = [] ∧
      ∀ i, ¬ Busy ((run (run (init 2 1) es) fs).disp i) := by
  refine ⟨startEvs ++ shakeEvs ++ [.disp 0 .timeout 0, .disp 0 (.err 5) 0, .disp 1 .timeout 0, .disp 1 (.err 5) 0],
    ⟨2, 1, _, by decide, rfl⟩, fun fs hf => ?_⟩
  have hdeaf : Deaf (run (init 2 1) (startEvs ++ shakeEvs ++
      [.disp 0 .timeout 0, .disp 0 (.err 5) 0, .disp 1 .timeout 0, .disp 1 (.err 5) 0])) := by
    refine ⟨rfl, rfl, fun i => ?_⟩
    match i with
    | 0 => exact Or.inr (Or.inl rfl)
    | 1 => exact Or.inr (Or.inl rfl)
    | i + 2 => exact Or.inl rfl
  obtain ⟨h1, h2, h3, h4⟩ := deaf_run hdeaf fs hf
  refine ⟨h1, h4, h3, fun i => ?_⟩
  rw [h2]
  match i with
  | 0 => exact fun h => h
  | 1 => exact fun h => h
  | i + 2 => exact fun h => h

/-- States in which the main thread is over, or blocked, for good. -/
def Main.final : Main → Bool
  | .done => true
  | .died => true
  | .panic => true
  | .stuck => true
  | _ => false

theorem final_step {s : S} (h : s.main.final = true) (ev : Ev) :
    (step s ev).main = s.main ∧ (step s ev).saved = s.saved := by
  cases ev with
  | disp i a e => exact ⟨(frame_disp s i a e).main, (frame_disp s i a e).saved⟩
  | prep i e =>
    unfold step; dsimp only
    split
    · exact ⟨(frame_post s i e).main, (frame_post s i e).saved⟩
    · exact ⟨rfl, rfl⟩
  | work i e =>
    unfold step; dsimp only
    split
    · split <;> exact ⟨rfl, rfl⟩
    · exact ⟨rfl, rfl⟩
  | main ok =>
    show (mainStep s ok).main = _ ∧ (mainStep s ok).saved = _
    have : mainStep s ok = s := by
      unfold mainStep
      cases hq : s.main <;> rw [hq] at h <;> first | (exfalso; simp [Main.final] at h; done) | (dsimp only; rw [← hq])
    rw [this]; exact ⟨rfl, rfl⟩
  | sig =>
    show (halt s).main = _ ∧ (halt s).saved = _
    unfold halt
    cases hq : s.main <;> rw [hq] at h <;> first | (exfalso; simp [Main.final] at h; done) | exact ⟨hq, rfl⟩

theorem final_run {s : S} (h : s.main.final = true) (es : List Ev) :
    (run s es).main = s.main ∧ (run s es).saved = s.saved := by
  induction es generalizing s with
  | nil => exact ⟨rfl, rfl⟩
  | cons e es ih =>
    obtain ⟨h1, h2⟩ := final_step h e
    obtain ⟨h3, h4⟩ := ih (s := step s e) (by rw [h1]; exact h)
    exact ⟨h3.trans h1, h4.trans h2⟩

/-- A signal, and the dispatchers and the worker end. -/
def stopEvs : List Ev := [.sig, .disp 0 .timeout 0, .disp 1 .timeout 0, .work 0 0]

/-- Up to the point where the file-system is being flushed. -/
def closingEvs : List Ev := startEvs ++ shakeEvs ++ stopEvs ++ List.replicate 4 (.main true)

/-- **C72 does not hold** for a second signal: if it arrives while the file-system is being closed, its
handler waits for a lock which the interrupted thread holds.  The daemon stays for ever, and what was
changed is not stored. -/
theorem C72_second_signal_violated : ∃ es, Reach (run (init 2 1) es) ∧ (run (init 2 1) es).made = [7] ∧
    (run (init 2 1) es).main = .flush ∧
    ∀ fs, (run (step (run (init 2 1) es) .sig) fs).main = .stuck ∧
      (run (step (run (init 2 1) es) .sig) fs).saved = [] := by
  refine ⟨closingEvs, ⟨2, 1, _, by decide, rfl⟩, by decide +kernel, by decide +kernel, fun fs => ?_⟩
  have h1 : (step (run (init 2 1) closingEvs) .sig).main = .stuck := by decide +kernel
  have h2 : (step (run (init 2 1) closingEvs) .sig).saved = [] := by decide +kernel
  obtain ⟨h3, h4⟩ := final_run (s := step (run (init 2 1) closingEvs) .sig) (by rw [h1]; rfl) fs
  exact ⟨h3.trans h1, h4.trans h2⟩

/-- A signal while a request stores what it has changed, and the main thread loses its patience. -/
def slowEvs : List Ev := startEvs ++ shakeEvs ++
  [.disp 0 .timeout 0, .disp 0 (.req (.other 8)) 0, .sig, .disp 0 .timeout 0, .disp 1 .timeout 0, .work 0 0] ++
  List.replicate 31 (.main true)

/-- **C72 does not hold** when storing takes long: the list of live operations does not cover the part of a
request which stores its changes, so the main thread begins to join the dispatchers; its patience is
limited, and then it panics: nothing is stored. -/
theorem C72_slow_violated : ∃ es, Reach (run (init 2 1) es) ∧ (run (init 2 1) es).made = [8, 7] ∧
    (run (init 2 1) es).disp 0 = .submit 0 ∧
    ∀ fs, (run (run (init 2 1) es) fs).main = .panic ∧ (run (run (init 2 1) es) fs).saved = [] := by
  refine ⟨slowEvs, ⟨2, 1, _, by decide, rfl⟩, by decide +kernel, by decide +kernel, fun fs => ?_⟩
  have h1 : (run (init 2 1) slowEvs).main = .panic := by decide +kernel
  have h2 : (run (init 2 1) slowEvs).saved = [] := by decide +kernel
  obtain ⟨h3, h4⟩ := final_run (s := run (init 2 1) slowEvs) (by rw [h1]; rfl) fs
  exact ⟨h3.trans h1, h4.trans h2⟩

/-- Two dispatchers which take turns. -/
structure Turn (s : S) : Prop where
  nd : s.nd = 2
  drun : s.drun = 2
  active : s.active = false
  normal : s.gotInit = true ∧ s.replyOk = true ∧ s.gotDestroy = false ∧ 1 < s.nopers
  d0 : ∃ n, s.disp 0 = .exec (.other n)
  d1 : s.disp 1 = .loop
  lock : s.lock = none
  main : s.main = .wait

/-- Each of them receives a request before the other has finished; the main thread looks in between. -/
def turnEvs : List Ev :=
  [.disp 1 .timeout 0, .disp 1 (.req (.other 1)) 0, .main true, .disp 0 .timeout 0, .disp 0 .timeout 0,
   .main true, .disp 0 .timeout 0, .disp 0 (.req (.other 0)) 0, .main true, .disp 1 .timeout 0,
   .disp 1 .timeout 0, .main true]

/-- Such a state, given by what changes in it. -/
def turnS (nw wrun : Nat) (work : Nat → Work) (saved : List Nat) (p : Nat) (f : Nat → Disp) (l : Option Nat)
    (m : List Nat) : S :=
  { nd := 2, nw := nw, active := false, gotInit := true, replyOk := true, gotDestroy := false, nopers := p
    drun := 2, wrun := wrun, disp := f, work := work, lock := l, main := .wait, made := m, saved := saved }

def upd (f : Nat → Disp) (i : Nat) (d : Disp) : Nat → Disp := fun j => if j = i then d else f j

section
variable {nw wrun : Nat} {work : Nat → Work} {saved : List Nat} {p : Nat} {f : Nat → Disp} {l : Option Nat}
  {m : List Nat}

theorem turn_exec (h : (f 0).live = true ∨ (f 1).live = true) :
    (turnS nw wrun work saved p f l m).execMode = true := by
  unfold S.execMode
  rw [Bool.or_eq_true]
  refine Or.inr ((live_iff _).mpr ?_)
  rcases h with h | h
  · exact ⟨0, Nat.zero_lt_two, h⟩
  · exact ⟨1, Nat.one_lt_two, h⟩

theorem turn_take {i : Nat} {a : Recv} {e : Nat} (hi : f i = .loop) (h : (f 0).live = true ∨ (f 1).live = true)
    (hp : 1 < p) : step (turnS nw wrun work saved p f none m) (.disp i a e) =
      turnS nw wrun work saved p (upd f i .chan) (some i) m := by
  have hd : (turnS nw wrun work saved p f none m).disp i = .loop := hi
  simp only [step, dispStep, hd, take]
  rw [if_pos (turn_exec h), if_pos]
  · rfl
  · simp [S.allowed, S.normal, turnS, hp]

theorem turn_recv {i n e : Nat} (hi : f i = .chan) (h : (f 0).live = true ∨ (f 1).live = true) :
    step (turnS nw wrun work saved p f l m) (.disp i (.req (.other n)) e) =
      turnS nw wrun work saved (p + 1) (upd f i (.exec (.other n))) none m := by
  have hd : (turnS nw wrun work saved p f l m).disp i = .chan := hi
  simp only [step, dispStep, hd, recv]
  rw [if_pos (turn_exec h)]
  rfl

theorem turn_fin {i n e : Nat} {a : Recv} (hi : f i = .exec (.other n)) :
    step (turnS nw wrun work saved p f l m) (.disp i a e) =
      turnS nw wrun work saved p (upd f i (.submit e)) l (n :: m) := by
  have hd : (turnS nw wrun work saved p f l m).disp i = .exec (.other n) := hi
  simp only [step, dispStep, hd, finish]
  rfl

theorem turn_sub {i : Nat} {a : Recv} (hi : f i = .submit 0) :
    step (turnS nw wrun work saved p f l m) (.disp i a 0) = turnS nw wrun work saved p (upd f i .loop) l m := by
  have hd : (turnS nw wrun work saved p f l m).disp i = .submit 0 := hi
  simp only [step, dispStep, hd]
  rfl

theorem turn_main {ok : Bool} (h : (f 0).live = true ∨ (f 1).live = true) :
    step (turnS nw wrun work saved p f l m) (.main ok) = turnS nw wrun work saved p f l m := by
  have hd : (turnS nw wrun work saved p f l m).main = .wait := rfl
  simp only [step, mainStep, hd]
  rw [if_pos (turn_exec h)]

end

theorem turn_run {s : S} (h : Turn s) : Turn (run s turnEvs) ∧ (run s turnEvs).made.length = s.made.length + 2 := by
  obtain ⟨nd, nw, active, gotInit, replyOk, gotDestroy, nopers, drun, wrun, f, work, lock, main, made, saved⟩ := s
  obtain ⟨h1, h2, h3, ⟨h4, h5, h6, h7⟩, ⟨n, h8⟩, h9, h10, h11⟩ := h
  dsimp only at *
  subst h1 h2 h3 h4 h5 h6 h10 h11
  have l0 : (f 0).live = true := by rw [h8]; rfl
  have key : run (turnS nw wrun work saved nopers f none made) turnEvs =
      turnS nw wrun work saved (nopers + 1 + 1)
        (upd (upd (upd (upd (upd (upd (upd (upd f 1 .chan) 1 (.exec (.other 1))) 0 (.submit 0)) 0 .loop) 0 .chan) 0
          (.exec (.other 0))) 1 (.submit 0)) 1 .loop) none (1 :: n :: made) := by
    simp only [run, turnEvs, List.foldl]
    rw [turn_take h9 (Or.inl l0) h7, turn_recv (by rfl) (Or.inl (by simpa [upd] using l0)),
      turn_main (Or.inr (by rfl)), turn_fin (n := n) (by simpa [upd] using h8), turn_sub (by rfl),
      turn_main (Or.inr (by rfl)), turn_take (by rfl) (Or.inr (by rfl)) (by omega),
      turn_recv (by rfl) (Or.inr (by rfl)), turn_main (Or.inr (by rfl)), turn_fin (n := 1) (by rfl),
      turn_sub (by rfl), turn_main (Or.inl (by rfl))]
  have key2 := key
  simp only [turnS] at key
  rw [key]
  exact ⟨⟨rfl, rfl, rfl, ⟨rfl, rfl, rfl, by show 1 < nopers + 1 + 1; omega⟩, ⟨0, rfl⟩, rfl, rfl, rfl⟩, rfl⟩

/-- The same events, again and again. -/
def again (es : List Ev) : Nat → List Ev
  | 0 => []
  | n + 1 => es ++ again es n

theorem turn_again {s : S} (h : Turn s) (k : Nat) :
    Turn (run s (again turnEvs k)) ∧ (run s (again turnEvs k)).made.length = s.made.length + 2 * k := by
  induction k generalizing s with
  | zero => exact ⟨h, rfl⟩
  | succ k ih =>
    obtain ⟨h1, h2⟩ := turn_run h
    obtain ⟨h3, h4⟩ := ih h1
    unfold again
    rw [run_append]
    exact ⟨h3, by rw [h4, h2]; omega⟩

/-- **C72 does not hold** for a signal while requests keep coming: the operation of one dispatcher keeps the
other at work, and the other way around.  The signal is without effect for as long as this goes on. -/
theorem C72_signal_violated : ∃ es, Reach (step (run (init 2 1) es) .sig) ∧
    ∀ k, (run (step (run (init 2 1) es) .sig) (again turnEvs k)).main = .wait ∧
      (run (step (run (init 2 1) es) .sig) (again turnEvs k)).made.length = 1 + 2 * k := by
  refine ⟨startEvs ++ shakeEvs ++ [.disp 0 .timeout 0, .disp 0 (.req (.other 8)) 0],
    ⟨2, 1, startEvs ++ shakeEvs ++ [.disp 0 .timeout 0, .disp 0 (.req (.other 8)) 0] ++ [.sig], by decide, ?_⟩,
    fun k => ?_⟩
  · rw [run_append _ _ [Ev.sig]]; rfl
  · have hT : Turn (step (run (init 2 1) (startEvs ++ shakeEvs ++
        [.disp 0 .timeout 0, .disp 0 (.req (.other 8)) 0])) .sig) :=
      ⟨rfl, rfl, rfl, ⟨rfl, rfl, rfl, by decide⟩, ⟨8, rfl⟩, rfl, rfl, rfl⟩
    obtain ⟨h1, h2⟩ := turn_again hT k
    exact ⟨h1.main, h2⟩

/-- Workers are not created any more. -/
def Main.past : Main → Bool
  | .startW _ => false
  | _ => true

theorem ended_step {s : S} {i : Nat} (h : s.work i = .ended) (hm : s.main.past = true) (ev : Ev) :
    (step s ev).work i = .ended ∧ (step s ev).main.past = true := by
  cases ev with
  | disp j a e =>
    have hf := frame_disp s j a e
    show (dispStep s j a e).work i = .ended ∧ (dispStep s j a e).main.past = true
    rw [hf.work, hf.main]; exact ⟨h, hm⟩
  | prep j e =>
    simp only [step]
    split
    · rw [(frame_post s j e).work, (frame_post s j e).main]; exact ⟨h, hm⟩
    · exact ⟨h, hm⟩
  | work j e =>
    simp only [step]
    split
    · split
      · exact ⟨h, hm⟩
      · refine ⟨?_, hm⟩
        simp only [setW]
        split
        · rfl
        · exact h
    · exact ⟨h, hm⟩
  | main ok =>
    show (mainStep s ok).work i = .ended ∧ (mainStep s ok).main.past = true
    unfold mainStep
    split
    · next k hk => rw [hk] at hm; cases hm
    · split
      · split <;> exact ⟨h, rfl⟩
      · exact ⟨h, rfl⟩
    · split
      · exact ⟨h, hm⟩
      · exact ⟨h, rfl⟩
    · split
      · exact ⟨h, rfl⟩
      · split <;> exact ⟨h, rfl⟩
    · split
      · exact ⟨h, rfl⟩
      · split
        · split <;> exact ⟨h, rfl⟩
        · exact ⟨h, rfl⟩
    · exact ⟨h, rfl⟩
    · split <;> exact ⟨h, rfl⟩
    · split <;> exact ⟨h, rfl⟩
    · split <;> exact ⟨h, rfl⟩
    · exact ⟨h, hm⟩
  | sig =>
    show (halt s).work i = .ended ∧ (halt s).main.past = true
    unfold halt
    split
    all_goals first
      | exact ⟨h, rfl⟩
      | exact ⟨h, hm⟩

theorem ended_run {s : S} {i : Nat} (h : s.work i = .ended) (hm : s.main.past = true) (es : List Ev) :
    (run s es).work i = .ended := by
  induction es generalizing s with
  | nil => exact h
  | cons e es ih => exact ih (ended_step h hm e).1 (ended_step h hm e).2

def failEvs : List Ev := startEvs ++ shakeEvs ++ [.work 0 28]

/-- **C72 does not hold** for the work in the background: one failure (here ENOSPC) ends the worker for good,
while the file-system goes on without it: changes are no more stored after a while. -/
theorem C72_worker_violated : ∃ es, Reach (run (init 2 1) es) ∧ (run (init 2 1) es).main = .wait ∧
    (run (init 2 1) es).active = true ∧ (∀ i, i < 2 → Fine ((run (init 2 1) es).disp i)) ∧
    ∀ fs i, i < 1 → (run (run (init 2 1) es) fs).work i = .ended := by
  refine ⟨failEvs, ⟨2, 1, _, by decide, rfl⟩, by decide +kernel, by decide +kernel, ?_, ?_⟩
  · intro i hi
    have h0 : (run (init 2 1) failEvs).disp 0 = .loop := by decide +kernel
    have h1 : (run (init 2 1) failEvs).disp 1 = .loop := by decide +kernel
    match i, hi with
    | 0, _ => rw [h0]; trivial
    | 1, _ => rw [h1]; trivial
  · intro fs i hi
    have : i = 0 := by omega
    subst this
    have h0 : (run (init 2 1) failEvs).work 0 = .ended := by decide +kernel
    have h1 : (run (init 2 1) failEvs).main = .wait := by decide +kernel
    exact ended_run h0 (by rw [h1]; rfl) fs

/-! ### The hypotheses can be met -/

/-- One round for two dispatchers after an unmount. -/
def goneRound : List Ev := [.disp 0 (.err 19) 0, .main true, .disp 1 (.err 19) 0, .work 0 0]

example : (∀ e ∈ goneRound, Quiet true e) ∧ Round 2 goneRound := by
  constructor
  · intro e he
    simp only [goneRound, List.mem_cons, List.not_mem_nil, or_false] at he
    rcases he with rfl | rfl | rfl | rfl <;> simp [Quiet]
  · intro i hi
    match i, hi with
    | 0, _ => exact ⟨.err 19, 0, by simp [goneRound]⟩
    | 1, _ => exact ⟨.err 19, 0, by simp [goneRound]⟩

/-- A mount with a request under way, which is unmounted: dispatchers finish, the daemon ends, both changes
are stored. -/
example : (run (init 2 1) (startEvs ++ shakeEvs ++
      [.disp 0 .timeout 0, .disp 0 (.req (.other 8)) 0, .disp 1 .timeout 0, .disp 1 (.err 19) 0] ++
      again goneRound 6 ++ List.replicate 7 (.main true))).main = .done ∧
    (run (init 2 1) (startEvs ++ shakeEvs ++
      [.disp 0 .timeout 0, .disp 0 (.req (.other 8)) 0, .disp 1 .timeout 0, .disp 1 (.err 19) 0] ++
      again goneRound 6 ++ List.replicate 7 (.main true))).saved = [8, 7] := by
  decide +kernel

example : (run (init 2 1) (startEvs ++ shakeEvs)).main = .wait ∧
    Fine ((run (init 2 1) (startEvs ++ shakeEvs)).disp 0) ∧ (run (init 2 1) (startEvs ++ shakeEvs)).normal = true :=
  ⟨rfl, trivial, rfl⟩

end Silofs.Srv
