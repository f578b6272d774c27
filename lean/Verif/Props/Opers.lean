import Verif.Spec.Opers
set_option linter.unusedSimpArgs false
namespace Silofs.Opers

theorem exec_cons (env : Env) (s : Step) (r : List Step) (m : M) :
    exec env (s :: r) m =
      match (one env s m).2.2 with
      | .go => exec env r ((one env s m).1.note s (one env s m).2.1)
      | .stop e => ((one env s m).1.note s (one env s m).2.1, e) := rfl

theorem out_go {e : Nat} : out e = .go ↔ e = 0 := by
  unfold out
  by_cases h : e = 0
  · simp [h]
  · simp [h]

theorem out_stop {e x : Nat} : out e = .stop x ↔ e = x ∧ e ≠ 0 := by
  unfold out
  by_cases h : e = 0
  · simp [h]
  · simp [h]

/-! ### Read-only -/

/-- Every way through the program ends with an error before the operation is begun. -/
def blocked : List Step → Bool
  | [] => false
  | .stage _ .cow :: _ => true
  | .stage _ (.opt true) :: _ => true
  | .stage _ (.openable true) :: _ => true
  | .stage _ .cached :: _ => false
  | .stage2 :: _ => true
  | .act _ g :: _ => g
  | _ :: r => blocked r

theorem stageErr_frozen {env : Env} (hf : env.frozen = true) (h : H) : stageErr env h true ≠ 0 := by
  unfold stageErr
  unfold Env.frozen at hf
  rw [hf]
  by_cases hn : env.inoNull h = true
  · rw [if_pos hn]; decide
  · rw [if_neg hn]
    exact (by decide : EROFS ≠ 0)

theorem one_started {env : Env} {s : Step} {m : M} (h : ∀ us g, s ≠ .act us g) :
    (one env s m).1.started = m.started := by
  cases s with
  | act us g => exact absurd rfl (h us g)
  | stage h mo =>
    cases mo with
    | opt f =>
      cases f <;> simp only [one, stageOpt] <;> (try split) <;> (try split) <;> rfl
    | _ => rfl
  | stage2 => simp only [one, stage2]; split <;> rfl
  | authorize => simp only [one]; split <;> rfl
  | mapCreds => simp only [one]; split <;> rfl
  | mapIds => simp only [one]; split <;> rfl
  | _ => rfl

theorem one_stop {env : Env} {s : Step} {m : M} {e : Nat} (h : ∀ h, s ≠ .stage h .cached)
    (hs : (one env s m).2.2 = .stop e) : e ≠ 0 := by
  cases s with
  | stage h' mo =>
    cases mo with
    | cached => exact absurd rfl (h h')
    | _ =>
      have := (out_stop.1 hs)
      omega
  | authorize =>
    simp only [one] at hs
    split at hs
    · cases hs
    · cases hs; decide
  | mapCreds =>
    simp only [one] at hs
    split at hs
    · cases hs
    · cases hs; decide
  | mapIds =>
    simp only [one] at hs
    split at hs
    · cases hs
    · cases hs; decide
  | act us g =>
    simp only [one] at hs
    split at hs
    · cases hs; decide
    · have := (out_stop.1 hs)
      omega
  | _ =>
    have := (out_stop.1 hs)
    omega

theorem exec_blocked {env : Env} (hf : env.frozen = true) : ∀ (l : List Step) (m : M),
    blocked l = true → (exec env l m).1.started = m.started ∧ (exec env l m).2 ≠ 0
  | [], _, h => by cases h
  | s :: r, m, h => by
    rw [exec_cons]
    have key : (∃ e, (one env s m).2.2 = .stop e) ∨ blocked r = true := by
      cases s with
      | stage h' mo =>
        cases mo with
        | cached => cases h
        | cow => exact .inl ⟨_, out_stop.2 ⟨rfl, stageErr_frozen hf h'⟩⟩
        | cur => exact .inr h
        | opt f =>
          cases f with
          | true => exact .inl ⟨_, out_stop.2 ⟨rfl, stageErr_frozen hf h'⟩⟩
          | false => exact .inr h
        | openable w =>
          cases w with
          | true => exact .inl ⟨_, out_stop.2 ⟨rfl, stageErr_frozen hf h'⟩⟩
          | false => exact .inr h
      | stage2 =>
        refine .inl ⟨_, out_stop.2 ⟨rfl, ?_⟩⟩
        simp only [stage2, if_pos (stageErr_frozen hf .a)]
        exact stageErr_frozen hf .a
      | act us g =>
        have hg : g = true := h
        refine .inl ⟨EROFS, ?_⟩
        have : (g && (env.ro || env.fossil)) = true := by rw [hg, Bool.true_and]; exact hf
        simp only [one, if_pos this]
      | _ => exact .inr h
    have hst : (one env s m).1.started = m.started := by
      cases s with
      | act us g =>
        have hg : g = true := h
        have : (g && (env.ro || env.fossil)) = true := by rw [hg, Bool.true_and]; exact hf
        simp only [one, if_pos this]
        rfl
      | _ => exact one_started (fun _ _ hh => nomatch hh)
    have hc : ∀ h', s ≠ .stage h' .cached := by
      intro h' hs
      rw [hs] at h
      cases h
    cases ho : (one env s m).2.2 with
    | stop e => exact ⟨hst, one_stop hc ho⟩
    | go =>
      rcases key with ⟨e, he⟩ | hr
      · rw [ho] at he; cases he
      · have := exec_blocked hf r ((one env s m).1.note s (one env s m).2.1) hr
        exact ⟨this.1.trans hst, this.2⟩

theorem changes_blocked (op : Oper) (h : op.changes = true) : blocked (prog op) = true := by
  cases op with
  | open_ w => cases w with
    | true => rfl
    | false => cases h
  | _ => first | rfl | cases h

theorem purge_notStarted {env : Env} {m : M} (h : m.started = false) : purgeErr env m = 0 := by
  unfold purgeErr; rw [h]; rfl

theorem run_err_ne {t : Task} {env : Env} {op : Oper} (h : (exec env (prog op) M.init).2 ≠ 0) :
    (run t env op).err = (exec env (prog op) M.init).2 := by
  show (if _ then _ else _) = _
  rw [if_pos h]

/-- C56. On a read-only mount, or on the frozen side of a snapshot, no request which changes the
file-system is so much as begun, whoever sends it; and each is answered with an error. -/
theorem C56_readonly_refused (t : Task) (env : Env) (op : Oper) (hc : op.changes = true)
    (hf : env.frozen = true) :
    (run t env op).m.started = false ∧ (run t env op).m.acted = false ∧ (run t env op).err ≠ 0 := by
  have h := exec_blocked hf (prog op) M.init (changes_blocked op hc)
  have h2 : ∀ (l : List Step) (m : M), (m.acted = true → m.started = true) →
      ((exec env l m).1.acted = true → (exec env l m).1.started = true) := by
    intro l
    induction l with
    | nil => intro m hm; exact hm
    | cons s r ih =>
      intro m hm
      have h1 : (one env s m).1.acted = true → (one env s m).1.started = true := by
        cases s with
        | act us g =>
          simp only [one]
          split
          · exact hm
          · intro _; rfl
        | stage h mo =>
          cases mo with
          | opt f =>
            cases f <;> simp only [one, stageOpt] <;> (try split) <;> (try split) <;> exact hm
          | _ => exact hm
        | stage2 => simp only [one, stage2]; split <;> exact hm
        | authorize => simp only [one]; split <;> exact hm
        | mapCreds => simp only [one]; split <;> exact hm
        | mapIds => simp only [one]; split <;> exact hm
        | _ => exact hm
      rw [exec_cons]
      cases ho : (one env s m).2.2 with
      | stop e => exact h1
      | go => exact ih _ h1
  refine ⟨h.1, ?_, ?_⟩
  · show (exec env (prog op) M.init).1.acted = false
    cases ha : (exec env (prog op) M.init).1.acted with
    | false => rfl
    | true =>
      have := h2 (prog op) M.init (fun hh => nomatch hh) ha
      rw [h.1] at this
      cases this
  · rw [run_err_ne h.2]
    exact h.2

/-- Inodes which the request names, in order. -/
theorem stageErr_code {env : Env} (hf : env.frozen = true) {h : H} (hn : env.inoNull h = false) :
    stageErr env h true = EROFS := by
  unfold Env.frozen at hf
  unfold stageErr
  rw [hn, hf]
  rfl

theorem go_authorize {env : Env} {m : M} (h : Ids.authorize env.mnt env.req = true) :
    one env .authorize m = (m, 0, .go) := by simp only [one, if_pos h]

theorem go_mapCreds {env : Env} {m : M} (h : (Ids.mapCreds env.mnt env.req).isSome = true) :
    one env .mapCreds m = (m, 0, .go) := by simp only [one, if_pos h]

theorem go_mapIds {env : Env} {m : M} (h : (env.mnt.ids.both env.uid env.gid).isSome = true) :
    one env .mapIds m = (m, 0, .go) := by simp only [one, if_pos h]

theorem exec_admitted {env : Env} (ha : Admitted env) (r : List Step) :
    exec env (.authorize :: .mapCreds :: r) M.init =
      exec env r ((M.init.note .authorize 0).note .mapCreds 0) := by
  rw [exec_cons, go_authorize ha.1]
  show exec env (.mapCreds :: r) _ = _
  rw [exec_cons, go_mapCreds ha.2]

theorem exec_cow {env : Env} (hf : env.frozen = true) {h : H} (hn : env.inoNull h = false) (r : List Step)
    (m : M) {mo : Mode} (hm : mo = .cow ∨ mo = .opt true ∨ mo = .openable true) :
    (exec env (.stage h mo :: r) m).2 = EROFS := by
  have hs : (one env (.stage h mo) m).2.2 = .stop EROFS := by
    rcases hm with rfl | rfl | rfl <;>
      exact out_stop.2 ⟨stageErr_code hf hn, stageErr_frozen hf h⟩
  rw [exec_cons, hs]

theorem exec_cow2 {env : Env} (hf : env.frozen = true) (hn : env.inoNull .a = false) (r : List Step) (m : M) :
    (exec env (.stage2 :: r) m).2 = EROFS := by
  have hs : (one env .stage2 m).2.2 = .stop EROFS := by
    refine out_stop.2 ⟨?_, ?_⟩
    · simp only [stage2, if_pos (stageErr_frozen hf .a)]
      exact stageErr_code hf hn
    · simp only [stage2, if_pos (stageErr_frozen hf .a)]
      exact stageErr_frozen hf .a
  rw [exec_cons, hs]

/-- C56. The error is `EROFS`, when nothing else is wrong with the request: the caller is admitted, the
new owner (if any) can be mapped, the inode is named, and (for a snapshot) can be read. -/
theorem C56_readonly_code (t : Task) (env : Env) (op : Oper) (hc : op.changes = true)
    (hf : env.frozen = true) (ha : Admitted env) (hn : env.inoNull .a = false)
    (ho : op = .chown → (env.mnt.ids.both env.uid env.gid).isSome = true)
    (hr : op = .clone → env.fetch .a false = 0) : (run t env op).err = EROFS := by
  have h : (exec env (prog op) M.init).2 = EROFS := by
    have cow : ∀ r mo, (mo = .cow ∨ mo = .opt true ∨ mo = .openable true) →
        (exec env (.authorize :: .mapCreds :: .stage .a mo :: r) M.init).2 = EROFS := by
      intro r mo hm
      rw [exec_admitted ha]
      exact exec_cow hf hn r _ hm
    have cow2 : ∀ r, (exec env (.authorize :: .mapCreds :: .stage2 :: r) M.init).2 = EROFS := by
      intro r
      rw [exec_admitted ha]
      exact exec_cow2 hf hn r _
    cases op with
    | open_ w => cases w with
      | true => exact cow _ _ (.inr (.inr rfl))
      | false => cases hc
    | chown =>
      show (exec env (.authorize :: .mapCreds :: .mapIds :: .stage .a .cow :: _) M.init).2 = EROFS
      rw [exec_admitted ha, exec_cons, go_mapIds (ho rfl)]
      exact exec_cow hf hn _ _ (.inl rfl)
    | clone =>
      show (exec env [.authorize, .mapCreds, .stage .a .cur, .act [.a] true] M.init).2 = EROFS
      have hs : stageErr env .a false = 0 := by
        unfold stageErr
        rw [hn]
        exact hr rfl
      have hgo : ∀ m, (one env (.stage .a .cur) m).2.2 = .go := fun m => out_go.2 hs
      have hst : ∀ m, (one env (.act [.a] true) m).2.2 = .stop EROFS := by
        intro m
        have : (true && (env.ro || env.fossil)) = true := hf
        simp only [one, if_pos this]
      rw [exec_admitted ha, exec_cons, hgo, exec_cons, hst]
    | _ => first | exact cow _ _ (.inl rfl) | exact cow2 _ | cases hc
  rw [run_err_ne (by rw [h]; decide), h]

end Silofs.Opers
