import Verif.Props.Opers
import Verif.Props.LcacheUse
set_option linter.unusedSimpArgs false
namespace Silofs.Opers

/-- The same surroundings, on a mount with these flags. -/
def Env.at_ (env : Env) (ro fossil : Bool) : Env := { env with ro := ro, fossil := fossil }

/-! ### Reading does not depend on the mount being writable -/

/-- No step of the program asks whether the file-system can be changed, when no inode is dirty. -/
def free : List Step → Bool
  | [] => true
  | .stage _ .cow :: _ => false
  | .stage _ (.opt true) :: _ => false
  | .stage _ (.openable true) :: _ => false
  | .stage2 :: _ => false
  | .act _ true :: _ => false
  | _ :: r => free r

theorem stageErr_cur (env : Env) (r f : Bool) (h : H) : stageErr (env.at_ r f) h false = stageErr env h false := by
  unfold stageErr
  simp only [Bool.false_and, Bool.false_eq_true, if_false]
  rfl

theorem stage1_cur (env : Env) (r f : Bool) (h : H) (m : M) :
    stage1 (env.at_ r f) h false m = stage1 env h false m := by
  unfold stage1
  rw [stageErr_cur]
  rfl

theorem one_free {env : Env} {r f : Bool} {s : Step} {l : List Step} {m : M} (hd : ∀ h, env.dirty h = false)
    (h : free (s :: l) = true) : one (env.at_ r f) s m = one env s m ∧ free l = true := by
  have hd' : ∀ h, (env.at_ r f).dirty h = false := hd
  cases s with
  | stage h' mo =>
    cases mo with
    | cached => exact ⟨rfl, h⟩
    | cur => exact ⟨by simp only [one, stage1_cur], h⟩
    | cow => cases h
    | opt b =>
      cases b with
      | true => cases h
      | false =>
        refine ⟨?_, h⟩
        simp only [one, stageOpt, hd, hd', Bool.and_false, Bool.false_eq_true, if_false, stage1_cur]
    | openable b =>
      cases b with
      | true => cases h
      | false => exact ⟨by simp only [one, stage1_cur], h⟩
  | stage2 => cases h
  | act us g =>
    cases g with
    | true => cases h
    | false => exact ⟨rfl, h⟩
  | _ => exact ⟨rfl, h⟩

theorem exec_free {env : Env} {r f : Bool} (hd : ∀ h, env.dirty h = false) : ∀ (l : List Step) (m : M),
    free l = true → exec (env.at_ r f) l m = exec env l m
  | [], _, _ => rfl
  | s :: l, m, h => by
    have h1 := one_free (r := r) (f := f) (m := m) hd h
    rw [exec_cons, exec_cons, h1.1]
    cases ho : (one env s m).2.2 with
    | stop e => rfl
    | go => exact exec_free hd l _ h1.2

theorem reads_free (op : Oper) (h : op.reads = true) : free (prog op) = true := by
  cases op with
  | open_ b => cases b with
    | true => cases h
    | false => rfl
  | releasedir b => cases b with
    | true => cases h
    | false => rfl
  | release b => cases b with
    | true => cases h
    | false => rfl
  | fsyncdir b => cases b with
    | true => cases h
    | false => rfl
  | fsync b => cases b with
    | true => cases h
    | false => rfl
  | _ => first | rfl | cases h

/-- C56 (partial: not for the requests to have all changes on storage, which have nothing to do on such a
mount, see `C56_readonly_sync_violated`). A request which only reads -- on a mount where nothing is
waiting to be written -- has the same answer, the same effects and goes the same way whether or not
the mount is read-only or a snapshot's frozen side. -/
theorem C56_readonly_reads_partial (t : Task) (env : Env) (op : Oper) (hr : op.reads = true)
    (hd : ∀ h, env.dirty h = false) (ro fossil : Bool) : run t (env.at_ ro fossil) op = run t env op := by
  have h : exec (env.at_ ro fossil) (prog op) M.init = exec env (prog op) M.init :=
    exec_free hd _ _ (reads_free op hr)
  unfold run
  rw [h]
  rfl

/-! ### Who may send requests -/

theorem not_admitted_exec {env : Env} (h : ¬Admitted env) (r : List Step) :
    (exec env (.authorize :: .mapCreds :: r) M.init).2 = EPERM ∧
    (exec env (.authorize :: .mapCreds :: r) M.init).1.started = false ∧
    ∀ p ∈ (exec env (.authorize :: .mapCreds :: r) M.init).1.trace, p.1.touches = false := by
  by_cases ha : Ids.authorize env.mnt env.req = true
  · have hm : ¬(Ids.mapCreds env.mnt env.req).isSome = true := fun hm => h ⟨ha, hm⟩
    have hs : ∀ m, one env .mapCreds m = (m, EPERM, .stop EPERM) := by
      intro m; simp only [one, if_neg hm]
    rw [exec_cons, go_authorize ha]
    dsimp only
    rw [exec_cons, hs]
    refine ⟨rfl, rfl, ?_⟩
    intro p hp
    simp only [M.note, M.init, List.mem_cons, List.not_mem_nil, or_false] at hp
    rcases hp with rfl | rfl <;> rfl
  · have hs : ∀ m, one env .authorize m = (m, EPERM, .stop EPERM) := by
      intro m; simp only [one, if_neg ha]
    rw [exec_cons, hs]
    refine ⟨rfl, rfl, ?_⟩
    intro p hp
    simp only [M.note, M.init, List.mem_cons, List.not_mem_nil, or_false] at hp
    rcases hp with rfl
    rfl

theorem prog_admits (op : Oper) (h : op.internal = false) : ∃ r, prog op = .authorize :: .mapCreds :: r := by
  cases op with
  | maintain => cases h
  | _ => exact ⟨_, rfl⟩

theorem mem_evs {t : Task} {env : Env} {op : Oper} {s : Step} {e : Nat} (h : Ev.ran s e ∈ (run t env op).evs) :
    (s, e) ∈ (exec env (prog op) M.init).1.trace := by
  have h' : Ev.ran s e ∈ lockEv t ++ ((exec env (prog op) M.init).1.trace.reverse.map fun p => Ev.ran p.1 p.2)
      ++ (if (exec env (prog op) M.init).1.started && env.loose
          then [.purged (purgeErr env (exec env (prog op) M.init).1)] else [])
      ++ unlockEv t := h
  simp only [List.mem_append, List.mem_map, List.mem_reverse] at h'
  rcases h' with ((h' | ⟨p, hp, hq⟩) | h') | h'
  · unfold lockEv at h'
    split at h'
    · simp at h'
    · cases h'
  · cases hq; exact hp
  · split at h'
    · simp at h'
    · cases h'
  · unfold unlockEv at h'
    split at h'
    · simp at h'
    · cases h'

/-- C56. A caller who is not admitted to the mount -- a stranger, or one without an identity in the
file-system -- is answered with `EPERM` to every request; nothing of the file-system has been looked at
or changed for them. -/
theorem C56_stranger_refused (t : Task) (env : Env) (op : Oper) (hi : op.internal = false)
    (h : ¬Admitted env) :
    (run t env op).err = EPERM ∧ (run t env op).m.started = false ∧
    ∀ s e, Ev.ran s e ∈ (run t env op).evs → s.touches = false := by
  obtain ⟨r, hr⟩ := prog_admits op hi
  have h1 := not_admitted_exec h r
  rw [← hr] at h1
  refine ⟨?_, h1.2.1, fun s e hm => h1.2.2 _ (mem_evs hm)⟩
  rw [run_err_ne (by rw [h1.1]; decide), h1.1]

/-! ### Order of steps -/

theorem exec_trace {env : Env} : ∀ (l : List Step) (m : M),
    ∃ d, (exec env l m).1.trace.reverse.map Prod.fst = m.trace.reverse.map Prod.fst ++ d ∧ d <+: l
  | [], m => ⟨[], by simp [exec], List.nil_prefix⟩
  | s :: r, m => by
    have ht : (one env s m).1.trace = m.trace := by
      cases s with
      | act us g => simp only [one]; split <;> rfl
      | stage h mo =>
        cases mo with
        | opt f =>
          cases f <;> simp only [one, stageOpt] <;> (try split) <;> (try split) <;> rfl
        | _ => rfl
      | stage2 => simp only [one, stage2]; split <;> rfl
      | authorize => simp only [one]; split <;> rfl
      | mapCreds => simp only [one]; split <;> rfl
      | mapIds => simp only [one]; split <;> rfl
      | _ => rfl
    have hn : ((one env s m).1.note s (one env s m).2.1).trace.reverse.map Prod.fst =
        m.trace.reverse.map Prod.fst ++ [s] := by
      simp [M.note, ht]
    rw [exec_cons]
    cases ho : (one env s m).2.2 with
    | stop e => exact ⟨[s], hn, by simp⟩
    | go =>
      obtain ⟨d, hd, hp⟩ := exec_trace r ((one env s m).1.note s (one env s m).2.1)
      refine ⟨s :: d, ?_, ?_⟩
      · dsimp only
        rw [hd, hn]
        simp
      · exact (List.prefix_cons_inj s).2 hp

/-- The step is the operation itself. -/
def Step.isAct : Step → Bool
  | .act _ _ => true
  | _ => false

/-- C56. A request is carried out at most once. -/
theorem C56_once (t : Task) (env : Env) (op : Oper) :
    ((run t env op).m.trace.filter fun p => p.1.isAct).length ≤ 1 := by
  obtain ⟨d, hd, hp⟩ := exec_trace (env := env) (prog op) M.init
  have h1 : ((run t env op).m.trace.filter fun p => p.1.isAct).length = (d.filter Step.isAct).length := by
    have h2 : (((exec env (prog op) M.init).1.trace.reverse.map Prod.fst).filter Step.isAct).length =
        (d.filter Step.isAct).length := by
      rw [hd]; rfl
    rw [← h2, List.filter_map, List.length_map, List.filter_reverse, List.length_reverse]
    rfl
  rw [h1]
  have h3 : (d.filter Step.isAct).length ≤ ((prog op).filter Step.isAct).length :=
    (hp.sublist.filter Step.isAct).length_le
  have h4 : ((prog op).filter Step.isAct).length ≤ 1 := by
    cases op with
    | releasedir b => cases b <;> decide
    | fsyncdir b => cases b <;> decide
    | open_ b => cases b <;> decide
    | release b => cases b <;> decide
    | fsync b => cases b <;> decide
    | _ => decide
  omega

/-- C56. A request on its own holds the lock of the file-system from its first step to its last, and
leaves it free; a request within another one neither takes nor releases it. -/
theorem C56_locked (env : Env) (op : Oper) :
    (∃ mid, (run ⟨false, false⟩ env op).evs = .lock :: mid ++ [.unlock] ∧ .lock ∉ mid ∧ .unlock ∉ mid) ∧
    (∀ b, .lock ∉ (run ⟨b, true⟩ env op).evs ∧ .unlock ∉ (run ⟨b, true⟩ env op).evs) := by
  have hmid : ∀ l : List (Step × Nat), Ev.lock ∉ (l.map fun p => Ev.ran p.1 p.2) ∧
      Ev.unlock ∉ (l.map fun p => Ev.ran p.1 p.2) := by
    intro l
    refine ⟨?_, ?_⟩ <;>
    · intro h
      simp at h
  have hp : ∀ (c : Bool) n, Ev.lock ∉ (if c then [Ev.purged n] else []) ∧
      Ev.unlock ∉ (if c then [Ev.purged n] else []) := by
    intro c n
    cases c <;> simp
  refine ⟨⟨((exec env (prog op) M.init).1.trace.reverse.map fun p => Ev.ran p.1 p.2)
      ++ (if (exec env (prog op) M.init).1.started && env.loose
          then [.purged (purgeErr env (exec env (prog op) M.init).1)] else []), ?_, ?_, ?_⟩, ?_⟩
  · show lockEv ⟨false, false⟩ ++ _ ++ _ ++ unlockEv ⟨false, false⟩ = _
    rfl
  · intro h
    rcases List.mem_append.1 h with h | h
    · exact (hmid _).1 h
    · exact (hp _ _).1 h
  · intro h
    rcases List.mem_append.1 h with h | h
    · exact (hmid _).2 h
    · exact (hp _ _).2 h
  · intro b
    have hl : lockEv ⟨b, true⟩ = [] := by cases b <;> rfl
    have e : (run ⟨b, true⟩ env op).evs =
        [] ++ ((exec env (prog op) M.init).1.trace.reverse.map fun p => Ev.ran p.1 p.2)
        ++ (if (exec env (prog op) M.init).1.started && env.loose
          then [.purged (purgeErr env (exec env (prog op) M.init).1)] else []) ++ [] := by
      show lockEv ⟨b, true⟩ ++ _ ++ _ ++ unlockEv ⟨b, true⟩ = _
      rw [hl]
      rfl
    rw [e]
    simp only [List.nil_append, List.append_nil, List.mem_append, not_or]
    exact ⟨⟨(hmid _).1, (hp _ _).1⟩, ⟨(hmid _).2, (hp _ _).2⟩⟩

/-! ### Pointers -/

/-- The step uses only pointers out of `L`. -/
def okStep (L : List H) : Step → Bool
  | .name h => decide (h ∈ L)
  | .flush h => decide (h ∈ L)
  | .flush2 => decide (.a ∈ L) && decide (.b ∈ L)
  | .act us _ => us.all (fun h => decide (h ∈ L))
  | .getattr h => decide (h ∈ L)
  | _ => true

/-- The pointers which are sure to be valid after the step, `L` being those before it. -/
def next (L : List H) : Step → List H
  | .stage h _ => [h]
  | .stage2 => [.a, .b]
  | .flush h => [h]
  | .flush2 => [.a, .b]
  | .act us _ => .n :: us
  | .getattr h => [h]
  | _ => L

/-- The program uses only pointers which are sure to be valid. -/
def safe : List H → List Step → Bool
  | _, [] => true
  | L, s :: r => okStep L s && safe (next L s) r

/-- The same where nothing is evicted. -/
def safeG : List H → List Step → Bool
  | _, [] => true
  | L, s :: r => okStep L s && safeG (next L s ++ L) r

/-- No reference is held, no invalid pointer was used, and these pointers are valid. -/
structure Sound (L : List H) (m : M) : Prop where
  live : ∀ h ∈ L, m.live h = true
  refs : ∀ h, m.refs h = 0
  bad : m.bad = false

theorem stage1_sound {env : Env} {L : List H} {m : M} {h : H} {cow : Bool} (hs : Sound L m) :
    Sound [] (stage1 env h cow m).1 ∧ (stageErr env h cow = 0 → Sound [h] (stage1 env h cow m).1) := by
  refine ⟨⟨fun _ hh => (nomatch hh), hs.refs, hs.bad⟩, fun h0 => ⟨?_, hs.refs, hs.bad⟩⟩
  intro x hx
  have : x = h := by simpa using hx
  subst this
  simp only [stage1, M.setLive, if_true, h0]
  rfl

/-- Objects held for the duration of a step survive it, and are released. -/
theorem hold_sound {env : Env} {L us : List H} {m : M} (hs : Sound L m) (hu : ∀ h ∈ us, h ∈ L) :
    Sound us ((((m.use us).incref us).evict env).decref us) := by
  have hall : us.all m.live = true := by
    rw [List.all_eq_true]
    exact fun h hh => hs.live h (hu h hh)
  refine ⟨?_, ?_, ?_⟩
  · intro h hh
    have := hs.live h (hu h hh)
    simp only [M.use, M.incref, M.evict, M.decref, if_pos hh, this, Bool.true_and]
    have : decide (0 < m.refs h + 1) = true := by simp
    rw [this]
    rfl
  · intro h
    have := hs.refs h
    simp only [M.use, M.incref, M.evict, M.decref]
    by_cases hh : h ∈ us
    · simp only [if_pos hh]; omega
    · simp only [if_neg hh]; exact this
  · simp only [M.use, M.incref, M.evict, M.decref, hall, hs.bad]
    rfl

theorem one_sound {env : Env} {L : List H} {s : Step} {m : M} (hs : Sound L m) (h : okStep L s = true) :
    Sound [] (one env s m).1 ∧ ((one env s m).2.2 = .go → Sound (next L s) (one env s m).1) := by
  have weak : ∀ {L : List H} {m : M}, Sound L m → Sound [] m :=
    fun hs => ⟨fun _ hh => (nomatch hh), hs.refs, hs.bad⟩
  cases s with
  | authorize =>
    simp only [one]
    split
    · exact ⟨weak hs, fun _ => hs⟩
    · exact ⟨weak hs, fun hh => nomatch hh⟩
  | mapCreds =>
    simp only [one]
    split
    · exact ⟨weak hs, fun _ => hs⟩
    · exact ⟨weak hs, fun hh => nomatch hh⟩
  | mapIds =>
    simp only [one]
    split
    · exact ⟨weak hs, fun _ => hs⟩
    · exact ⟨weak hs, fun hh => nomatch hh⟩
  | symval => exact ⟨weak hs, fun _ => hs⟩
  | rmap => exact ⟨weak hs, fun _ => hs⟩
  | name x =>
    have hx : x ∈ L := by simpa [okStep] using h
    have hu : Sound L (m.use [x]) := by
      refine ⟨hs.live, hs.refs, ?_⟩
      simp only [M.use, hs.bad, List.all_cons, List.all_nil, hs.live x hx]
      rfl
    exact ⟨weak hu, fun _ => hu⟩
  | flush x =>
    have hx : x ∈ L := by simpa [okStep] using h
    have hu := hold_sound (env := env) hs (us := [x]) (by intro y hy; simp at hy; subst hy; exact hx)
    exact ⟨weak hu, fun _ => hu⟩
  | getattr x =>
    have hx : x ∈ L := by simpa [okStep] using h
    have hu := hold_sound (env := env) hs (us := [x]) (by intro y hy; simp at hy; subst hy; exact hx)
    exact ⟨weak hu, fun _ => hu⟩
  | flush2 =>
    have hx : H.a ∈ L ∧ H.b ∈ L := by simpa [okStep] using h
    have hu := hold_sound (env := env) hs (us := [.a, .b])
      (by intro y hy; simp at hy; rcases hy with rfl | rfl; exact hx.1; exact hx.2)
    exact ⟨weak hu, fun _ => hu⟩
  | act us g =>
    have hx : ∀ y ∈ us, y ∈ L := by simpa [okStep] using h
    simp only [one]
    split
    · refine ⟨⟨fun _ hh => (nomatch hh), hs.refs, ?_⟩, fun hh => nomatch hh⟩
      have hall : us.all m.live = true := by
        rw [List.all_eq_true]
        exact fun y hy => hs.live y (hx y hy)
      simp only [M.use, hall, hs.bad]
      rfl
    · have hu := hold_sound (env := env) hs hx
      refine ⟨⟨fun _ hh => (nomatch hh), hu.refs, hu.bad⟩, fun hh => ⟨?_, hu.refs, hu.bad⟩⟩
      have h0 : env.actErr = 0 := out_go.1 hh
      intro y hy
      simp only [M.setLive]
      by_cases hn : y = .n
      · rw [if_pos hn, h0]; rfl
      · rw [if_neg hn]
        rcases List.mem_cons.1 hy with rfl | hy
        · exact absurd rfl hn
        · exact hu.live y hy
  | stage x mo =>
    cases mo with
    | cached =>
      refine ⟨⟨fun _ hh => (nomatch hh), hs.refs, hs.bad⟩, fun hh => ⟨?_, hs.refs, hs.bad⟩⟩
      intro y hy
      have : y = x := by simpa [next] using hy
      subst this
      have h0 : env.fetch y false = 0 := by
        simp only [one] at hh
        by_cases h0 : env.fetch y false = 0
        · exact h0
        · rw [if_neg h0] at hh; cases hh
      simp only [one, M.setLive, if_true, h0]
      rfl
    | cur =>
      have := stage1_sound (env := env) (h := x) (cow := false) hs
      exact ⟨this.1, fun hh => this.2 (out_go.1 hh)⟩
    | cow =>
      have := stage1_sound (env := env) (h := x) (cow := true) hs
      exact ⟨this.1, fun hh => this.2 (out_go.1 hh)⟩
    | openable w =>
      have := stage1_sound (env := env) (h := x) (cow := w) hs
      exact ⟨this.1, fun hh => this.2 (out_go.1 hh)⟩
    | opt f =>
      have hgo : ∀ {p : M × Nat}, (Sound [] p.1 ∧ (p.2 = 0 → Sound [x] p.1)) →
          Sound [] p.1 ∧ (out p.2 = .go → Sound [x] p.1) :=
        fun hp => ⟨hp.1, fun hh => hp.2 (out_go.1 hh)⟩
      refine hgo (p := stageOpt env x f m) ?_
      unfold stageOpt
      by_cases hf : f = true
      · rw [if_pos hf]; exact stage1_sound hs
      · rw [if_neg hf]
        by_cases hd : (decide (stageErr env x false = 0) && env.dirty x) = true
        · rw [if_pos hd]
          exact stage1_sound (stage1_sound (env := env) (h := x) (cow := false) hs).1
        · rw [if_neg hd]; exact stage1_sound hs
  | stage2 =>
    simp only [one, stage2]
    by_cases ha : stageErr env .a true ≠ 0
    · rw [if_pos ha]
      have := stage1_sound (env := env) (h := .a) (cow := true) hs
      exact ⟨this.1, fun hh => absurd (out_go.1 hh) ha⟩
    · rw [if_neg ha]
      have h1 := (stage1_sound (env := env) (h := .a) (cow := true) hs).2 (by omega)
      have hb : ((stage1 env .b true ((stage1 env .a true m).1.incref [.a])).1.decref [.a]).bad = false := h1.bad
      have hrf : ∀ y, ((stage1 env .b true ((stage1 env .a true m).1.incref [.a])).1.decref [.a]).refs y = 0 := by
        intro y
        have := h1.refs y
        show (if y ∈ [H.a] then (if y ∈ [H.a] then _ else _) - 1 else (if y ∈ [H.a] then _ else _)) = 0
        by_cases hy : y ∈ [H.a]
        · simp only [if_pos hy]; omega
        · simp only [if_neg hy]; exact this
      refine ⟨⟨fun _ hh => (nomatch hh), hrf, hb⟩, fun hh => ⟨?_, hrf, hb⟩⟩
      have h0 : stageErr env .b true = 0 := out_go.1 hh
      have la : (stage1 env .a true m).1.live .a = true := h1.live .a (by simp)
      have ra : (stage1 env .a true m).1.refs .a = 0 := h1.refs .a
      intro y hy
      simp only [next, List.mem_cons, List.not_mem_nil, or_false] at hy
      rcases hy with rfl | rfl
      · show ((((stage1 env .a true m).1.incref [.a]).evict env).setLive .b (stageErr env .b true == 0)).live .a = true
        simp [M.evict, M.incref, M.setLive, la]
      · show ((((stage1 env .a true m).1.incref [.a]).evict env).setLive .b (stageErr env .b true == 0)).live .b = true
        rw [h0]
        rfl

theorem exec_sound {env : Env} : ∀ (l : List Step) (L : List H) (m : M), Sound L m → safe L l = true →
    (exec env l m).1.bad = false ∧ ∀ h, (exec env l m).1.refs h = 0
  | [], _, m, hs, _ => ⟨hs.bad, hs.refs⟩
  | s :: r, L, m, hs, h => by
    have h' : okStep L s = true ∧ safe (next L s) r = true := by simpa [safe] using h
    have h1 := one_sound (env := env) hs h'.1
    rw [exec_cons]
    cases ho : (one env s m).2.2 with
    | stop e => exact ⟨h1.1.bad, h1.1.refs⟩
    | go =>
      have hL := h1.2 ho
      exact exec_sound r (next L s) _ ⟨hL.live, hL.refs, hL.bad⟩ h'.2

theorem safe_prog (op : Oper) (h : op ≠ .link) : safe [] (prog op) = true := by
  cases op with
  | link => exact absurd rfl h
  | _ => rfl

/-- C56 (partial: all requests but `link`, see `C56_link_pointer_violated`). However short of memory the
file-system is, and whatever it therefore evicts at every step, no request uses an inode which has
been evicted; and at its end it holds no reference. -/
theorem C56_pointers_partial (t : Task) (env : Env) (op : Oper) (h : op ≠ .link) :
    (run t env op).m.bad = false ∧ ∀ x, (run t env op).m.refs x = 0 :=
  exec_sound (prog op) [] M.init ⟨fun _ hh => (nomatch hh), fun _ => rfl, rfl⟩ (safe_prog op h)

theorem setLive_mono {m : M} {h x : H} (hx : m.live x = true) : (m.setLive h true).live x = true := by
  show (if x = h then true else m.live x) = true
  split
  · rfl
  · exact hx

/-- Where nothing is evicted, pointers stay valid. -/
theorem one_mono {env : Env} {s : Step} {m : M} (h : ∀ k x, env.evict k x = false)
    (hg : (one env s m).2.2 = .go) {x : H} (hx : m.live x = true) : (one env s m).1.live x = true := by
  have hev : ∀ m : M, m.evict env = m := by
    intro m
    unfold M.evict
    simp only [h, Bool.not_false, Bool.or_true, Bool.and_true]
  have hst : ∀ {m : M} {y : H} {c : Bool}, stageErr env y c = 0 → m.live x = true →
      (stage1 env y c m).1.live x = true := by
    intro m y c h0 hx
    simp only [stage1, hev, h0]
    exact setLive_mono hx
  cases s with
  | authorize => simp only [one]; split <;> exact hx
  | mapCreds => simp only [one]; split <;> exact hx
  | mapIds => simp only [one]; split <;> exact hx
  | stage y mo =>
    cases mo with
    | cached =>
      simp only [one] at hg ⊢
      by_cases h0 : env.fetch y false = 0
      · rw [h0]; exact setLive_mono hx
      · rw [if_neg h0] at hg; cases hg
    | cur => exact hst (out_go.1 hg) hx
    | cow => exact hst (out_go.1 hg) hx
    | openable w => exact hst (out_go.1 hg) hx
    | opt f =>
      have h0 : (stageOpt env y f m).2 = 0 := out_go.1 hg
      show (stageOpt env y f m).1.live x = true
      unfold stageOpt at h0 ⊢
      by_cases hf : f = true
      · rw [if_pos hf] at h0 ⊢; exact hst h0 hx
      · rw [if_neg hf] at h0 ⊢
        by_cases hd : (decide (stageErr env y false = 0) && env.dirty y) = true
        · rw [if_pos hd] at h0 ⊢
          have h1 : stageErr env y false = 0 := by
            have := (Bool.and_eq_true _ _ ▸ hd : _ ∧ _).1
            exact of_decide_eq_true this
          exact hst h0 (hst h1 hx)
        · rw [if_neg hd] at h0 ⊢; exact hst h0 hx
  | stage2 =>
    have h0 : (stage2 env m).2 = 0 := out_go.1 hg
    show (stage2 env m).1.live x = true
    unfold stage2 at h0 ⊢
    by_cases ha : stageErr env .a true ≠ 0
    · rw [if_pos ha] at h0
      exact absurd h0 ha
    · rw [if_neg ha] at h0 ⊢
      have h1 : (stage1 env .a true m).1.live x = true := hst (by omega) hx
      exact hst (m := (stage1 env .a true m).1.incref [.a]) h0 h1
  | name y => exact hx
  | symval => exact hx
  | rmap => exact hx
  | flush y =>
    show (((m.use _).incref _).evict env).live x = true
    rw [hev]; exact hx
  | flush2 =>
    show (((m.use _).incref _).evict env).live x = true
    rw [hev]; exact hx
  | getattr y =>
    show (((m.use _).incref _).evict env).live x = true
    rw [hev]; exact hx
  | act us g =>
    simp only [one] at hg ⊢
    split
    · exact hx
    · rename_i hn
      rw [if_neg hn] at hg
      rw [out_go.1 hg]
      refine setLive_mono ?_
      show (((m.use _).incref _).evict env).live x = true
      rw [hev]; exact hx

theorem exec_soundG {env : Env} (hev : ∀ k x, env.evict k x = false) : ∀ (l : List Step) (L : List H) (m : M),
    Sound L m → safeG L l = true → (exec env l m).1.bad = false ∧ ∀ h, (exec env l m).1.refs h = 0
  | [], _, m, hs, _ => ⟨hs.bad, hs.refs⟩
  | s :: r, L, m, hs, h => by
    have h' : okStep L s = true ∧ safeG (next L s ++ L) r = true := by simpa [safeG] using h
    have h1 := one_sound (env := env) hs h'.1
    rw [exec_cons]
    cases ho : (one env s m).2.2 with
    | stop e => exact ⟨h1.1.bad, h1.1.refs⟩
    | go =>
      have hL := h1.2 ho
      refine exec_soundG hev r (next L s ++ L) _ ⟨?_, hL.refs, hL.bad⟩ h'.2
      intro x hx
      rcases List.mem_append.1 hx with hx | hx
      · exact hL.live x hx
      · exact one_mono hev ho (hs.live x hx)

/-- C56 (partial). With memory to spare `link` is no exception: when nothing is evicted while it runs, it
uses no invalid pointer and keeps no reference. -/
theorem C56_link_pointer_partial (t : Task) (env : Env) (h : ∀ k x, env.evict k x = false) :
    (run t env .link).m.bad = false ∧ ∀ x, (run t env .link).m.refs x = 0 :=
  exec_soundG h (prog .link) [] M.init ⟨fun _ hh => (nomatch hh), fun _ => rfl, rfl⟩ (by decide)

/-! ### Success and failure -/

/-- Once the operation itself is done, these steps follow it. -/
def tail : List Step → List Step
  | [] => []
  | .act _ _ :: r => r
  | _ :: r => tail r

theorem exec_noact {env : Env} : ∀ (l : List Step) (m : M), (l.any Step.isAct) = false →
    (exec env l m).1.acted = m.acted
  | [], _, _ => rfl
  | s :: r, m, h => by
    have h' : s.isAct = false ∧ (r.any Step.isAct) = false := by simpa using h
    have h1 : (one env s m).1.acted = m.acted := by
      cases s with
      | act us g => cases h'.1
      | stage h mo =>
        cases mo with
        | opt f =>
          cases f <;> simp only [one, stageOpt] <;> (try split) <;> (try split) <;> rfl
        | _ => rfl
      | stage2 => simp only [one, stage2]; split <;> rfl
      | authorize => simp only [one]; split <;> rfl
      | mapCreds => simp only [one]; split <;> rfl
      | mapIds => simp only [one]; split <;> rfl
      | _ => rfl
    rw [exec_cons]
    cases ho : (one env s m).2.2 with
    | stop e => exact h1
    | go => exact (exec_noact r _ h'.2).trans h1

/-- Program up to and including the operation itself: either it fails before or in it, nothing done; or
it is done and the rest follows. -/
theorem exec_split {env : Env} : ∀ (l : List Step) (m : M), m.acted = false → (l.any Step.isAct) = true →
    ((exec env l m).1.acted = false ∧ ((exec env l m).2 ≠ 0 ∨
        ∃ h, .stage h .cached ∈ l ∧ env.fetch h false ≠ 0)) ∨
    ∃ m', m'.acted = true ∧ exec env l m = exec env (tail l) m'
  | [], _, _, h => by cases h
  | s :: r, m, hm, h => by
    rw [exec_cons]
    cases hs : s.isAct with
    | true =>
      cases s with
      | act us g =>
        by_cases hg : (g && (env.ro || env.fossil)) = true
        · have ho : one env (.act us g) m = (m.use us, EROFS, .stop EROFS) := by
            simp only [one, if_pos hg]
          rw [ho]
          exact .inl ⟨hm, .inl (show EROFS ≠ 0 by decide)⟩
        · simp only [one, if_neg hg]
          by_cases h0 : env.actErr = 0
          · refine .inr ?_
            rw [out_go.2 h0]
            refine ⟨_, ?_, rfl⟩
            exact decide_eq_true h0
          · rw [out_stop.2 ⟨rfl, h0⟩]
            exact .inl ⟨decide_eq_false h0, .inl h0⟩
      | _ => cases hs
    | false =>
      have hr : (r.any Step.isAct) = true := by simpa [hs] using h
      have ht : tail (s :: r) = tail r := by
        cases s with
        | act us g => cases hs
        | _ => rfl
      have hone : (one env s m).1.acted = false := by
        have := exec_noact (env := env) [s] m (by simpa using hs)
        rw [exec_cons] at this
        cases ho : (one env s m).2.2 with
        | stop e => rw [ho] at this; exact this.trans hm
        | go => rw [ho] at this; exact this.trans hm
      cases ho : (one env s m).2.2 with
      | stop e =>
        refine .inl ⟨hone, ?_⟩
        by_cases hc : ∃ h, s = .stage h .cached
        · obtain ⟨x, rfl⟩ := hc
          refine .inr ⟨x, by simp, ?_⟩
          simp only [one] at ho
          by_cases h0 : env.fetch x false = 0
          · rw [if_pos h0] at ho; cases ho
          · exact h0
        · exact .inl (one_stop (fun x hx => hc ⟨x, hx⟩) ho)
      | go =>
        rw [ht]
        rcases exec_split (env := env) r ((one env s m).1.note s (one env s m).2.1) hone hr with h1 | h1
        · refine .inl ⟨h1.1, ?_⟩
          rcases h1.2 with h2 | ⟨x, hx, h2⟩
          · exact .inl h2
          · exact .inr ⟨x, by simp [hx], h2⟩
        · exact .inr h1

theorem prog_acts (op : Oper) : ((prog op).any Step.isAct) = true ∧ ((tail (prog op)).any Step.isAct) = false := by
  cases op <;> exact ⟨rfl, rfl⟩

/-- C56. A request which is answered with success has been carried out; the only one which may succeed
without is `forget` for an inode which is not in memory. -/
theorem C56_success_done (t : Task) (env : Env) (op : Oper) (h : (run t env op).err = 0) :
    (run t env op).m.acted = true ∨ (op = .forget ∧ env.fetch .a false ≠ 0) := by
  have he : (exec env (prog op) M.init).2 = 0 := by
    by_cases h0 : (exec env (prog op) M.init).2 = 0
    · exact h0
    · rw [run_err_ne h0] at h; exact absurd h h0
  rcases exec_split (env := env) (prog op) M.init rfl (prog_acts op).1 with h1 | ⟨m', hm', h1⟩
  · rcases h1.2 with h2 | ⟨x, hx, h2⟩
    · exact absurd he h2
    · refine .inr ?_
      have hxa : op = .forget ∧ x = .a := by
        cases op with
        | forget => simp [prog] at hx; exact ⟨rfl, hx⟩
        | _ => simp [prog, onCur, onMut, onName, reply] at hx
      rw [hxa.2] at h2
      exact ⟨hxa.1, h2⟩
  · refine .inl ?_
    show (exec env (prog op) M.init).1.acted = true
    rw [h1, exec_noact _ _ (prog_acts op).2, hm']

/-- C56 (partial: see `C56_failure_undone_violated`). A request which is answered with an error has not
been carried out -- when the attributes for the reply could be had, and pending removals (if there are
any) could be flushed. -/
theorem C56_failure_undone_partial (t : Task) (env : Env) (op : Oper)
    (hr : op.replies = true → env.attrErr = 0 ∧ env.rmapErr = 0) (hp : env.loose = true → env.purge = 0)
    (h : (run t env op).err ≠ 0) : (run t env op).m.acted = false := by
  have hpe : ∀ m, purgeErr env m = 0 := by
    intro m
    unfold purgeErr
    by_cases hl : (m.started && env.loose) = true
    · rw [if_pos hl]
      exact hp ((Bool.and_eq_true _ _ ▸ hl : _ ∧ _).2)
    · rw [if_neg hl]
  have he : (exec env (prog op) M.init).2 ≠ 0 := by
    intro h0
    apply h
    show (if _ then _ else _) = 0
    rw [if_neg (by omega)]
    exact hpe _
  rcases exec_split (env := env) (prog op) M.init rfl (prog_acts op).1 with h1 | ⟨m', hm', h1⟩
  · exact h1.1
  · exfalso
    rw [h1] at he
    have htl : tail (prog op) = [] ∨ (op.replies = true ∧ (tail (prog op) = [.rmap] ∨
        ∃ x, tail (prog op) = [.getattr x, .rmap])) := by
      cases op <;>
        first
        | exact .inl rfl
        | exact .inr ⟨rfl, .inl rfl⟩
        | exact .inr ⟨rfl, .inr ⟨_, rfl⟩⟩
    rcases htl with hl | ⟨hrep, hl | ⟨x, hl⟩⟩
    · rw [hl] at he; exact he rfl
    · rw [hl, exec_cons] at he
      have : ∀ m, (one env .rmap m).2.2 = .go := fun m => out_go.2 (hr hrep).2
      rw [this] at he
      exact he rfl
    · rw [hl, exec_cons] at he
      have h2 : ∀ m, (one env .rmap m).2.2 = .go := fun m => out_go.2 (hr hrep).2
      have h3 : ∀ m, (one env (.getattr x) m).2.2 = .go := fun m => out_go.2 (hr hrep).1
      rw [h3, exec_cons, h2] at he
      exact he rfl

end Silofs.Opers
