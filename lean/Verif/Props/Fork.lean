import Verif.Model.Fork
/-!
C49: taking a snapshot as a whole.
-/
set_option linter.unusedSimpArgs false
set_option linter.unusedVariables false
namespace Silofs.Fork
variable {α : Type}

/-- A mounted file-system in good order: its name leads to its boot record, that one to the volume
the mount works on; numbers from `next` on are unused; all other volumes are stored as they are. -/
structure Good (name : Name) (s : Sys α) : Prop where
  named : s.names name = some s.boot
  booted : s.boots s.boot = some s.live
  live : ∃ v, s.mem s.live = some v ∧ v.fossil = false
  stored : ∃ v, s.disk s.live = some v ∧ v.fossil = false
  same : ∀ v, v ≠ s.live → s.mem v = s.disk v
  freshVol : ∀ k, s.next ≤ k → s.disk k = none
  freshBoot : ∀ k, s.next ≤ k → s.boots k = none
  namesLt : ∀ m b, s.names m = some b → b < s.next
  bootsLt : ∀ b v, s.boots b = some v → v < s.next

theorem Good.liveLt {name : Name} {s : Sys α} (h : Good name s) : s.live < s.next := h.bootsLt _ _ h.booted
theorem Good.bootLt {name : Name} {s : Sys α} (h : Good name s) : s.boot < s.next := h.namesLt _ _ h.named

theorem Good.freshMem {name : Name} {s : Sys α} (h : Good name s) (k : Nat) (hk : s.next ≤ k) : s.mem k = none := by
  have := h.liveLt
  rw [h.same k (by omega)]; exact h.freshVol k hk

/-- The content a user of the mount sees. -/
def current (s : Sys α) : Option α := (s.mem s.live).map (·.content)

theorem upd_self {κ β : Type} [DecidableEq κ] (f : κ → Option β) (k : κ) (v : β) : upd f k v k = some v := by
  unfold upd; rw [if_pos rfl]
theorem upd_ne {κ β : Type} [DecidableEq κ] (f : κ → Option β) (k x : κ) (v : β) (h : x ≠ k) :
    upd f k v x = f x := by
  unfold upd; rw [if_neg h]

/-- Memory after the two new super-blocks and the mark. -/
def forkMem (s : Sys α) (v : Vol α) : Nat → Option (Vol α) :=
  upd (upd (upd s.mem s.next v) (s.next + 1) v) s.live { v with fossil := true }

theorem fork_state (s : Sys α) (v : Vol α) (hv : s.mem s.live = some v) (hl : s.live < s.next) :
    markFossil s.live (cloneRebind s.live (cloneRebind s.live (sync s))) =
      { sync s with mem := forkMem s v, live := s.next + 1, next := s.next + 2 } := by
  have e1 : cloneRebind s.live (sync s) =
      { sync s with mem := upd s.mem s.next v, live := s.next, next := s.next + 1 } := by
    unfold cloneRebind
    rw [show (sync s).mem s.live = some v from hv]
    rfl
  have e2 : cloneRebind s.live (cloneRebind s.live (sync s)) =
      { sync s with mem := upd (upd s.mem s.next v) (s.next + 1) v, live := s.next + 1, next := s.next + 2 } := by
    rw [e1]
    unfold cloneRebind
    simp only
    rw [upd_ne _ _ _ _ (by omega), hv]
  rw [e2]
  unfold markFossil
  simp only
  rw [upd_ne _ _ _ _ (by omega), upd_ne _ _ _ _ (by omega), hv]
  rfl

/-- State after a complete clone. -/
def cloned (s : Sys α) (v : Vol α) : Sys α :=
  { mem := forkMem s v
    disk := fun k => (forkMem s v k).or ((s.mem k).or (s.disk k))
    boots := upd (upd s.boots (s.next + 2) (s.next + 1)) (s.next + 3) s.next
    names := s.names
    live := s.next + 1
    boot := s.next + 2
    next := s.next + 4 }

theorem clone_all (s : Sys α) (v : Vol α) (hv : s.mem s.live = some v) (hf : v.fossil = false)
    (hl : s.live < s.next) (fails part : Nat → Bool) (h : ∀ i, i < 7 → fails i = false) :
    clone fails part s = (cloned s v, some (s.next + 2, s.next + 3)) := by
  unfold clone
  rw [hv]
  simp only [hf, Bool.false_eq_true, if_false, h 0 (by omega), h 1 (by omega), h 2 (by omega), h 3 (by omega),
    h 4 (by omega), h 5 (by omega), h 6 (by omega)]
  rw [fork_state s v hv hl]
  rfl

/-- The state a clone leaves, by the step that failed. -/
theorem clone_cases (s : Sys α) (v : Vol α) (hv : s.mem s.live = some v) (hf : v.fossil = false)
    (hl : s.live < s.next) (fails part : Nat → Bool) :
    clone fails part s = (syncPart part s, none) ∧ fails 0 = true ∨
    (∃ l m n, clone fails part s = ({ sync s with mem := m, live := l, next := n }, none)) ∨
    clone fails part s =
      (syncPart part { sync s with mem := forkMem s v, live := s.next + 1, next := s.next + 2 }, none) ∨
    (∃ b n r, clone fails part s = ({ cloned s v with boots := b, boot := (clone fails part s).1.boot, next := n }, r) ∧
      (∀ k, k < s.next → b k = s.boots k) ∧ (r = none ∨ r = some (s.next + 2, s.next + 3) ∧
        clone fails part s = (cloned s v, some (s.next + 2, s.next + 3)))) := by
  cases h0 : fails 0 with
  | true =>
    left; refine ⟨?_, rfl⟩
    unfold clone; rw [hv]; simp only [hf, Bool.false_eq_true, if_false, h0, if_true]
  | false =>
  cases h1 : fails 1 with
  | true =>
    right; left; refine ⟨s.live, s.mem, s.next, ?_⟩
    unfold clone; rw [hv]; simp only [hf, Bool.false_eq_true, if_false, h0, h1, if_true]; rfl
  | false =>
  cases h2 : fails 2 with
  | true =>
    right; left; refine ⟨s.next, upd s.mem s.next v, s.next + 1, ?_⟩
    unfold clone; rw [hv]; simp only [hf, Bool.false_eq_true, if_false, h0, h1, h2, if_true]
    unfold cloneRebind
    rw [show (sync s).mem s.live = some v from hv]; rfl
  | false =>
  cases h3 : fails 3 with
  | true =>
    right; right; left
    unfold clone; rw [hv]; simp only [hf, Bool.false_eq_true, if_false, h0, h1, h2, h3, if_true]
    rw [fork_state s v hv hl]
  | false =>
  right; right; right
  cases h4 : fails 4 with
  | true =>
    refine ⟨s.boots, s.next + 2, none, ?_, fun _ _ => rfl, .inl rfl⟩
    unfold clone; rw [hv]; simp only [hf, Bool.false_eq_true, if_false, h0, h1, h2, h3, h4, if_true]
    rw [fork_state s v hv hl]; rfl
  | false =>
  cases h5 : fails 5 with
  | true =>
    refine ⟨upd s.boots (s.next + 2) (s.next + 1), s.next + 3, none, ?_,
      fun k hk => upd_ne _ _ _ _ (by omega), .inl rfl⟩
    unfold clone; rw [hv]; simp only [hf, Bool.false_eq_true, if_false, h0, h1, h2, h3, h4, h5, if_true]
    rw [fork_state s v hv hl]; rfl
  | false =>
  cases h6 : fails 6 with
  | true =>
    refine ⟨upd (upd s.boots (s.next + 2) (s.next + 1)) (s.next + 3) s.next, s.next + 4, none, ?_,
      fun k hk => ?_, .inl rfl⟩
    · unfold clone; rw [hv]; simp only [hf, Bool.false_eq_true, if_false, h0, h1, h2, h3, h4, h5, h6, if_true]
      rw [fork_state s v hv hl]; rfl
    · rw [upd_ne _ _ _ _ (by omega), upd_ne _ _ _ _ (by omega)]
  | false =>
    have e := clone_all s v hv hf hl fails part (by
      intro i hi
      match i, hi with
      | 0, _ => exact h0
      | 1, _ => exact h1
      | 2, _ => exact h2
      | 3, _ => exact h3
      | 4, _ => exact h4
      | 5, _ => exact h5
      | 6, _ => exact h6)
    refine ⟨upd (upd s.boots (s.next + 2) (s.next + 1)) (s.next + 3) s.next, s.next + 4,
      some (s.next + 2, s.next + 3), ?_, fun k hk => ?_, .inr ⟨rfl, e⟩⟩
    · rw [e]; rfl
    · rw [upd_ne _ _ _ _ (by omega), upd_ne _ _ _ _ (by omega)]

/-! ### A complete snapshot -/

theorem or_some {β : Type} (x : β) (o : Option β) : (some x).or o = some x := rfl

theorem cloned_disk_live (s : Sys α) (v : Vol α) : (cloned s v).disk s.live = some { v with fossil := true } := by
  show (forkMem s v s.live).or _ = _
  unfold forkMem; rw [upd_self]; rfl
theorem cloned_disk_alt (s : Sys α) (v : Vol α) (hl : s.live < s.next) : (cloned s v).disk s.next = some v := by
  show (forkMem s v s.next).or _ = _
  unfold forkMem; rw [upd_ne _ _ _ _ (by omega), upd_ne _ _ _ _ (by omega), upd_self]; rfl
theorem cloned_disk_new (s : Sys α) (v : Vol α) (hl : s.live < s.next) : (cloned s v).disk (s.next + 1) = some v := by
  show (forkMem s v (s.next + 1)).or _ = _
  unfold forkMem; rw [upd_ne _ _ _ _ (by omega), upd_self]; rfl

theorem or_same {β : Type} (a b : Option β) (h : a = b) : a.or b = b := by
  rw [h]; cases b <;> rfl

/-- Volumes not touched are stored as before. -/
theorem cloned_disk_other (name : Name) (s : Sys α) (v : Vol α) (h : Good name s) (k : Nat) (hk : k < s.next)
    (hne : k ≠ s.live) : (cloned s v).disk k = s.disk k := by
  have e : forkMem s v k = s.mem k := by
    unfold forkMem
    rw [upd_ne _ _ _ _ hne, upd_ne _ _ _ _ (by omega), upd_ne _ _ _ _ (by omega)]
  show (forkMem s v k).or _ = _
  rw [e, h.same k hne, or_same _ _ rfl, or_same _ _ rfl]

/-- What saving both names gives. -/
def snapped (name snapname : Name) (s : Sys α) (v : Vol α) : Sys α :=
  { cloned s v with names := upd (upd s.names snapname (s.next + 3)) name (s.next + 2) }

theorem snap_all (name snapname : Name) (s : Sys α) (h : Good name s) (v : Vol α)
    (hv : s.mem s.live = some v) (hf : v.fossil = false) (hn : s.names snapname = none)
    (fails part : Nat → Bool) (hok : ∀ i, i < 7 → fails i = false) (saves : Nat) (hs : 2 ≤ saves) :
    snap fails part saves name snapname s = (snapped name snapname s v, .ok ()) := by
  unfold snap
  rw [hn, clone_all s v hv hf h.liveLt fails part hok]
  simp only [Option.isSome_none, Bool.false_eq_true, if_false]
  rw [if_neg (by omega), if_neg (by omega)]
  rfl

theorem good_snapped (name snapname : Name) (s : Sys α) (h : Good name s) (v : Vol α)
    (hv : s.mem s.live = some v) (hf : v.fossil = false) (hne : snapname ≠ name) :
    Good name (snapped name snapname s v) := by
  have hl := h.liveLt
  refine ⟨?_, ?_, ?_, ?_, ?_, ?_, ?_, ?_, ?_⟩
  · exact upd_self _ _ _
  · show upd _ _ _ (s.next + 2) = some (s.next + 1)
    rw [upd_ne _ _ _ _ (by omega), upd_self]
  · refine ⟨v, ?_, hf⟩
    show forkMem s v (s.next + 1) = _
    unfold forkMem; rw [upd_ne _ _ _ _ (by omega), upd_self]
  · exact ⟨v, cloned_disk_new s v hl, hf⟩
  · intro k hk
    show forkMem s v k = (forkMem s v k).or _
    by_cases h1 : k = s.live
    · subst h1; unfold forkMem; rw [upd_self]; rfl
    · by_cases h2 : k = s.next + 1
      · subst h2; exact absurd rfl hk
      · by_cases h3 : k = s.next
        · subst h3; unfold forkMem; rw [upd_ne _ _ _ _ h1, upd_ne _ _ _ _ h2, upd_self]; rfl
        · have e : forkMem s v k = s.mem k := by
            unfold forkMem; rw [upd_ne _ _ _ _ h1, upd_ne _ _ _ _ h2, upd_ne _ _ _ _ h3]
          rw [e, h.same k h1, or_same _ _ rfl, or_same _ _ rfl]
  · intro k hk
    have hk' : s.next + 4 ≤ k := hk
    show (forkMem s v k).or _ = none
    unfold forkMem
    rw [upd_ne _ _ _ _ (by omega), upd_ne _ _ _ _ (by omega), upd_ne _ _ _ _ (by omega),
      h.freshMem k (by omega), h.freshVol k (by omega)]; rfl
  · intro k hk
    have hk' : s.next + 4 ≤ k := hk
    show upd _ _ _ k = none
    rw [upd_ne _ _ _ _ (by omega), upd_ne _ _ _ _ (by omega)]
    exact h.freshBoot k (by omega)
  · intro m b hm
    show b < s.next + 4
    have hm' : upd (upd s.names snapname (s.next + 3)) name (s.next + 2) m = some b := hm
    by_cases h1 : m = name
    · subst h1; rw [upd_self] at hm'; cases hm'; omega
    · rw [upd_ne _ _ _ _ h1] at hm'
      by_cases h2 : m = snapname
      · subst h2; rw [upd_self] at hm'; cases hm'; omega
      · rw [upd_ne _ _ _ _ h2] at hm'
        have := h.namesLt m b hm'; omega
  · intro b x hb
    show x < s.next + 4
    have hb' : upd (upd s.boots (s.next + 2) (s.next + 1)) (s.next + 3) s.next b = some x := hb
    by_cases h1 : b = s.next + 3
    · subst h1; rw [upd_self] at hb'; cases hb'; omega
    · rw [upd_ne _ _ _ _ h1] at hb'
      by_cases h2 : b = s.next + 2
      · subst h2; rw [upd_self] at hb'; cases hb'; omega
      · rw [upd_ne _ _ _ _ h2] at hb'
        have := h.bootsLt b x hb'; omega

theorem good_write (name : Name) (s : Sys α) (h : Good name s) (f : α → α) :
    Good name (write f s) ∧ current (write f s) = (current s).map f := by
  obtain ⟨v, hv, hf⟩ := h.live
  have e : write f s = { s with mem := upd s.mem s.live ⟨f v.content, false⟩ } := by
    unfold write; rw [hv]; simp only [hf, Bool.false_eq_true, if_false]
  rw [e]
  refine ⟨⟨h.named, h.booted, ⟨⟨f v.content, false⟩, upd_self _ _ _, rfl⟩, h.stored, ?_, h.freshVol, h.freshBoot,
    h.namesLt, h.bootsLt⟩, ?_⟩
  · intro k hk
    show upd _ _ _ k = _
    rw [upd_ne _ _ _ _ hk]; exact h.same k hk
  · unfold current
    show (upd _ _ _ s.live).map _ = _
    rw [upd_self, hv]; rfl

theorem good_sync (name : Name) (s : Sys α) (h : Good name s) :
    Good name (sync s) ∧ current (sync s) = current s := by
  obtain ⟨v, hv, hf⟩ := h.live
  refine ⟨⟨h.named, h.booted, ⟨v, hv, hf⟩, ⟨v, ?_, hf⟩, ?_, ?_, h.freshBoot, h.namesLt, h.bootsLt⟩, rfl⟩
  · show (s.mem s.live).or _ = _; rw [hv]; rfl
  · intro k hk
    show s.mem k = (s.mem k).or (s.disk k)
    rw [h.same k hk, or_same _ _ rfl]
  · intro k hk
    show (s.mem k).or (s.disk k) = none
    rw [h.freshMem k hk, h.freshVol k hk]; rfl

/-- What a name opens to, spelled out. -/
theorem open_of (s : Sys α) (m : Name) (b k : Nat) (vol : Vol α) (h1 : s.names m = some b)
    (h2 : s.boots b = some k) (h3 : s.disk k = some vol) (rd : Bool) :
    openBy s m rd = if vol.fossil && !rd then .error .erofs else .ok vol.content := by
  unfold openBy; rw [h1]; simp only; rw [h2]; simp only; rw [h3]

/-- Opening depends on the name, the boot record and the volume only. -/
theorem open_congr (s s' : Sys α) (m : Name) (rd : Bool) (h1 : s'.names m = s.names m)
    (h2 : ∀ b, s.names m = some b → s'.boots b = s.boots b)
    (h3 : ∀ b k, s.names m = some b → s.boots b = some k → s'.disk k = s.disk k) :
    openBy s' m rd = openBy s m rd := by
  unfold openBy
  rw [h1]
  cases hb : s.names m with
  | none => rfl
  | some b =>
    simp only
    rw [h2 b hb]
    cases hk : s.boots b with
    | none => rfl
    | some k => simp only; rw [h3 b k hb hk]

/-- **C49 (a complete snapshot)**: it holds exactly what the file-system held at that moment,
flushed or not, and can be opened for writing; so can the original name; the old boot address
can only be opened read-only, with that same content; what all other names open to has
not changed. -/
theorem C49_snapshot (name snapname : Name) (s : Sys α) (h : Good name s) (x : α) (hx : current s = some x)
    (hn : s.names snapname = none) (hne : snapname ≠ name) (fails part : Nat → Bool)
    (hok : ∀ i, i < 7 → fails i = false) :
    let r := snap fails part 2 name snapname s
    r.2 = .ok () ∧ openBy r.1 snapname false = .ok x ∧ openBy r.1 name false = .ok x ∧
    (∀ m, m ≠ name → m ≠ snapname → s.names m ≠ some s.boot →
      (∀ b, s.names m = some b → s.boots b ≠ some s.live) → ∀ rd, openBy r.1 m rd = openBy s m rd) ∧
    (∀ m, m ≠ name → s.names m = some s.boot →
      openBy r.1 m true = .ok x ∧ openBy r.1 m false = .error .erofs) ∧
    Good name r.1 ∧ current r.1 = some x := by
  obtain ⟨v, hv, hf⟩ := h.live
  have hl := h.liveLt
  have hxv : v.content = x := by
    unfold current at hx; rw [hv] at hx; exact Option.some.inj hx
  intro r
  have hr : r = (snapped name snapname s v, .ok ()) :=
    snap_all name snapname s h v hv hf hn fails part hok 2 (by omega)
  rw [hr]
  refine ⟨rfl, ?_, ?_, ?_, ?_, good_snapped name snapname s h v hv hf hne, ?_⟩
  · rw [open_of (snapped name snapname s v) snapname (s.next + 3) s.next v
      (by show upd _ _ _ _ = _; rw [upd_ne _ _ _ _ hne, upd_self])
      (by show upd _ _ _ _ = _; rw [upd_self]) (cloned_disk_alt s v hl) false, hf, hxv]
    rfl
  · rw [open_of (snapped name snapname s v) name (s.next + 2) (s.next + 1) v
      (by show upd _ _ _ _ = _; rw [upd_self])
      (by show upd _ _ _ _ = _; rw [upd_ne _ _ _ _ (by omega), upd_self]) (cloned_disk_new s v hl) false, hf, hxv]
    rfl
  · intro m h1 h2 h3 h4 rd
    refine open_congr s _ m rd ?_ ?_ ?_
    · show upd _ _ _ _ = _; rw [upd_ne _ _ _ _ h1, upd_ne _ _ _ _ h2]
    · intro b hb
      have := h.namesLt m b hb
      show upd _ _ _ _ = _; rw [upd_ne _ _ _ _ (by omega), upd_ne _ _ _ _ (by omega)]
    · intro b k hb hk
      exact cloned_disk_other name s v h k (h.bootsLt b k hk) (fun e => h4 b hb (by rw [hk, e]))
  · intro m h1 h2
    have hms : m ≠ snapname := fun e => by rw [e, hn] at h2; cases h2
    have hb := h.bootLt
    have e := open_of (snapped name snapname s v) m s.boot s.live { v with fossil := true }
      (by show upd _ _ _ _ = _; rw [upd_ne _ _ _ _ h1, upd_ne _ _ _ _ hms]; exact h2)
      (by show upd _ _ _ _ = _; rw [upd_ne _ _ _ _ (by omega), upd_ne _ _ _ _ (by omega)]; exact h.booted)
      (cloned_disk_live s v)
    rw [e, e]
    refine ⟨?_, rfl⟩
    show Except.ok v.content = _
    rw [hxv]
  · unfold current
    show (forkMem s v (s.next + 1)).map _ = _
    unfold forkMem; rw [upd_ne _ _ _ _ (by omega), upd_self, ← hxv]; rfl

/-! ### Any history of changes, syncs and snapshots -/

/-- What a user may do. -/
inductive Op (α : Type) where
  | change (f : α → α)
  | sync
  | snap (snapname : Name)

/-- The code. -/
def step (name : Name) (s : Sys α) : Op α → Sys α
  | .change f => write f s
  | .sync => Silofs.Fork.sync s
  | .snap sn => (snap (fun _ => false) (fun _ => false) 2 name sn s).1

/-- Specification: the current content and that of each snapshot. -/
structure Spec (α : Type) where
  cur : α
  snaps : Name → Option α

/-- A new snapshot takes the current content; one whose name is taken is refused. -/
def Spec.step (taken : Name → Bool) (p : Spec α) : Op α → Spec α
  | .change f => { p with cur := f p.cur }
  | .sync => p
  | .snap sn => if taken sn || (p.snaps sn).isSome then p else { p with snaps := upd p.snaps sn p.cur }

/-- The names in use besides those of the history's own snapshots. -/
structure Sim (name : Name) (taken : Name → Bool) (s : Sys α) (p : Spec α) : Prop where
  good : Good name s
  cur : current s = some p.cur
  name : taken name = true
  names : ∀ m, (s.names m).isSome = (taken m || (p.snaps m).isSome)
  fresh : ∀ m, taken m = true → p.snaps m = none
  snap : ∀ m x, p.snaps m = some x → ∃ b k vol, s.names m = some b ∧ s.boots b = some k ∧ k ≠ s.live ∧
    s.disk k = some vol ∧ vol.fossil = false ∧ vol.content = x

theorem sim_step (name : Name) (taken : Name → Bool) (s : Sys α) (p : Spec α) (h : Sim name taken s p) (op : Op α) :
    Sim name taken (step name s op) (p.step taken op) := by
  cases op with
  | change f =>
    obtain ⟨v, hv, hf⟩ := h.good.live
    have g := good_write name s h.good f
    have e : write f s = { s with mem := upd s.mem s.live ⟨f v.content, false⟩ } := by
      unfold write; rw [hv]; simp only [hf, Bool.false_eq_true, if_false]
    refine ⟨g.1, by rw [show step name s (.change f) = write f s from rfl, g.2, h.cur]; rfl, h.name, ?_, h.fresh, ?_⟩
    · intro m; rw [show step name s (.change f) = write f s from rfl, e]; exact h.names m
    · intro m x hm
      rw [show step name s (.change f) = write f s from rfl, e]; exact h.snap m x hm
  | sync =>
    have g := good_sync name s h.good
    refine ⟨g.1, g.2.trans h.cur, h.name, h.names, h.fresh, ?_⟩
    intro m x hm
    obtain ⟨b, k, vol, h1, h2, h3, h4, h5, h6⟩ := h.snap m x hm
    refine ⟨b, k, vol, h1, h2, h3, ?_, h5, h6⟩
    show (s.mem k).or (s.disk k) = _
    rw [h.good.same k h3, or_same _ _ rfl]; exact h4
  | snap sn =>
    obtain ⟨v, hv, hf⟩ := h.good.live
    have hl := h.good.liveLt
    by_cases ht : (taken sn || (p.snaps sn).isSome) = true
    · have e1 : step name s (.snap sn) = s := by
        show (snap _ _ 2 name sn s).1 = s
        unfold snap
        rw [if_pos (by rw [h.names]; exact ht)]
      have e2 : p.step taken (.snap sn) = p := by
        show (if _ then _ else _) = p
        rw [if_pos ht]
      rw [e1, e2]; exact h
    · have hfree : s.names sn = none := by
        have := h.names sn
        cases hs : s.names sn with
        | none => rfl
        | some b => rw [hs] at this; exact absurd this.symm ht
      have hnn : sn ≠ name := fun e => by rw [e, h.good.named] at hfree; cases hfree
      have e1 : step name s (.snap sn) = snapped name sn s v := by
        show (snap _ _ 2 name sn s).1 = _
        rw [snap_all name sn s h.good v hv hf hfree _ _ (fun _ _ => rfl) 2 (by omega)]
      have e2 : p.step taken (.snap sn) = { p with snaps := upd p.snaps sn p.cur } := by
        show (if _ then _ else _) = _
        rw [if_neg ht]
      have hcur : v.content = p.cur := by
        have := h.cur; unfold current at this; rw [hv] at this; exact Option.some.inj this
      rw [e1, e2]
      refine ⟨good_snapped name sn s h.good v hv hf hnn, ?_, h.name, ?_, ?_, ?_⟩
      · unfold current
        show (forkMem s v (s.next + 1)).map _ = _
        unfold forkMem; rw [upd_ne _ _ _ _ (by omega), upd_self, ← hcur]; rfl
      · intro m
        show (upd (upd s.names sn _) name _ m).isSome = (_ || (upd p.snaps sn p.cur m).isSome)
        by_cases h1 : m = name
        · subst h1; rw [upd_self, h.name]; rfl
        · rw [upd_ne _ _ _ _ h1]
          by_cases h2 : m = sn
          · subst h2; rw [upd_self, upd_self]; simp
          · rw [upd_ne _ _ _ _ h2, upd_ne _ _ _ _ h2]; exact h.names m
      · intro m hm
        show upd p.snaps sn p.cur m = none
        by_cases h2 : m = sn
        · subst h2; rw [hm] at ht; exact absurd rfl ht
        · rw [upd_ne _ _ _ _ h2]; exact h.fresh m hm
      · intro m x hm
        have hm' : upd p.snaps sn p.cur m = some x := hm
        by_cases h2 : m = sn
        · subst h2
          rw [upd_self] at hm'
          refine ⟨s.next + 3, s.next, v, ?_, ?_, ?_, cloned_disk_alt s v hl, hf, ?_⟩
          · show upd _ _ _ _ = _; rw [upd_ne _ _ _ _ hnn, upd_self]
          · show upd _ _ _ _ = _; rw [upd_self]
          · show s.next ≠ s.next + 1; omega
          · rw [hcur]; exact Option.some.inj hm'
        · rw [upd_ne _ _ _ _ h2] at hm'
          obtain ⟨b, k, vol, g1, g2, g3, g4, g5, g6⟩ := h.snap m x hm'
          have hb := h.good.namesLt m b g1
          have hk := h.good.bootsLt b k g2
          have hmn : m ≠ name := fun e => by
            rw [e, h.good.named] at g1
            cases g1
            rw [h.good.booted] at g2
            exact g3 (Option.some.inj g2).symm
          refine ⟨b, k, vol, ?_, ?_, ?_, ?_, g5, g6⟩
          · show upd _ _ _ _ = _; rw [upd_ne _ _ _ _ hmn, upd_ne _ _ _ _ h2]; exact g1
          · show upd _ _ _ _ = _; rw [upd_ne _ _ _ _ (by omega), upd_ne _ _ _ _ (by omega)]; exact g2
          · show k ≠ s.next + 1; omega
          · rw [show (snapped name sn s v).disk k = (cloned s v).disk k from rfl,
              cloned_disk_other name s v h.good k hk g3]; exact g4

/-- **C49 (any history)**: after any sequence of changes, syncs and (undisturbed) snapshots, every
snapshot opens to the content at the moment it was taken, and, once synced, the
file-system's own name opens to its present content. -/
theorem C49_history (name : Name) (s0 : Sys α) (x0 : α) (h : Good name s0) (hx : current s0 = some x0)
    (ops : List (Op α)) :
    let s := ops.foldl (step name) s0
    let p := ops.foldl (Spec.step (fun m => (s0.names m).isSome)) ⟨x0, fun _ => none⟩
    (∀ m x, p.snaps m = some x → ∀ rd, openBy s m rd = .ok x) ∧
    current s = some p.cur ∧ ∀ rd, openBy (sync s) name rd = .ok p.cur := by
  have key : ∀ (ops : List (Op α)) (s : Sys α) (p : Spec α), Sim name (fun m => (s0.names m).isSome) s p →
      Sim name (fun m => (s0.names m).isSome) (ops.foldl (step name) s)
        (ops.foldl (Spec.step (fun m => (s0.names m).isSome)) p) := by
    intro ops
    induction ops with
    | nil => exact fun _ _ h => h
    | cons op ops ih => exact fun s p h => ih _ _ (sim_step name _ s p h op)
  have H := key ops s0 ⟨x0, fun _ => none⟩
    ⟨h, hx, by simp [h.named], fun m => by simp, fun _ _ => rfl, fun m x hm => by cases hm⟩
  intro s p
  refine ⟨fun m x hm rd => ?_, H.cur, fun rd => ?_⟩
  · obtain ⟨b, k, vol, h1, h2, _, h4, h5, h6⟩ := H.snap m x hm
    rw [open_of s m b k vol h1 h2 h4 rd, h5, h6]; rfl
  · obtain ⟨v, hv, hf⟩ := H.good.live
    have hd : (sync s).disk s.live = some v := by
      show (s.mem s.live).or _ = _
      rw [hv]; rfl
    rw [open_of (sync s) name s.boot s.live v H.good.named H.good.booted hd rd, hf]
    have := H.cur
    unfold current at this
    rw [hv] at this
    have e : v.content = p.cur := Option.some.inj this
    rw [← e]; rfl

end Silofs.Fork
