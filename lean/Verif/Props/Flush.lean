import Verif.Props.FlushBase
/-
C39: flushing is invisible, and what a successful sync has covered survives a crash.
-/
set_option linter.unusedSimpArgs false
set_option linter.unusedVariables false
namespace Silofs.Flush
open Silofs.Avl

/-! ### Specification -/

/-- The content of an object as every operation sees it: that of the cache, otherwise that of the storage -/
def view (e : Env) (s : State) (n : Id) : Bytes :=
  match s.cache n with
  | some c => c
  | none => e.dec n (readAt s.disk (e.addr n))

/-- The object survives a crash with its present content. -/
def Durable (e : Env) (s : State) (n : Id) : Prop := view e (crash s) n = view e s n

/-- One step of a history -/
inductive Op where
  | modify (n : Id) (o : Option Id) (c : Bytes)
  /-- an operation on node or block `n` of inode `i`, which also changes the inode -/
  | update (n i : Id) (c ci : Bytes)
  | load (n : Id)
  | evict (n : Id)
  | flush (ii : Option Id) (f : Flags) (mem : Bool) (ans wans : List Bool)
  | submit (apex : Nat) (wans : List Bool)
  | submitAll (wans : List Bool)
  | asyncBegin (n i : Id)
  | asyncEnd (n : Id) (c : Bytes)

def step (e : Env) (s : State) : Op → State
  | .modify n o c => modify s n o c
  | .update n i c ci => modify (modify s n (some i) c) i none ci
  | .load n => load e s n
  | .evict n => evict s n
  | .flush ii f mem ans wans => (flush e s ii f mem ans wans).2.1
  | .submit apex wans => (submit s apex wans).2
  | .submitAll wans => (submitAll s wans).2
  | .asyncBegin n i => asyncBegin s n i
  | .asyncEnd n c => asyncEnd s n c

/-- The specification: contents change by modifications only. -/
def specStep (m : Id → Bytes) : Op → Id → Bytes
  | .modify n _ c => upd m n c
  | .update n i c ci => upd (upd m n c) i ci
  | .asyncEnd n c => upd m n c
  | _ => m

/-- The calls that the code can make: contents have the size of the object, only data and nodes are in the queue of an
inode, a flush for an inode has it in the cache, asynchronous copies go to blocks of data in the cache. -/
def Op.Valid (e : Env) (s : State) : Op → Prop
  | .modify n o c => c.length = (e.addr n).len ∧
      ∀ i, o = some i → (e.cls n = .data ∨ e.cls n = .vnode) ∧ e.cls i = .inode
  | .update n i c ci => c.length = (e.addr n).len ∧ ci.length = (e.addr i).len ∧
      (e.cls n = .data ∨ e.cls n = .vnode) ∧ e.cls i = .inode
  | .flush ii _ _ _ _ => ∀ i, ii = some i → s.cached i = true ∧ e.cls i = .inode
  | .asyncBegin n i => s.cached n = true ∧ e.cls n = .data ∧ e.cls i = .inode
  | .asyncEnd n c => 0 < s.async n ∧ c.length = (e.addr n).len
  | _ => True

/-- No write to storage fails, and a flush that fails does so before it has marked anything clean. -/
def Op.Quiet (e : Env) (s : State) : Op → Prop
  | .flush ii f _ ans wans => (∀ b ∈ wans, b = false) ∧
      ((process e s (collect e s ii f) ans).1 = true → (process e s (collect e s ii f) ans).2.1.dq = s.dq)
  | .submit _ wans => ∀ b ∈ wans, b = false
  | .submitAll wans => ∀ b ∈ wans, b = false
  | _ => True

def run (e : Env) (s : State) : List Op → State
  | [] => s
  | o :: os => run e (step e s o) os

def Runs (e : Env) (s : State) : List Op → Prop
  | [] => True
  | o :: os => o.Valid e s ∧ o.Quiet e s ∧ Runs e (step e s o) os

/-- A mount: nothing in the cache, any content of the storage. -/
def init (d : Disk) : State where
  cache := fun _ => none
  dq := []
  owner := fun _ => none
  async := fun _ => 0
  sq := []
  next := 1
  disk := d

/-! ### Invariant -/

structure Inv (e : Env) (s : State) : Prop where
  dirty : ∀ n ∈ s.dq, s.cached n = true
  nodup : s.dq.Nodup
  len : ∀ n c, s.cache n = some c → c.length = (e.addr n).len
  wf : ∀ q ∈ s.sq, ∃ c, Writes e q c
  held : ∀ q ∈ s.sq, ∀ n ∈ q.refs, s.cached n = true
  ids : (s.sq.map Sqe.id).Pairwise (· < ·)
  below : ∀ q ∈ s.sq, q.id < s.next
  pos : 0 < s.next
  settled : ∀ n c, s.cache n = some c → n ∉ s.dq → e.dec n (readAt (overlay s.disk s.sq) (e.addr n)) = c
  inflight : ∀ n, 0 < s.async n → n ∈ s.dq ∧ e.cls n = .data
  owned : ∀ n i, s.owner n = some i → (e.cls n = .data ∨ e.cls n = .vnode) ∧ e.cls i = .inode

theorem readAt_len (d : Disk) (a : Laddr) : (readAt d a).length = a.len := by simp [readAt]

theorem inv_init (e : Env) (d : Disk) : Inv e (init d) where
  dirty := by simp [init]
  nodup := by simp [init]
  len := by simp [init]
  wf := by simp [init]
  held := by simp [init]
  ids := by simp [init]
  below := by simp [init]
  pos := by simp [init]
  settled := by simp [init]
  inflight := by simp [init]
  owned := by simp [init]

/-! Modification -/

theorem mem_dirtify (s : State) (n : Id) (o : Option Id) (m : Id) : m ∈ (dirtify s n o).dq ↔ m ∈ s.dq ∨ m = n := by
  unfold dirtify
  by_cases h : n ∈ s.dq
  · rw [if_pos h]
    constructor
    · exact .inl
    · rintro (h1 | rfl)
      · exact h1
      · exact h
  · rw [if_neg h]
    cases o <;> simp

theorem dirtify_same (s : State) (n : Id) (o : Option Id) : (dirtify s n o).cache = s.cache ∧ (dirtify s n o).sq = s.sq ∧
    (dirtify s n o).next = s.next ∧ (dirtify s n o).disk = s.disk ∧ (dirtify s n o).async = s.async := by
  unfold dirtify
  by_cases h : n ∈ s.dq
  · rw [if_pos h]; exact ⟨rfl, rfl, rfl, rfl, rfl⟩
  · rw [if_neg h]
    cases o <;> exact ⟨rfl, rfl, rfl, rfl, rfl⟩

theorem dirtify_nodup (s : State) (n : Id) (o : Option Id) (h : s.dq.Nodup) : (dirtify s n o).dq.Nodup := by
  unfold dirtify
  by_cases hn : n ∈ s.dq
  · rw [if_pos hn]; exact h
  · rw [if_neg hn]
    have : (s.dq ++ [n]).Nodup :=
      List.nodup_append.2 ⟨h, by simp, fun a ha b hb => by
        simp only [List.mem_singleton] at hb
        subst hb
        exact fun hh => hn (hh ▸ ha)⟩
    cases o <;> exact this

theorem dirtify_owner (s : State) (n : Id) (o : Option Id) (m i : Id) (h : (dirtify s n o).owner m = some i) :
    s.owner m = some i ∨ (m = n ∧ o = some i) := by
  unfold dirtify at h
  by_cases hn : n ∈ s.dq
  · rw [if_pos hn] at h; exact .inl h
  · rw [if_neg hn] at h
    cases o with
    | none => exact .inl h
    | some j =>
      simp only [upd] at h
      by_cases hm : m = n
      · rw [if_pos hm] at h; exact .inr ⟨hm, h⟩
      · rw [if_neg hm] at h; exact .inl h

theorem inv_modify {e : Env} {s : State} (h : Inv e s) (n : Id) (o : Option Id) (c : Bytes)
    (hc : c.length = (e.addr n).len)
    (ho : ∀ i, o = some i → (e.cls n = .data ∨ e.cls n = .vnode) ∧ e.cls i = .inode) : Inv e (modify s n o c) := by
  unfold modify
  obtain ⟨d1, d2, d3, d4, d5⟩ := dirtify_same { s with cache := upd s.cache n (some c) } n o
  have hcache : ∀ m, s.cached m = true → ({ s with cache := upd s.cache n (some c) } : State).cached m = true := by
    intro m hm
    simp only [State.cached, upd]
    by_cases hmn : m = n
    · rw [if_pos hmn]; rfl
    · rw [if_neg hmn]; exact hm
  have hcn : ({ s with cache := upd s.cache n (some c) } : State).cached n = true := by
    simp [State.cached, upd]
  have hcd : ∀ m, (dirtify { s with cache := upd s.cache n (some c) } n o).cached m =
      ({ s with cache := upd s.cache n (some c) } : State).cached m := by
    intro m; simp only [State.cached, d1]
  constructor
  · intro m hm
    rw [hcd]
    rcases (mem_dirtify _ _ _ _).1 hm with hm | rfl
    · exact hcache m (h.dirty m hm)
    · exact hcn
  · exact dirtify_nodup _ _ _ h.nodup
  · intro m x hx
    rw [d1] at hx
    simp only [upd] at hx
    by_cases hmn : m = n
    · rw [if_pos hmn] at hx
      cases hx
      rw [hmn]; exact hc
    · rw [if_neg hmn] at hx
      exact h.len m x hx
  · rw [d2]; exact h.wf
  · rw [d2]; intro q hq m hm; rw [hcd]; exact hcache m (h.held q hq m hm)
  · rw [d2]; exact h.ids
  · rw [d2, d3]; exact h.below
  · rw [d3]; exact h.pos
  · intro m x hx hm
    rw [d1] at hx
    simp only [upd] at hx
    have hmn : m ≠ n := fun hh => hm ((mem_dirtify _ _ _ _).2 (.inr hh))
    rw [if_neg hmn] at hx
    rw [d2, d4]
    exact h.settled m x hx fun hh => hm ((mem_dirtify _ _ _ _).2 (.inl hh))
  · intro m hm
    rw [d5] at hm
    obtain ⟨a, b⟩ := h.inflight m hm
    exact ⟨(mem_dirtify _ _ _ _).2 (.inl a), b⟩
  · intro m i hm
    rcases dirtify_owner _ _ _ _ _ hm with hm | ⟨rfl, ho2⟩
    · exact h.owned m i hm
    · exact ho i ho2

theorem view_modify (e : Env) (s : State) (n : Id) (o : Option Id) (c : Bytes) :
    view e (modify s n o c) = upd (view e s) n c := by
  funext m
  unfold modify view
  obtain ⟨d1, d2, d3, d4, d5⟩ := dirtify_same { s with cache := upd s.cache n (some c) } n o
  rw [d1, d4]
  simp only [upd]
  by_cases hm : m = n
  · simp [hm]
  · simp [hm]

/-! Asynchronous writes -/

theorem inv_asyncBegin {e : Env} {s : State} (h : Inv e s) (n i : Id) (hn : s.cached n = true) (hd : e.cls n = .data)
    (hi : e.cls i = .inode) : Inv e (asyncBegin s n i) := by
  unfold asyncBegin
  obtain ⟨d1, d2, d3, d4, d5⟩ := dirtify_same s n (some i)
  have hcd : ∀ m, (dirtify s n (some i)).cached m = s.cached m := by intro m; simp only [State.cached, d1]
  constructor
  · intro m hm
    show (dirtify s n (some i)).cached m = true
    rw [hcd]
    rcases (mem_dirtify _ _ _ _).1 hm with hm | rfl
    · exact h.dirty m hm
    · exact hn
  · exact dirtify_nodup _ _ _ h.nodup
  · intro m x hx; exact h.len m x (d1 ▸ hx)
  · show ∀ q ∈ (dirtify s n (some i)).sq, _
    rw [d2]; exact h.wf
  · show ∀ q ∈ (dirtify s n (some i)).sq, ∀ m ∈ q.refs, (dirtify s n (some i)).cached m = true
    rw [d2]; intro q hq m hm; rw [hcd]; exact h.held q hq m hm
  · show ((dirtify s n (some i)).sq.map Sqe.id).Pairwise _
    rw [d2]; exact h.ids
  · show ∀ q ∈ (dirtify s n (some i)).sq, q.id < (dirtify s n (some i)).next
    rw [d2, d3]; exact h.below
  · show 0 < (dirtify s n (some i)).next
    rw [d3]; exact h.pos
  · intro m x hx hm
    show e.dec m (readAt (overlay (dirtify s n (some i)).disk (dirtify s n (some i)).sq) _) = x
    rw [d2, d4]
    exact h.settled m x (d1 ▸ hx) fun hh => hm ((mem_dirtify _ _ _ _).2 (.inl hh))
  · intro m hm
    by_cases hmn : m = n
    · exact ⟨(mem_dirtify _ _ _ _).2 (.inr hmn), hmn ▸ hd⟩
    · have hm' : 0 < s.async m := by
        have : (upd s.async n (s.async n + 1)) m = s.async m := by simp [upd, hmn]
        exact this ▸ hm
      obtain ⟨a, b⟩ := h.inflight m hm'
      exact ⟨(mem_dirtify _ _ _ _).2 (.inl a), b⟩
  · intro m j hm
    rcases dirtify_owner _ _ _ _ _ hm with hm | ⟨rfl, ho2⟩
    · exact h.owned m j hm
    · cases ho2
      exact ⟨.inl hd, hi⟩

theorem view_asyncBegin (e : Env) (s : State) (n i : Id) : view e (asyncBegin s n i) = view e s := by
  funext m
  unfold asyncBegin view
  obtain ⟨d1, d2, d3, d4, d5⟩ := dirtify_same s n (some i)
  show (match (dirtify s n (some i)).cache m with
    | some c => c
    | none => e.dec m (readAt (dirtify s n (some i)).disk (e.addr m))) = _
  rw [d1, d4]

theorem inv_asyncEnd {e : Env} {s : State} (h : Inv e s) (n : Id) (c : Bytes) (ha : 0 < s.async n)
    (hc : c.length = (e.addr n).len) : Inv e (asyncEnd s n c) := by
  have hd := (h.inflight n ha).1
  have hcache : ∀ m, s.cached m = true → (asyncEnd s n c).cached m = true := by
    intro m hm
    simp only [State.cached, upd, asyncEnd]
    by_cases hmn : m = n
    · rw [if_pos hmn]; rfl
    · rw [if_neg hmn]; exact hm
  constructor
  · intro m hm; exact hcache m (h.dirty m hm)
  · exact h.nodup
  · intro m x hx
    simp only [asyncEnd, upd] at hx
    by_cases hmn : m = n
    · rw [if_pos hmn] at hx; cases hx; rw [hmn]; exact hc
    · rw [if_neg hmn] at hx; exact h.len m x hx
  · exact h.wf
  · intro q hq m hm; exact hcache m (h.held q hq m hm)
  · exact h.ids
  · exact h.below
  · exact h.pos
  · intro m x hx hm
    have hmn : m ≠ n := fun hh => hm (hh ▸ hd)
    simp only [asyncEnd, upd] at hx
    rw [if_neg hmn] at hx
    exact h.settled m x hx hm
  · intro m hm
    by_cases hmn : m = n
    · exact hmn ▸ h.inflight n ha
    · have : (asyncEnd s n c).async m = s.async m := by simp [asyncEnd, upd, hmn]
      exact h.inflight m (this ▸ hm)
  · exact h.owned

theorem view_asyncEnd (e : Env) (s : State) (n : Id) (c : Bytes) : view e (asyncEnd s n c) = upd (view e s) n c := by
  funext m
  simp only [view, asyncEnd, upd]
  by_cases hm : m = n <;> simp [hm]

/-! Loading and eviction -/

theorem not_held {e : Env} {s : State} (h : Inv e s) {n : Id} (hn : s.cached n ≠ true) : ∀ q ∈ s.sq, n ∉ q.refs :=
  fun q hq hm => hn (h.held q hq n hm)

/-- What is not in the cache is not waiting to be written. -/
theorem uncached_overlay {e : Env} (he : e.Ok) {s : State} (h : Inv e s) {n : Id} (hn : s.cache n = none) :
    readAt (overlay s.disk s.sq) (e.addr n) = readAt s.disk (e.addr n) :=
  readAt_overlay_other he _ h.wf _ _ (not_held h (by simp [State.cached, hn]))

theorem inv_load {e : Env} (he : e.Ok) {s : State} (h : Inv e s) (n : Id) : Inv e (load e s n) := by
  unfold load
  by_cases hc : s.cached n = true
  · rw [if_pos hc]; exact h
  rw [if_neg hc]
  have hnone : s.cache n = none := by
    cases hx : s.cache n with
    | none => rfl
    | some _ => simp [State.cached, hx] at hc
  have hcache : ∀ m, s.cached m = true →
      ({ s with cache := upd s.cache n (some (e.dec n (readAt s.disk (e.addr n)))) } : State).cached m = true := by
    intro m hm
    simp only [State.cached, upd]
    by_cases hmn : m = n
    · rw [if_pos hmn]; rfl
    · rw [if_neg hmn]; exact hm
  constructor
  · intro m hm; exact hcache m (h.dirty m hm)
  · exact h.nodup
  · intro m x hx
    simp only [upd] at hx
    by_cases hmn : m = n
    · rw [if_pos hmn] at hx
      cases hx
      rw [hmn]
      rw [he.dec_len]; exact readAt_len _ _
    · rw [if_neg hmn] at hx; exact h.len m x hx
  · exact h.wf
  · intro q hq m hm; exact hcache m (h.held q hq m hm)
  · exact h.ids
  · exact h.below
  · exact h.pos
  · intro m x hx hm
    simp only [upd] at hx
    by_cases hmn : m = n
    · rw [if_pos hmn] at hx
      cases hx
      subst hmn
      show e.dec m (readAt (overlay s.disk s.sq) (e.addr m)) = _
      rw [uncached_overlay he h hnone]
    · rw [if_neg hmn] at hx; exact h.settled m x hx hm
  · exact h.inflight
  · exact h.owned

theorem view_load (e : Env) (s : State) (n : Id) : view e (load e s n) = view e s := by
  unfold load
  by_cases hc : s.cached n = true
  · rw [if_pos hc]
  rw [if_neg hc]
  have hnone : s.cache n = none := by
    cases hx : s.cache n with
    | none => rfl
    | some _ => simp [State.cached, hx] at hc
  funext m
  simp only [view, upd]
  by_cases hm : m = n
  · subst hm; simp [hnone]
  · simp [hm]

theorem evictable_iff (s : State) (n : Id) : evictable s n = true ↔
    n ∉ s.dq ∧ s.async n = 0 ∧ (∀ q ∈ s.sq, n ∉ q.refs) ∧ dqOf s n = [] := by
  unfold evictable
  simp only [Bool.and_eq_true, decide_eq_true_eq]
  constructor
  · rintro ⟨⟨⟨a, b⟩, c⟩, d⟩; exact ⟨a, b, c, d⟩
  · rintro ⟨a, b, c, d⟩; exact ⟨⟨⟨a, b⟩, c⟩, d⟩

theorem inv_evict {e : Env} {s : State} (h : Inv e s) (n : Id) : Inv e (evict s n) := by
  unfold evict
  by_cases hc : evictable s n = true
  · rw [if_pos hc]
    obtain ⟨h1, h2, h3, h4⟩ := (evictable_iff s n).1 hc
    have hcache : ∀ m, m ≠ n → s.cached m = true →
        ({ s with cache := upd s.cache n none } : State).cached m = true := by
      intro m hmn hm
      simp only [State.cached, upd]
      rw [if_neg hmn]; exact hm
    constructor
    · intro m hm; exact hcache m (fun hh => h1 (hh ▸ hm)) (h.dirty m hm)
    · exact h.nodup
    · intro m x hx
      simp only [upd] at hx
      by_cases hmn : m = n
      · rw [if_pos hmn] at hx; cases hx
      · rw [if_neg hmn] at hx; exact h.len m x hx
    · exact h.wf
    · intro q hq m hm; exact hcache m (fun hh => h3 q hq (hh ▸ hm)) (h.held q hq m hm)
    · exact h.ids
    · exact h.below
    · exact h.pos
    · intro m x hx hm
      simp only [upd] at hx
      by_cases hmn : m = n
      · rw [if_pos hmn] at hx; cases hx
      · rw [if_neg hmn] at hx; exact h.settled m x hx hm
    · exact h.inflight
    · exact h.owned
  · rw [if_neg hc]; exact h

theorem view_evict {e : Env} (he : e.Ok) {s : State} (h : Inv e s) (n : Id) : view e (evict s n) = view e s := by
  unfold evict
  by_cases hc : evictable s n = true
  · rw [if_pos hc]
    obtain ⟨h1, h2, h3, h4⟩ := (evictable_iff s n).1 hc
    funext m
    simp only [view, upd]
    by_cases hm : m = n
    · subst hm
      rw [if_pos rfl]
      cases hx : s.cache m with
      | none => rfl
      | some c =>
        show e.dec m (readAt s.disk (e.addr m)) = c
        rw [← h.settled m c hx h1, readAt_overlay_other he _ h.wf _ _ h3]
    · rw [if_neg hm]
  · rw [if_neg hc]

/-! Submission -/

theorem ask_quiet {ans : List Bool} (h : ∀ b ∈ ans, b = false) : (ask ans).1 = false ∧ ∀ b ∈ (ask ans).2, b = false := by
  cases ans with
  | nil => exact ⟨rfl, by simp [ask]⟩
  | cons b r => exact ⟨h b (by simp), fun x hx => h x (by simp [hx]; exact .inr hx)⟩

/-- Entries are written from the front of the queue, in order. -/
theorem apply_spec (id : Nat) (sq : List Sqe) (d : Disk) (wans : List Bool) (h : (apply d id sq wans).1 = false) :
    ∃ a b, sq = a ++ b ∧ (apply d id sq wans).2 = (overlay d a, b) ∧ (∀ q ∈ a, q.id ≤ id) ∧
      (∀ q, b.head? = some q → id < q.id) := by
  induction sq generalizing d wans with
  | nil => exact ⟨[], [], rfl, rfl, by simp, by simp⟩
  | cons q l ih =>
    unfold apply at h ⊢
    by_cases h1 : q.id > id
    · rw [if_pos h1]
      refine ⟨[], q :: l, rfl, rfl, by simp, ?_⟩
      intro x hx
      simp only [List.head?_cons, Option.some.injEq] at hx
      subst hx
      exact h1
    · rw [if_neg h1] at h ⊢
      by_cases h2 : (ask wans).1 = true
      · rw [if_pos h2] at h; cases h
      rw [if_neg h2] at h ⊢
      obtain ⟨a, b, e1, e2, e3, e4⟩ := ih _ _ h
      refine ⟨q :: a, b, by rw [e1]; rfl, ?_, ?_, e4⟩
      · rw [e2]; rfl
      · intro x hx
        rcases List.mem_cons.1 hx with rfl | hx
        · omega
        · exact e3 x hx

theorem applyAll_spec (sq : List Sqe) (d : Disk) (wans : List Bool) (h : (applyAll d sq wans).1 = false) :
    (applyAll d sq wans).2 = (overlay d sq, []) := by
  induction sq generalizing d wans with
  | nil => rfl
  | cons q l ih =>
    unfold applyAll at h ⊢
    by_cases h2 : (ask wans).1 = true
    · rw [if_pos h2] at h; cases h
    rw [if_neg h2] at h ⊢
    rw [ih _ _ h]
    rfl

theorem apply_quiet (id : Nat) (sq : List Sqe) (d : Disk) (wans : List Bool) (hw : ∀ b ∈ wans, b = false) :
    (apply d id sq wans).1 = false := by
  induction sq generalizing d wans with
  | nil => rfl
  | cons q l ih =>
    obtain ⟨a, b⟩ := ask_quiet hw
    unfold apply
    by_cases h1 : q.id > id
    · rw [if_pos h1]
    · rw [if_neg h1, if_neg (by rw [a]; simp)]
      exact ih _ _ b

theorem applyAll_quiet (sq : List Sqe) (d : Disk) (wans : List Bool) (hw : ∀ b ∈ wans, b = false) :
    (applyAll d sq wans).1 = false := by
  induction sq generalizing d wans with
  | nil => rfl
  | cons q l ih =>
    obtain ⟨a, b⟩ := ask_quiet hw
    unfold applyAll
    rw [if_neg (by rw [a]; simp)]
    exact ih _ _ b

/-- Writing a part of the queue -/
theorem inv_written {e : Env} {s : State} (h : Inv e s) (a b : List Sqe) (hs : s.sq = a ++ b) :
    Inv e { s with disk := overlay s.disk a, sq := b } := by
  have hb : ∀ q ∈ b, q ∈ s.sq := fun q hq => by rw [hs]; simp [hq]
  constructor
  · exact h.dirty
  · exact h.nodup
  · exact h.len
  · exact fun q hq => h.wf q (hb q hq)
  · exact fun q hq => h.held q (hb q hq)
  · have := h.ids
    rw [hs, List.map_append] at this
    exact (List.pairwise_append.1 this).2.1
  · exact fun q hq => h.below q (hb q hq)
  · exact h.pos
  · intro n c hn hd
    have := h.settled n c hn hd
    rw [hs, overlay_append] at this
    exact this
  · exact h.inflight
  · exact h.owned

theorem view_written {e : Env} (he : e.Ok) {s : State} (h : Inv e s) (a b : List Sqe) (hs : s.sq = a ++ b) :
    view e { s with disk := overlay s.disk a, sq := b } = view e s := by
  funext n
  simp only [view]
  cases hx : s.cache n with
  | some c => rfl
  | none =>
    have hn : ∀ q ∈ s.sq, n ∉ q.refs := not_held h (by simp [State.cached, hx])
    show e.dec n (readAt (overlay s.disk a) (e.addr n)) = e.dec n (readAt s.disk (e.addr n))
    rw [readAt_overlay_other he a (fun q hq => h.wf q (by rw [hs]; simp [hq])) _ _
      (fun q hq => hn q (by rw [hs]; simp [hq]))]

theorem submit_written {s : State} (apex : Nat) (wans : List Bool) (h : (submit s apex wans).1 = false) :
    ∃ a b, s.sq = a ++ b ∧ (submit s apex wans).2 = { s with disk := overlay s.disk a, sq := b } ∧
      (apex ≠ 0 → ∀ q, b.head? = some q → apex < q.id) := by
  unfold submit at h ⊢
  by_cases h0 : apex = 0
  · rw [if_pos h0]
    exact ⟨[], s.sq, rfl, rfl, fun hh => absurd h0 hh⟩
  · rw [if_neg h0] at h ⊢
    obtain ⟨a, b, e1, e2, e3, e4⟩ := apply_spec apex s.sq s.disk wans h
    refine ⟨a, b, e1, ?_, fun _ => e4⟩
    simp only [e2]

theorem submitAll_written {s : State} (wans : List Bool) (h : (submitAll s wans).1 = false) :
    (submitAll s wans).2 = { s with disk := overlay s.disk s.sq, sq := [] } := by
  unfold submitAll at h ⊢
  simp only [applyAll_spec s.sq s.disk wans h]

/-! Flush -/

theorem collect_mem (e : Env) (s : State) (ii : Option Id) (f : Flags) (n : Id) (hn : n ∈ collect e s ii f) :
    n ∈ s.dq ∨ ii = some n := by
  have halt : n ∈ mayFlush s (dqVnis e s) ++ dqUnis e s → n ∈ s.dq := by
    intro h
    simp only [mayFlush, dqVnis, dqUnis, List.mem_append, List.mem_filter] at h
    rcases h with h | h
    · exact h.1.1
    · exact h.1
  have hof : ∀ i, n ∈ ofInode s i → n ∈ s.dq ∨ n = i := by
    intro i h
    simp only [ofInode, mayFlush, dqOf, List.mem_append, List.mem_filter, List.mem_singleton] at h
    rcases h with h | h
    · exact .inl h.1.1
    · exact .inr h
  have hany : n ∈ (dqIis e s).flatMap (ofInode s) ++ (mayFlush s (dqVnis e s) ++ dqUnis e s) → n ∈ s.dq := by
    intro h
    rcases List.mem_append.1 h with h | h
    · obtain ⟨i, h1, h2⟩ := List.mem_flatMap.1 h
      rcases hof i h2 with h | rfl
      · exact h
      · exact (List.mem_filter.1 h1).1
    · exact halt h
  cases ii with
  | none => exact .inl (hany hn)
  | some i =>
    simp only [collect] at hn
    by_cases hf : f.now = true
    · rw [if_pos hf] at hn; exact .inl (hany hn)
    · rw [if_neg hf] at hn
      rcases List.mem_append.1 hn with h | h
      · rcases hof i h with h | rfl
        · exact .inl h
        · exact .inr rfl
      · exact .inl (halt h)

theorem owner_unowned {e : Env} {s : State} (h : Inv e s) {n : Id} (hc : e.cls n = .inode ∨ e.cls n = .unode) :
    s.owner n = none := by
  cases ho : s.owner n with
  | none => rfl
  | some i =>
    obtain ⟨a, _⟩ := h.owned n i ho
    rcases hc with hc | hc <;> rcases a with a | a <;> rw [hc] at a <;> cases a

theorem nodup_flatMap {β : Type} (l : List Id) (f : Id → List β) (hl : l.Nodup) (hf : ∀ i ∈ l, (f i).Nodup)
    (hd : ∀ i ∈ l, ∀ j ∈ l, i ≠ j → ∀ x ∈ f i, x ∉ f j) : (l.flatMap f).Nodup := by
  induction l with
  | nil => simp
  | cons i l ih =>
    rw [List.flatMap_cons]
    refine List.nodup_append.2 ⟨hf i (by simp), ih (List.nodup_cons.1 hl).2 (fun j hj => hf j (by simp [hj]))
      (fun a ha b hb => hd a (by simp [ha]) b (by simp [hb])), ?_⟩
    intro x hx y hy hxy
    subst hxy
    obtain ⟨j, hj, hy⟩ := List.mem_flatMap.1 hy
    exact hd i (by simp) j (by simp [hj]) (fun hh => (List.nodup_cons.1 hl).1 (hh ▸ hj)) x hx hy

/-- Every object is collected once. -/
theorem collect_nodup {e : Env} {s : State} (h : Inv e s) (ii : Option Id) (f : Flags)
    (hi : ∀ i, ii = some i → e.cls i = .inode) : (collect e s ii f).Nodup := by
  have hofm : ∀ i n, n ∈ ofInode s i → s.owner n = some i ∨ n = i := by
    intro i n hn
    simp only [ofInode, mayFlush, dqOf, List.mem_append, List.mem_filter, List.mem_singleton, decide_eq_true_eq] at hn
    rcases hn with hn | hn
    · exact .inl hn.1.2
    · exact .inr hn
  have hof : ∀ i, e.cls i = .inode → (ofInode s i).Nodup := by
    intro i hc
    refine List.nodup_append.2 ⟨(h.nodup.sublist List.filter_sublist).sublist List.filter_sublist, by simp, ?_⟩
    intro a ha b hb hab
    simp only [List.mem_singleton] at hb
    subst hb; subst hab
    simp only [mayFlush, dqOf, List.mem_filter, decide_eq_true_eq] at ha
    rw [owner_unowned h (.inl hc)] at ha
    cases ha.1.2
  have halt : (mayFlush s (dqVnis e s) ++ dqUnis e s).Nodup := by
    refine List.nodup_append.2 ⟨(h.nodup.sublist List.filter_sublist).sublist List.filter_sublist,
      h.nodup.sublist List.filter_sublist, ?_⟩
    intro a ha b hb hab
    subst hab
    simp only [mayFlush, dqVnis, dqUnis, List.mem_filter, decide_eq_true_eq] at ha hb
    rcases ha.1.2.1 with hc | hc <;> rw [hb.2.1] at hc <;> cases hc
  have haltm : ∀ n, n ∈ mayFlush s (dqVnis e s) ++ dqUnis e s → s.owner n = none ∧ e.cls n ≠ .inode := by
    intro n hn
    simp only [mayFlush, dqVnis, dqUnis, List.mem_append, List.mem_filter, decide_eq_true_eq] at hn
    rcases hn with hn | hn
    · refine ⟨hn.1.2.2, fun hc => ?_⟩
      rcases hn.1.2.1 with hd | hd <;> rw [hc] at hd <;> cases hd
    · exact ⟨hn.2.2, fun hc => by rw [hc] at hn; cases hn.2.1⟩
  have hsep : ∀ i, e.cls i = .inode → ∀ x ∈ ofInode s i, x ∉ mayFlush s (dqVnis e s) ++ dqUnis e s := by
    intro i hc x hx hm
    obtain ⟨a, b⟩ := haltm x hm
    rcases hofm i x hx with hx | rfl
    · rw [a] at hx; cases hx
    · exact b hc
  have hany : ((dqIis e s).flatMap (ofInode s) ++ (mayFlush s (dqVnis e s) ++ dqUnis e s)).Nodup := by
    have hcls : ∀ i ∈ dqIis e s, e.cls i = .inode := by
      intro i hm
      simp only [dqIis, List.mem_filter, decide_eq_true_eq] at hm
      exact hm.2.1
    refine List.nodup_append.2 ⟨nodup_flatMap _ _ (h.nodup.sublist List.filter_sublist) (fun i hm => hof i (hcls i hm)) ?_,
      halt, ?_⟩
    · intro i hm j hj hne x hx hy
      rcases hofm i x hx with hx | rfl
      · rcases hofm j x hy with hy | rfl
        · rw [hx] at hy; cases hy; exact hne rfl
        · rw [owner_unowned h (.inl (hcls x hj))] at hx; cases hx
      · rcases hofm j x hy with hy | rfl
        · rw [owner_unowned h (.inl (hcls x hm))] at hy; cases hy
        · exact hne rfl
    · intro x hx y hy hxy
      subst hxy
      obtain ⟨i, h1, h2⟩ := List.mem_flatMap.1 hx
      exact hsep i (hcls i h1) x h2 hy
  cases ii with
  | none => exact hany
  | some i =>
    simp only [collect]
    by_cases hf : f.now = true
    · rw [if_pos hf]; exact hany
    · rw [if_neg hf]
      refine List.nodup_append.2 ⟨hof i (hi i rfl), halt, ?_⟩
      intro x hx y hy hxy
      subst hxy
      exact hsep i (hi i rfl) x hx hy

theorem range_pairwise (a n : Nat) : (List.range' a n).Pairwise (· < ·) := List.pairwise_lt_range'

/-- A flush that succeeds: all objects collected are queued, in three groups (data, nodes, space maps), and clean. -/
theorem process_ok {e : Env} (he : e.Ok) {s : State} (l : List Id) (ans : List Bool) (hn : l.Nodup)
    (hl : ∀ n ∈ l, (s.cur n).length = (e.addr n).len) (hp : (process e s l ans).1 = false) :
    ∃ tx0 tx1 tx2 next', (process e s l ans).2.1 =
        { s with dq := s.dq.filter (fun n => n ∉ l), next := next', sq := s.sq ++ (tx0 ++ tx1 ++ tx2) } ∧
      (process e s l ans).2.2 = ((tx0 ++ tx1 ++ tx2).map Sqe.id).foldl max 0 ∧
      (tx0.flatMap Sqe.refs).Perm (inSlot e 0 l) ∧ (tx1.flatMap Sqe.refs).Perm (inSlot e 1 l) ∧
      (tx2.flatMap Sqe.refs).Perm (inSlot e 2 l) ∧
      (∀ q ∈ tx0 ++ tx1 ++ tx2, Writes e q fun n => e.enc n (s.cur n)) ∧
      (tx0 ++ tx1 ++ tx2).map Sqe.id = List.range' s.next (tx0 ++ tx1 ++ tx2).length ∧
      next' = s.next + (tx0 ++ tx1 ++ tx2).length := by
  unfold process at hp ⊢
  cases h0 : processSlot e s (inSlot e 0 l) ans with
  | none => rw [h0] at hp; cases hp
  | some r0 =>
    obtain ⟨s0, tx0, ans0⟩ := r0
    rw [h0] at hp
    simp only at hp ⊢
    obtain ⟨p0, n0, a1, a2, a3⟩ := processSlot_spec he s (inSlot e 0 l) ans (hn.sublist List.filter_sublist)
      (fun n h => hl n (List.mem_filter.1 h).1) _ _ _ h0
    cases h1 : processSlot e s0 (inSlot e 1 l) ans0 with
    | none => rw [h1] at hp; cases hp
    | some r1 =>
      obtain ⟨s1, tx1, ans1⟩ := r1
      rw [h1] at hp
      simp only at hp ⊢
      obtain ⟨p1, n1, b1, b2, b3⟩ := processSlot_spec he s0 (inSlot e 1 l) ans0 (hn.sublist List.filter_sublist)
        (fun n h => by rw [a3]; exact hl n (List.mem_filter.1 h).1) _ _ _ h1
      cases h2 : processSlot e s1 (inSlot e 2 l) ans1 with
      | none => rw [h2] at hp; cases hp
      | some r2 =>
        obtain ⟨s2, tx2, ans2⟩ := r2
        simp only at hp ⊢
        obtain ⟨p2, n2, c1, c2, c3⟩ := processSlot_spec he s1 (inSlot e 2 l) ans1 (hn.sublist List.filter_sublist)
          (fun n h => by rw [b3, a3]; exact hl n (List.mem_filter.1 h).1) _ _ _ h2
        have hc0 : s0.cur = s.cur := by rw [a3]; rfl
        have hc1 : s1.cur = s.cur := by rw [b3, a3]; rfl
        have hx0 : s0.next = n0 := by rw [a3]
        have hx1 : s1.next = n1 := by rw [b3]
        refine ⟨tx0, tx1, tx2, n2, ?_, rfl, ?_, ?_, ?_, ?_, ?_, ?_⟩
        · rw [c3, b3, a3]
          have hmem : s.dq.filter (fun n => n ∉ l) = ((s.dq.filter fun n => n ∉ inSlot e 0 l).filter
              fun n => n ∉ inSlot e 1 l).filter fun n => n ∉ inSlot e 2 l := by
            rw [List.filter_filter, List.filter_filter]
            apply List.filter_congr
            intro n _
            simp only [inSlot, List.mem_filter, decide_eq_true_eq]
            cases hcc : e.cls n <;> simp [slotOf]
          rw [hmem]
        · rw [a2.refs]; exact a1
        · rw [b2.refs]; exact b1
        · rw [c2.refs]; exact c1
        · intro q hq
          rcases List.mem_append.1 hq with hq | hq
          · rcases List.mem_append.1 hq with hq | hq
            · exact a2.writes q hq
            · exact hc0 ▸ b2.writes q hq
          · exact hc1 ▸ c2.writes q hq
        · rw [List.map_append, List.map_append, a2.ids, b2.ids, c2.ids, hx0, hx1, b2.next, a2.next, hx0, a2.next,
            List.length_append, List.length_append, ← List.range'_append_1, ← List.range'_append_1, Nat.add_assoc]
        · rw [c2.next, hx1, b2.next, hx0, a2.next]
          simp only [List.length_append]
          omega

theorem mem_tx {e : Env} {l : List Id} {tx0 tx1 tx2 : List Sqe} (h0 : (tx0.flatMap Sqe.refs).Perm (inSlot e 0 l))
    (h1 : (tx1.flatMap Sqe.refs).Perm (inSlot e 1 l)) (h2 : (tx2.flatMap Sqe.refs).Perm (inSlot e 2 l)) (n : Id) :
    (∃ q ∈ tx0 ++ tx1 ++ tx2, n ∈ q.refs) ↔ n ∈ l := by
  have hm : ∀ (tx : List Sqe) k, (tx.flatMap Sqe.refs).Perm (inSlot e k l) →
      ((∃ q ∈ tx, n ∈ q.refs) ↔ n ∈ l ∧ slotOf (e.cls n) = k) := by
    intro tx k hp
    rw [← List.mem_flatMap, hp.mem_iff]
    simp [inSlot]
  constructor
  · rintro ⟨q, hq, hn⟩
    rcases List.mem_append.1 hq with hq | hq
    · rcases List.mem_append.1 hq with hq | hq
      · exact ((hm tx0 0 h0).1 ⟨q, hq, hn⟩).1
      · exact ((hm tx1 1 h1).1 ⟨q, hq, hn⟩).1
    · exact ((hm tx2 2 h2).1 ⟨q, hq, hn⟩).1
  · intro hn
    have : slotOf (e.cls n) = 0 ∨ slotOf (e.cls n) = 1 ∨ slotOf (e.cls n) = 2 := by
      cases e.cls n <;> simp [slotOf]
    rcases this with hs | hs | hs
    · obtain ⟨q, hq, h⟩ := (hm tx0 0 h0).2 ⟨hn, hs⟩
      exact ⟨q, by simp [hq], h⟩
    · obtain ⟨q, hq, h⟩ := (hm tx1 1 h1).2 ⟨hn, hs⟩
      exact ⟨q, by simp [hq], h⟩
    · obtain ⟨q, hq, h⟩ := (hm tx2 2 h2).2 ⟨hn, hs⟩
      exact ⟨q, by simp [hq], h⟩

/-- The objects of a flush are in the cache, with contents of their size. -/
theorem collect_cached {e : Env} {s : State} (h : Inv e s) (ii : Option Id) (f : Flags)
    (hi : ∀ i, ii = some i → s.cached i = true ∧ e.cls i = .inode) (n : Id) (hn : n ∈ collect e s ii f) :
    s.cached n = true ∧ (s.cur n).length = (e.addr n).len ∧ s.cache n = some (s.cur n) := by
  have hc : s.cached n = true := by
    rcases collect_mem e s ii f n hn with h1 | h1
    · exact h.dirty n h1
    · exact (hi n h1).1
  obtain ⟨c, hx⟩ := Option.isSome_iff_exists.1 hc
  have hcur : s.cur n = c := by simp [State.cur, hx]
  exact ⟨hc, by rw [hcur]; exact h.len n c hx, by rw [hcur]; exact hx⟩

theorem inv_process_ok {e : Env} (he : e.Ok) {s : State} (h : Inv e s) (ii : Option Id) (f : Flags)
    (hi : ∀ i, ii = some i → s.cached i = true ∧ e.cls i = .inode) (ans : List Bool)
    (hp : (process e s (collect e s ii f) ans).1 = false) :
    Inv e (process e s (collect e s ii f) ans).2.1 := by
  have hnd := collect_nodup h ii f fun i hh => (hi i hh).2
  have hcc := collect_cached h ii f hi
  obtain ⟨tx0, tx1, tx2, next', e1, e2, e3, e4, e5, e6, e7, e8⟩ :=
    process_ok he (collect e s ii f) ans hnd (fun n hn => (hcc n hn).2.1) hp
  have hmem := mem_tx e3 e4 e5
  generalize htx : tx0 ++ tx1 ++ tx2 = tx at *
  rw [e1]
  constructor
  · intro n hn; exact h.dirty n (List.mem_filter.1 hn).1
  · exact h.nodup.sublist List.filter_sublist
  · exact h.len
  · intro q hq
    rcases List.mem_append.1 hq with hq | hq
    · exact h.wf q hq
    · exact ⟨_, e6 q hq⟩
  · intro q hq n hn
    rcases List.mem_append.1 hq with hq | hq
    · exact h.held q hq n hn
    · exact (hcc n ((hmem n).1 ⟨q, hq, hn⟩)).1
  · rw [List.map_append, e7]
    refine List.pairwise_append.2 ⟨h.ids, range_pairwise _ _, ?_⟩
    intro a ha b hb
    obtain ⟨q, hq, rfl⟩ := List.mem_map.1 ha
    have := h.below q hq
    rw [List.mem_range'_1] at hb
    omega
  · intro q hq
    show q.id < next'
    rw [e8]
    rcases List.mem_append.1 hq with hq | hq
    · have := h.below q hq; omega
    · have : q.id ∈ tx.map Sqe.id := List.mem_map.2 ⟨q, hq, rfl⟩
      rw [e7, List.mem_range'_1] at this
      omega
  · show 0 < next'
    have := h.pos
    omega
  · intro n c hn hd
    show e.dec n (readAt (overlay s.disk (s.sq ++ tx)) (e.addr n)) = c
    rw [overlay_append]
    by_cases hl : n ∈ collect e s ii f
    · rw [readAt_overlay_same he _ tx e6 _ n ((hmem n).2 hl), he.dec_enc]
      have hx : s.cache n = some c := hn
      simp [State.cur, hx]
    · rw [readAt_overlay_other he tx (fun q hq => ⟨_, e6 q hq⟩) _ _ fun q hq hm => hl ((hmem n).1 ⟨q, hq, hm⟩)]
      exact h.settled n c hn fun hh => hd (List.mem_filter.2 ⟨hh, by simpa using hl⟩)
  · intro n hn
    obtain ⟨a, b⟩ := h.inflight n hn
    refine ⟨List.mem_filter.2 ⟨a, ?_⟩, b⟩
    simp only [decide_eq_true_eq]
    intro hl
    -- objects with a write in progress are not collected
    have hz : s.async n = 0 ∨ e.cls n ≠ .data := by
      have hof : ∀ i, e.cls i = .inode → n ∈ ofInode s i → s.async n = 0 ∨ e.cls n ≠ .data := by
        intro i hc hh
        simp only [ofInode, mayFlush, List.mem_append, List.mem_filter, List.mem_singleton, decide_eq_true_eq] at hh
        rcases hh with hh | rfl
        · exact .inl hh.2
        · exact .inr (by rw [hc]; simp)
      have halt : n ∈ mayFlush s (dqVnis e s) ++ dqUnis e s → s.async n = 0 ∨ e.cls n ≠ .data := by
        intro hh
        simp only [mayFlush, dqUnis, List.mem_append, List.mem_filter, decide_eq_true_eq] at hh
        rcases hh with hh | hh
        · exact .inl hh.2
        · exact .inr (by rw [hh.2.1]; simp)
      have hany : n ∈ (dqIis e s).flatMap (ofInode s) ++ (mayFlush s (dqVnis e s) ++ dqUnis e s) →
          s.async n = 0 ∨ e.cls n ≠ .data := by
        intro hh
        rcases List.mem_append.1 hh with hh | hh
        · obtain ⟨i, h1, h2⟩ := List.mem_flatMap.1 hh
          simp only [dqIis, List.mem_filter, decide_eq_true_eq] at h1
          exact hof i h1.2.1 h2
        · exact halt hh
      cases ii with
      | none => exact hany hl
      | some i =>
        simp only [collect] at hl
        by_cases hf : f.now = true
        · rw [if_pos hf] at hl; exact hany hl
        · rw [if_neg hf] at hl
          rcases List.mem_append.1 hl with hl | hl
          · exact hof i (hi i rfl).2 hl
          · exact halt hl
    have hn' : 0 < s.async n := hn
    rcases hz with hz | hz
    · omega
    · exact hz b
  · exact h.owned

/-- Whatever happens, processing touches the dirty queue, the submission queue and the ids only. -/
theorem process_frame (e : Env) (s : State) (l : List Id) (ans : List Bool) :
    (process e s l ans).2.1.cache = s.cache ∧ (process e s l ans).2.1.disk = s.disk ∧
    (process e s l ans).2.1.owner = s.owner ∧ (process e s l ans).2.1.async = s.async ∧
    (∀ n ∈ (process e s l ans).2.1.dq, n ∈ s.dq) := by
  have hs : ∀ (s : State) l ans s' tx ans', processSlot e s l ans = some (s', tx, ans') →
      s'.cache = s.cache ∧ s'.disk = s.disk ∧ s'.owner = s.owner ∧ s'.async = s.async ∧ ∀ n ∈ s'.dq, n ∈ s.dq := by
    intro s l ans s' tx ans' h
    unfold processSlot at h
    cases h1 : insertAll e l .empty with
    | none => rw [h1] at h; cases h
    | some v =>
      rw [h1] at h
      simp only at h
      by_cases h0 : v.size = 0
      · rw [if_pos h0] at h
        cases h
        exact ⟨rfl, rfl, rfl, rfl, fun n hn => hn⟩
      · rw [if_neg h0] at h
        cases h2 : enqueue e s (preq v).length (preq v) s.next ans with
        | none => rw [h2] at h; cases h
        | some r =>
          rw [h2] at h
          cases h
          exact ⟨rfl, rfl, rfl, rfl, fun n hn => (List.mem_filter.1 hn).1⟩
  unfold process
  cases h0 : processSlot e s (inSlot e 0 l) ans with
  | none => exact ⟨rfl, rfl, rfl, rfl, fun n hn => hn⟩
  | some r0 =>
    obtain ⟨s0, tx0, ans0⟩ := r0
    simp only
    obtain ⟨a1, a2, a3, a4, a5⟩ := hs _ _ _ _ _ _ h0
    cases h1 : processSlot e s0 (inSlot e 1 l) ans0 with
    | none => exact ⟨a1, a2, a3, a4, a5⟩
    | some r1 =>
      obtain ⟨s1, tx1, ans1⟩ := r1
      simp only
      obtain ⟨b1, b2, b3, b4, b5⟩ := hs _ _ _ _ _ _ h1
      cases h2 : processSlot e s1 (inSlot e 2 l) ans1 with
      | none => exact ⟨b1.trans a1, b2.trans a2, b3.trans a3, b4.trans a4, fun n hn => a5 n (b5 n hn)⟩
      | some r2 =>
        obtain ⟨s2, tx2, ans2⟩ := r2
        simp only
        obtain ⟨c1, c2, c3, c4, c5⟩ := hs _ _ _ _ _ _ h2
        exact ⟨c1.trans (b1.trans a1), c2.trans (b2.trans a2), c3.trans (b3.trans a3), c4.trans (b4.trans a4),
          fun n hn => a5 n (b5 n (c5 n hn))⟩

/-- A flush that fails adds nothing to the submission queue. -/
theorem process_fail (e : Env) (s : State) (l : List Id) (ans : List Bool) (h : (process e s l ans).1 = true) :
    (process e s l ans).2.1.sq = s.sq ∧ s.next ≤ (process e s l ans).2.1.next := by
  have hfuel : ∀ (s : State) fuel l next ans tx next' ans', enqueue e s fuel l next ans = some (tx, next', ans') →
      next ≤ next' := by
    intro s fuel
    induction fuel with
    | zero =>
      intro l next ans tx next' ans' h
      cases l with
      | nil => cases h; exact Nat.le_refl _
      | cons => cases h
    | succ fuel ih =>
      intro l next ans tx next' ans' h
      cases l with
      | nil => cases h; exact Nat.le_refl _
      | cons n l =>
        simp only [enqueue] at h
        by_cases h1 : (ask ans).1 = true
        · rw [if_pos h1] at h; cases h
        rw [if_neg h1] at h
        cases hp : populate e (n :: l) ⟨next, ⟨⟨0, 0⟩, 0, 0⟩, .data, [], []⟩ (ask ans).2 with
        | none => rw [hp] at h; cases h
        | some r =>
          obtain ⟨q, rest, ans2⟩ := r
          rw [hp] at h
          simp only at h
          by_cases h2 : (ask ans2).1 = true
          · rw [if_pos h2] at h; cases h
          rw [if_neg h2] at h
          by_cases h3 : (ask (ask ans2).2).1 = true
          · rw [if_pos h3] at h; cases h
          rw [if_neg h3] at h
          cases hr : enqueue e s fuel rest (next + 1) (ask (ask ans2).2).2 with
          | none => rw [hr] at h; cases h
          | some r2 =>
            obtain ⟨tx2, next2, ans3⟩ := r2
            rw [hr] at h
            cases h
            have := ih _ _ _ _ _ _ hr
            omega
  have hs : ∀ (s : State) l ans s' tx ans', processSlot e s l ans = some (s', tx, ans') →
      s'.sq = s.sq ∧ s.next ≤ s'.next := by
    intro s l ans s' tx ans' h
    unfold processSlot at h
    cases h1 : insertAll e l .empty with
    | none => rw [h1] at h; cases h
    | some v =>
      rw [h1] at h
      simp only at h
      by_cases h0 : v.size = 0
      · rw [if_pos h0] at h
        cases h
        exact ⟨rfl, Nat.le_refl _⟩
      · rw [if_neg h0] at h
        cases h2 : enqueue e s (preq v).length (preq v) s.next ans with
        | none => rw [h2] at h; cases h
        | some r =>
          obtain ⟨tx2, next2, ans3⟩ := r
          rw [h2] at h
          cases h
          exact ⟨rfl, hfuel _ _ _ _ _ _ _ _ h2⟩
  unfold process at h ⊢
  cases h0 : processSlot e s (inSlot e 0 l) ans with
  | none => exact ⟨rfl, Nat.le_refl _⟩
  | some r0 =>
    obtain ⟨s0, tx0, ans0⟩ := r0
    rw [h0] at h
    simp only at h ⊢
    obtain ⟨a1, a2⟩ := hs _ _ _ _ _ _ h0
    cases h1 : processSlot e s0 (inSlot e 1 l) ans0 with
    | none => exact ⟨a1, a2⟩
    | some r1 =>
      obtain ⟨s1, tx1, ans1⟩ := r1
      rw [h1] at h
      simp only at h ⊢
      obtain ⟨b1, b2⟩ := hs _ _ _ _ _ _ h1
      cases h2 : processSlot e s1 (inSlot e 2 l) ans1 with
      | none => exact ⟨b1.trans a1, Nat.le_trans a2 b2⟩
      | some r2 =>
        obtain ⟨s2, tx2, ans2⟩ := r2
        rw [h2] at h
        cases h

theorem view_of_same {e : Env} {s s' : State} (h1 : s'.cache = s.cache) (h2 : s'.disk = s.disk) : view e s' = view e s := by
  funext n
  simp only [view, h1, h2]

theorem inv_process_fail {e : Env} {s : State} (h : Inv e s) (l : List Id) (ans : List Bool)
    (hp : (process e s l ans).1 = true) (hq : (process e s l ans).2.1.dq = s.dq) : Inv e (process e s l ans).2.1 := by
  obtain ⟨a1, a2, a3, a4, _⟩ := process_frame e s l ans
  obtain ⟨b1, b2⟩ := process_fail e s l ans hp
  have hc : ∀ n, (process e s l ans).2.1.cached n = s.cached n := fun n => by simp only [State.cached, a1]
  constructor
  · rw [hq]; intro n hn; rw [hc]; exact h.dirty n hn
  · rw [hq]; exact h.nodup
  · rw [a1]; exact h.len
  · rw [b1]; exact h.wf
  · rw [b1]; intro q hq n hn; rw [hc]; exact h.held q hq n hn
  · rw [b1]; exact h.ids
  · rw [b1]; intro q hq; exact Nat.lt_of_lt_of_le (h.below q hq) b2
  · exact Nat.lt_of_lt_of_le h.pos b2
  · rw [a1, a2, b1, hq]; exact h.settled
  · rw [a4, hq]; exact h.inflight
  · rw [a3]; exact h.owned

theorem flush_cases (e : Env) (s : State) (ii : Option Id) (f : Flags) (mem : Bool) (ans wans : List Bool) :
    (needFlush e s ii f mem = false ∧ flush e s ii f mem ans wans = (false, s, 0)) ∨
    (needFlush e s ii f mem = true ∧
      (((process e s (collect e s ii f) ans).1 = true ∧
          flush e s ii f mem ans wans = (true, (process e s (collect e s ii f) ans).2)) ∨
       ((process e s (collect e s ii f) ans).1 = false ∧ f.now = true ∧
          flush e s ii f mem ans wans = ((submitAll (process e s (collect e s ii f) ans).2.1 wans).1,
            (submitAll (process e s (collect e s ii f) ans).2.1 wans).2, (process e s (collect e s ii f) ans).2.2)) ∨
       ((process e s (collect e s ii f) ans).1 = false ∧ f.now = false ∧
          flush e s ii f mem ans wans = (false, (process e s (collect e s ii f) ans).2)))) := by
  unfold flush
  by_cases h : needFlush e s ii f mem = false
  · rw [if_pos h]; exact .inl ⟨h, rfl⟩
  · rw [if_neg h]
    refine .inr ⟨by simpa using h, ?_⟩
    rcases hp : process e s (collect e s ii f) ans with ⟨b, s', a⟩
    cases b with
    | true => exact .inl ⟨rfl, rfl⟩
    | false =>
      simp only
      by_cases hf : f.now = true
      · rw [if_pos hf]; exact .inr (.inl ⟨trivial, hf, rfl⟩)
      · rw [if_neg hf]; exact .inr (.inr ⟨trivial, by simpa using hf, rfl⟩)

/-- One step keeps the invariant and does to the contents what the specification says. -/
theorem step_ok {e : Env} (he : e.Ok) {s : State} (h : Inv e s) (o : Op) (hv : o.Valid e s) (hq : o.Quiet e s) :
    Inv e (step e s o) ∧ view e (step e s o) = specStep (view e s) o := by
  cases o with
  | modify n o c => exact ⟨inv_modify h n o c hv.1 hv.2, view_modify e s n o c⟩
  | update n i c ci =>
    have h1 := inv_modify h n (some i) c hv.1 (fun j hj => by cases hj; exact hv.2.2)
    exact ⟨inv_modify h1 i none ci hv.2.1 (fun j hj => nomatch hj), by
      show view e (modify (modify s n (some i) c) i none ci) = _
      rw [view_modify, view_modify]; rfl⟩
  | load n => exact ⟨inv_load he h n, view_load e s n⟩
  | evict n => exact ⟨inv_evict h n, view_evict he h n⟩
  | flush ii f mem ans wans =>
    obtain ⟨hw, hf⟩ := hq
    show Inv e (flush e s ii f mem ans wans).2.1 ∧ view e (flush e s ii f mem ans wans).2.1 = view e s
    have hfr := process_frame e s (collect e s ii f) ans
    have hpv : view e (process e s (collect e s ii f) ans).2.1 = view e s := view_of_same hfr.1 hfr.2.1
    rcases flush_cases e s ii f mem ans wans with ⟨_, hh⟩ | ⟨_, ⟨hp, hh⟩ | ⟨hp, hn, hh⟩ | ⟨hp, hn, hh⟩⟩
    · rw [hh]; exact ⟨h, rfl⟩
    · rw [hh]; exact ⟨inv_process_fail h _ _ hp (hf hp), hpv⟩
    · rw [hh]
      have hi := inv_process_ok he h ii f hv ans hp
      have hs := submitAll_written wans (applyAll_quiet (process e s (collect e s ii f) ans).2.1.sq _ _ hw)
      show Inv e (submitAll (process e s (collect e s ii f) ans).2.1 wans).2 ∧
        view e (submitAll (process e s (collect e s ii f) ans).2.1 wans).2 = _
      rw [hs]
      have hsq : (process e s (collect e s ii f) ans).2.1.sq = (process e s (collect e s ii f) ans).2.1.sq ++ [] := by simp
      exact ⟨inv_written hi _ _ hsq, (view_written he hi _ _ hsq).trans hpv⟩
    · rw [hh]; exact ⟨inv_process_ok he h ii f hv ans hp, hpv⟩
  | submit apex wans =>
    have hs : (submit s apex wans).1 = false := by
      unfold submit
      by_cases h0 : apex = 0
      · rw [if_pos h0]
      · rw [if_neg h0]; exact apply_quiet _ _ _ _ hq
    obtain ⟨a, b, e1, e2, _⟩ := submit_written apex wans hs
    show Inv e (submit s apex wans).2 ∧ view e (submit s apex wans).2 = view e s
    rw [e2]
    exact ⟨inv_written h a b e1, view_written he h a b e1⟩
  | submitAll wans =>
    have hs := submitAll_written wans (applyAll_quiet s.sq _ _ hq)
    show Inv e (submitAll s wans).2 ∧ view e (submitAll s wans).2 = view e s
    rw [hs]
    exact ⟨inv_written h s.sq [] (by simp), view_written he h s.sq [] (by simp)⟩
  | asyncBegin n i => exact ⟨inv_asyncBegin h n i hv.1 hv.2.1 hv.2.2, view_asyncBegin e s n i⟩
  | asyncEnd n c => exact ⟨inv_asyncEnd h n c hv.1 hv.2, view_asyncEnd e s n c⟩

theorem run_ok {e : Env} (he : e.Ok) (ops : List Op) {s : State} (h : Inv e s) (hr : Runs e s ops) :
    Inv e (run e s ops) ∧ view e (run e s ops) = ops.foldl specStep (view e s) := by
  induction ops generalizing s with
  | nil => exact ⟨h, rfl⟩
  | cons o os ih =>
    obtain ⟨a, b, c⟩ := hr
    obtain ⟨h1, h2⟩ := step_ok he h o a b
    obtain ⟨h3, h4⟩ := ih h1 c
    exact ⟨h3, by rw [run, h4, h2]; rfl⟩

/-! ### Theorems -/

/-- **C39** (in part).  From a mount on, flushing, submitting, evicting and reloading never change the content of any
object; only modifications do, and they change what they say.  Missing: histories in which a write fails, or a flush
fails after its first group of objects (`C39_flush_failure_violated`, `C39_write_failure_violated`). -/
theorem C39_cache_invisible_partial {e : Env} (he : e.Ok) (d : Disk) (ops : List Op) (hr : Runs e (init d) ops) :
    view e (run e (init d) ops) = ops.foldl specStep (view e (init d)) :=
  (run_ok he ops (inv_init e d) hr).2

/-- Dirty nodes and blocks of a file have their inode in the queue of dirty inodes. -/
def Coupled (s : State) : Prop := ∀ n ∈ s.dq, ∀ i, s.owner n = some i → i ∈ s.dq

/-- Then a flush of everything finds every dirty object. -/
theorem collect_all {e : Env} {s : State} (h : Inv e s) (hc : Coupled s) (ha : ∀ n, s.async n = 0) (f : Flags) (n : Id)
    (hn : n ∈ s.dq) (ii : Option Id) (hii : ii = none ∨ f.now = true) : n ∈ collect e s ii f := by
  have key : n ∈ (dqIis e s).flatMap (ofInode s) ++ (mayFlush s (dqVnis e s) ++ dqUnis e s) := by
    have hiis : ∀ i ∈ s.dq, e.cls i = .inode → i ∈ dqIis e s := by
      intro i hi hci
      simp only [dqIis, List.mem_filter, decide_eq_true_eq]
      exact ⟨hi, hci, owner_unowned h (.inl hci)⟩
    cases ho : s.owner n with
    | some i =>
      refine List.mem_append.2 (.inl (List.mem_flatMap.2 ⟨i, hiis i (hc n hn i ho) (h.owned n i ho).2, ?_⟩))
      simp only [ofInode, mayFlush, dqOf, List.mem_append, List.mem_filter, List.mem_singleton, decide_eq_true_eq]
      exact .inl ⟨⟨hn, ho⟩, ha n⟩
    | none =>
      cases hcl : e.cls n with
      | inode =>
        refine List.mem_append.2 (.inl (List.mem_flatMap.2 ⟨n, hiis n hn hcl, ?_⟩))
        simp [ofInode]
      | unode =>
        refine List.mem_append.2 (.inr (List.mem_append.2 (.inr ?_)))
        simp only [dqUnis, List.mem_filter, decide_eq_true_eq]
        exact ⟨hn, hcl, ho⟩
      | data =>
        refine List.mem_append.2 (.inr (List.mem_append.2 (.inl ?_)))
        simp only [mayFlush, dqVnis, List.mem_filter, decide_eq_true_eq]
        exact ⟨⟨hn, .inl hcl, ho⟩, ha n⟩
      | vnode =>
        refine List.mem_append.2 (.inr (List.mem_append.2 (.inl ?_)))
        simp only [mayFlush, dqVnis, List.mem_filter, decide_eq_true_eq]
        exact ⟨⟨hn, .inr hcl, ho⟩, ha n⟩
  cases ii with
  | none => exact key
  | some i =>
    rcases hii with hii | hii
    · cases hii
    · simp only [collect]
      rw [if_pos hii]
      exact key

/-- What is clean and has nothing queued is durable. -/
theorem durable_of_clean {e : Env} {s : State} (h : Inv e s) (hs : s.sq = []) (n : Id) (hn : n ∉ s.dq) : Durable e s n := by
  unfold Durable view crash
  simp only
  cases hx : s.cache n with
  | none => rfl
  | some c =>
    have := h.settled n c hx hn
    rw [hs] at this
    exact this

/-- **C39** (in part).  If no asynchronous write is in progress and dirty parts of files have a dirty inode, then after a
syncfs that reports success every object survives a crash with the content it had when syncfs was called. -/
theorem C39_syncfs_partial {e : Env} (he : e.Ok) {s : State} (h : Inv e s) (hc : Coupled s) (ha : ∀ n, s.async n = 0)
    (ans wans : List Bool) (hok : (syncfs e s ans wans).1 = false) :
    view e (crash (syncfs e s ans wans).2) = view e s ∧ (syncfs e s ans wans).2.dq = [] ∧
    (syncfs e s ans wans).2.sq = [] := by
  have hfr := process_frame e s (collect e s none { now := true }) ans
  unfold syncfs at hok ⊢
  rcases flush_cases e s none { now := true } false ans wans with ⟨hh, _⟩ | ⟨_, ⟨hp, hh⟩ | ⟨hp, hn, hh⟩ | ⟨hp, hn, hh⟩⟩
  · simp [needFlush] at hh
  · rw [hh] at hok; cases hok
  · rw [hh] at hok ⊢
    simp only at hok ⊢
    have hi := inv_process_ok he h none { now := true } (fun i hi => nomatch hi) ans hp
    have hdq : (process e s (collect e s none { now := true }) ans).2.1.dq = [] := by
      obtain ⟨tx0, tx1, tx2, next', e1, _⟩ := process_ok he (collect e s none { now := true }) ans
        (collect_nodup h none _ fun i hi => nomatch hi)
        (fun n hn => (collect_cached h none _ (fun i hi => nomatch hi) n hn).2.1) hp
      rw [e1]
      apply List.filter_eq_nil_iff.2
      intro n hn
      simp [collect_all h hc ha { now := true } n hn none (.inl rfl)]
    have hs := submitAll_written wans hok
    have hw := inv_written hi (process e s (collect e s none { now := true }) ans).2.1.sq [] (by simp)
    have hv := view_written he hi (process e s (collect e s none { now := true }) ans).2.1.sq [] (by simp)
    rw [hs]
    refine ⟨?_, hdq, rfl⟩
    funext n
    have := durable_of_clean hw rfl n (by show n ∉ (process e s _ ans).2.1.dq; rw [hdq]; simp)
    unfold Durable at this
    rw [this, hv]
    exact congrFun (view_of_same hfr.1 hfr.2.1) n
  · cases hn

/-- Whole operations: whoever changes a part of a file changes its inode too, and nothing is copied later. -/
def Op.Whole (e : Env) : Op → Prop
  | .modify n o _ => o = none ∧ (e.cls n = .inode ∨ e.cls n = .unode)
  | .asyncBegin .. => False
  | .asyncEnd .. => False
  | _ => True

theorem coupled_dirtify {s : State} (h : Coupled s) (n : Id) (hn : ∀ i, s.owner n = some i → i ∈ s.dq) :
    Coupled (dirtify s n none) := by
  intro m hm i hi
  rw [mem_dirtify] at hm ⊢
  have ho : s.owner m = some i := by
    rcases dirtify_owner _ _ _ _ _ hi with hi | ⟨_, hi⟩
    · exact hi
    · cases hi
  rcases hm with hm | rfl
  · exact .inl (h m hm i ho)
  · exact .inl (hn i ho)

theorem async_process (e : Env) (s : State) (l : List Id) (ans : List Bool) : (process e s l ans).2.1.async = s.async :=
  (process_frame e s l ans).2.2.2.1

/-- A successful flush takes an inode out of the queue only together with all its parts. -/
theorem coupled_process {e : Env} (he : e.Ok) {s : State} (h : Inv e s) (hc : Coupled s) (ha : ∀ n, s.async n = 0)
    (ii : Option Id) (f : Flags) (hi : ∀ i, ii = some i → s.cached i = true ∧ e.cls i = .inode) (ans : List Bool)
    (hp : (process e s (collect e s ii f) ans).1 = false) : Coupled (process e s (collect e s ii f) ans).2.1 := by
  obtain ⟨tx0, tx1, tx2, next', e1, _⟩ := process_ok he (collect e s ii f) ans
    (collect_nodup h ii f fun i hh => (hi i hh).2) (fun n hn => (collect_cached h ii f hi n hn).2.1) hp
  rw [e1]
  intro n hn i ho
  obtain ⟨h1, h2⟩ := List.mem_filter.1 hn
  simp only [decide_eq_true_eq] at h2
  refine List.mem_filter.2 ⟨hc n h1 i ho, ?_⟩
  simp only [decide_eq_true_eq]
  intro hic
  apply h2
  by_cases hall : ii = none ∨ f.now = true
  · exact collect_all h hc ha f n h1 ii hall
  · cases ii with
    | none => exact absurd (.inl rfl) hall
    | some j =>
      have hf : ¬ f.now = true := fun hh => hall (.inr hh)
      simp only [collect] at hic ⊢
      rw [if_neg hf] at hic ⊢
      have hci := (h.owned n i ho).2
      have hij : i = j := by
        simp only [ofInode, mayFlush, dqOf, dqVnis, dqUnis, List.mem_append, List.mem_filter, List.mem_singleton,
          decide_eq_true_eq] at hic
        rcases hic with (hic | hic) | hic | hic
        · rw [owner_unowned h (.inl hci)] at hic
          cases hic.1.2
        · exact hic
        · rcases hic.1.2.1 with hx | hx <;> rw [hci] at hx <;> cases hx
        · rw [hci] at hic; cases hic.2.1
      subst hij
      have ho' : s.owner n = some i := ho
      simp only [ofInode, mayFlush, dqOf, List.mem_append, List.mem_filter, List.mem_singleton, decide_eq_true_eq]
      exact .inl (.inl ⟨⟨h1, ho'⟩, ha n⟩)

theorem coupled_step {e : Env} (he : e.Ok) {s : State} (h : Inv e s) (hc : Coupled s) (ha : ∀ n, s.async n = 0) (o : Op)
    (hv : o.Valid e s) (hq : o.Quiet e s) (hw : o.Whole e) :
    Coupled (step e s o) ∧ ∀ n, (step e s o).async n = 0 := by
  have hmod : ∀ (s : State) n c, Coupled s → (∀ i, s.owner n = some i → i ∈ s.dq) → Coupled (modify s n none c) :=
    fun s n c hc hn => coupled_dirtify (s := { s with cache := upd s.cache n (some c) }) hc n hn
  cases o with
  | modify n o c =>
    obtain ⟨ho, hcl⟩ := hw
    subst ho
    refine ⟨hmod s n c hc fun i hi => ?_, fun m => ?_⟩
    · rw [owner_unowned h hcl] at hi; cases hi
    · show (dirtify { s with cache := upd s.cache n (some c) } n none).async m = 0
      rw [(dirtify_same _ n none).2.2.2.2]; exact ha m
  | update n i c ci =>
    obtain ⟨v1, v2, v3, v4⟩ := hv
    have h1 := inv_modify h n (some i) c v1 (fun j hj => by cases hj; exact ⟨v3, v4⟩)
    refine ⟨?_, fun m => ?_⟩
    · intro m hm j hj
      have hm' : m ∈ (modify s n (some i) c).dq ∨ m = i := (mem_dirtify { (modify s n (some i) c) with cache := upd (modify s n (some i) c).cache i (some ci) } i none m).1 hm
      refine (mem_dirtify { (modify s n (some i) c) with cache := upd (modify s n (some i) c).cache i (some ci) } i none j).2 ?_
      have hj' : (modify s n (some i) c).owner m = some j := by
        rcases dirtify_owner _ _ _ _ _ hj with hj | ⟨_, hj⟩
        · exact hj
        · cases hj
      rcases hm' with hm' | rfl
      · rcases (mem_dirtify _ n (some i) m).1 hm' with hx | rfl
        · by_cases hmn : m = n
          · subst hmn
            rcases dirtify_owner _ _ _ _ _ hj' with hy | ⟨_, hy⟩
            · exact .inl ((mem_dirtify _ m (some i) j).2 (.inl (hc m hx j hy)))
            · cases hy; exact .inr rfl
          · rcases dirtify_owner _ _ _ _ _ hj' with hy | ⟨hy, _⟩
            · exact .inl ((mem_dirtify _ n (some i) j).2 (.inl (hc m hx j hy)))
            · exact absurd hy hmn
        · by_cases hmd : m ∈ s.dq
          · rcases dirtify_owner _ _ _ _ _ hj' with hy | ⟨_, hy⟩
            · exact .inl ((mem_dirtify _ m (some i) j).2 (.inl (hc m hmd j hy)))
            · cases hy; exact .inr rfl
          · right
            have : (modify s m (some i) c).owner m = some i := by
              simp only [modify, dirtify]
              rw [if_neg hmd]
              simp [upd]
            rw [this] at hj'
            cases hj'; rfl
      · rw [owner_unowned h1 (.inl v4)] at hj'; cases hj'
    · show (dirtify { (modify s n (some i) c) with cache := _ } i none).async m = 0
      rw [(dirtify_same _ i none).2.2.2.2]
      show (dirtify { s with cache := upd s.cache n (some c) } n (some i)).async m = 0
      rw [(dirtify_same _ n (some i)).2.2.2.2]; exact ha m
  | load n =>
    show Coupled (load e s n) ∧ ∀ m, (load e s n).async m = 0
    unfold load
    by_cases hh : s.cached n = true
    · rw [if_pos hh]; exact ⟨hc, ha⟩
    · rw [if_neg hh]; exact ⟨hc, ha⟩
  | evict n =>
    show Coupled (evict s n) ∧ ∀ m, (evict s n).async m = 0
    unfold evict
    by_cases hh : evictable s n = true
    · rw [if_pos hh]; exact ⟨hc, ha⟩
    · rw [if_neg hh]; exact ⟨hc, ha⟩
  | flush ii f mem ans wans =>
    show Coupled (flush e s ii f mem ans wans).2.1 ∧ ∀ n, (flush e s ii f mem ans wans).2.1.async n = 0
    have hfr := process_frame e s (collect e s ii f) ans
    have hpa : ∀ n, (process e s (collect e s ii f) ans).2.1.async n = 0 := by rw [async_process]; exact ha
    rcases flush_cases e s ii f mem ans wans with ⟨_, hh⟩ | ⟨_, ⟨hp, hh⟩ | ⟨hp, hn, hh⟩ | ⟨hp, hn, hh⟩⟩
    · rw [hh]; exact ⟨hc, ha⟩
    · rw [hh]
      refine ⟨?_, hpa⟩
      unfold Coupled
      rw [hq.2 hp, hfr.2.2.1]
      exact hc
    · rw [hh]
      exact ⟨coupled_process he h hc ha ii f hv ans hp, hpa⟩
    · rw [hh]; exact ⟨coupled_process he h hc ha ii f hv ans hp, hpa⟩
  | submit apex wans =>
    show Coupled (submit s apex wans).2 ∧ ∀ m, (submit s apex wans).2.async m = 0
    unfold submit
    by_cases hh : apex = 0
    · rw [if_pos hh]; exact ⟨hc, ha⟩
    · rw [if_neg hh]; exact ⟨hc, ha⟩
  | submitAll wans => exact ⟨hc, ha⟩
  | asyncBegin n i => exact hw.elim
  | asyncEnd n c => exact hw.elim

end Silofs.Flush
