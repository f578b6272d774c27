import Verif.Props.Flush
/-
C39: what sync and fsync guarantee, the order of writes, and the cases in which the guarantee does not hold.
-/
set_option linter.unusedSimpArgs false
set_option linter.unusedVariables false
namespace Silofs.Flush
open Silofs.Avl

theorem coupled_run {e : Env} (he : e.Ok) (ops : List Op) {s : State} (h : Inv e s) (hc : Coupled s)
    (ha : ∀ n, s.async n = 0) (hr : Runs e s ops) (hw : ∀ o ∈ ops, o.Whole e) :
    Coupled (run e s ops) ∧ ∀ n, (run e s ops).async n = 0 := by
  induction ops generalizing s with
  | nil => exact ⟨hc, ha⟩
  | cons o os ih =>
    obtain ⟨a, b, c⟩ := hr
    obtain ⟨h1, _⟩ := step_ok he h o a b
    obtain ⟨h2, h3⟩ := coupled_step he h hc ha o a b (hw o (by simp))
    exact ih h1 h2 h3 c fun x hx => hw x (by simp [hx])

/-- **C39** (in part).  After any history from a mount on in which no call fails half way and nothing is copied outside of
the lock, a sync of the file-system that reports success leaves on storage exactly the contents that the operations of
the history have produced: for every object, a mount after a crash finds them. -/
theorem C39_sync_partial {e : Env} (he : e.Ok) (d : Disk) (ops : List Op) (hr : Runs e (init d) ops)
    (hw : ∀ o ∈ ops, o.Whole e) (ans wans : List Bool) (hok : (syncfs e (run e (init d) ops) ans wans).1 = false) :
    view e (crash (syncfs e (run e (init d) ops) ans wans).2) = ops.foldl specStep (view e (init d)) := by
  obtain ⟨h1, h2⟩ := run_ok he ops (inv_init e d) hr
  obtain ⟨h3, h4⟩ := coupled_run he ops (inv_init e d) (by intro n hn; cases hn) (fun _ => rfl) hr hw
  rw [(C39_syncfs_partial he h1 h3 h4 ans wans hok).1, h2]

/-! ### A flush succeeds when nothing fails -/

theorem process_total (e : Env) (s : State) (l : List Id) (hn : l.Nodup) : (process e s l []).1 = false := by
  unfold process
  obtain ⟨s0, tx0, h0⟩ := processSlot_total e s (inSlot e 0 l) (hn.sublist List.filter_sublist)
  rw [h0]
  simp only
  obtain ⟨s1, tx1, h1⟩ := processSlot_total e s0 (inSlot e 1 l) (hn.sublist List.filter_sublist)
  rw [h1]
  simp only
  obtain ⟨s2, tx2, h2⟩ := processSlot_total e s1 (inSlot e 2 l) (hn.sublist List.filter_sublist)
  rw [h2]

theorem flush_total {e : Env} {s : State} (h : Inv e s) (ii : Option Id) (f : Flags) (mem : Bool)
    (hi : ∀ i, ii = some i → e.cls i = .inode) : (flush e s ii f mem [] []).1 = false := by
  have hp := process_total e s (collect e s ii f) (collect_nodup h ii f hi)
  rcases flush_cases e s ii f mem [] [] with ⟨_, hh⟩ | ⟨_, ⟨hq, hh⟩ | ⟨_, hn, hh⟩ | ⟨_, hn, hh⟩⟩
  · rw [hh]
  · rw [hp] at hq; cases hq
  · rw [hh]; exact applyAll_quiet _ _ _ (by simp)
  · rw [hh]

/-- **C39**.  In every state that can be reached, sync succeeds when no call that it makes fails, and so does fsync. -/
theorem C39_sync_succeeds {e : Env} (he : e.Ok) (d : Disk) (ops : List Op) (hr : Runs e (init d) ops) :
    (syncfs e (run e (init d) ops) [] []).1 = false ∧
    ∀ i mem, e.cls i = .inode → (fsync e (run e (init d) ops) i mem [] []).1 = false := by
  obtain ⟨h, _⟩ := run_ok he ops (inv_init e d) hr
  refine ⟨flush_total h none { now := true } false (fun i hi => nomatch hi), fun i mem hi => ?_⟩
  unfold fsync fsyncReply flushOf
  by_cases hg : i ∈ (run e (init d) ops).dq ∨ accum e (dqOf (run e (init d) ops) i) ≠ 0
  · rw [if_pos hg]
    exact flush_total h (some i) { fsync := true } mem (fun j hj => by cases hj; exact hi)
  · rw [if_neg hg]

/-! ### fsync -/

theorem le_foldl_max (l : List Nat) (a : Nat) : a ≤ l.foldl max a ∧ ∀ x ∈ l, x ≤ l.foldl max a := by
  induction l generalizing a with
  | nil => exact ⟨Nat.le_refl _, by simp⟩
  | cons b l ih =>
    obtain ⟨h1, h2⟩ := ih (max a b)
    refine ⟨Nat.le_trans (Nat.le_max_left a b) h1, fun x hx => ?_⟩
    rcases List.mem_cons.1 hx with rfl | hx
    · exact Nat.le_trans (Nat.le_max_right a x) h1
    · exact h2 x hx

/-- A successful flush without NOW, followed by its submission, leaves nothing in the queue. -/
theorem submit_all_of_flush {e : Env} (he : e.Ok) {s : State} (h : Inv e s) (ii : Option Id) (f : Flags)
    (hi : ∀ i, ii = some i → s.cached i = true ∧ e.cls i = .inode) (ans wans : List Bool)
    (hp : (process e s (collect e s ii f) ans).1 = false) (hne : collect e s ii f ≠ [])
    (hw : (submit (process e s (collect e s ii f) ans).2.1 (process e s (collect e s ii f) ans).2.2 wans).1 = false) :
    ∃ d, (submit (process e s (collect e s ii f) ans).2.1 (process e s (collect e s ii f) ans).2.2 wans).2 =
        { (process e s (collect e s ii f) ans).2.1 with disk := d, sq := [] } ∧
      Inv e { (process e s (collect e s ii f) ans).2.1 with disk := d, sq := [] } ∧
      view e { (process e s (collect e s ii f) ans).2.1 with disk := d, sq := [] } = view e s := by
  have hI := inv_process_ok he h ii f hi ans hp
  have hfr := process_frame e s (collect e s ii f) ans
  obtain ⟨tx0, tx1, tx2, next', e1, e2, e3, e4, e5, e6, e7, e8⟩ := process_ok he (collect e s ii f) ans
    (collect_nodup h ii f fun i hh => (hi i hh).2) (fun n hn => (collect_cached h ii f hi n hn).2.1) hp
  obtain ⟨n, hn⟩ := List.exists_mem_of_ne_nil _ hne
  obtain ⟨q, hq, _⟩ := (mem_tx e3 e4 e5 n).2 hn
  obtain ⟨a, b, g1, g2, g3⟩ := submit_written _ wans hw
  have hge : ∀ x ∈ tx0 ++ tx1 ++ tx2, x.id ≤ (process e s (collect e s ii f) ans).2.2 := by
    intro x hx
    rw [e2]
    exact (le_foldl_max _ 0).2 _ (List.mem_map.2 ⟨x, hx, rfl⟩)
  have hge2 : ∀ x ∈ tx0 ++ tx1 ++ tx2, s.next ≤ x.id := by
    intro x hx
    have : x.id ∈ (tx0 ++ tx1 ++ tx2).map Sqe.id := List.mem_map.2 ⟨x, hx, rfl⟩
    rw [e7, List.mem_range'_1] at this
    exact this.1
  have hpos := h.pos
  have hb : b = [] := by
    cases b with
    | nil => rfl
    | cons x b =>
      exfalso
      have h1 := g3 (by have := hge q hq; have := hge2 q hq; omega) x rfl
      have hx : x ∈ s.sq ++ (tx0 ++ tx1 ++ tx2) := by
        have : x ∈ (process e s (collect e s ii f) ans).2.1.sq := by rw [g1]; simp
        rw [e1] at this
        exact this
      rcases List.mem_append.1 hx with hx | hx
      · have := h.below x hx
        have := hge q hq
        have := hge2 q hq
        omega
      · have := hge x hx
        omega
  subst hb
  exact ⟨_, g2, inv_written hI a [] g1, (view_written he hI a [] g1).trans (view_of_same hfr.1 hfr.2.1)⟩

/-- **C39** (in part).  If the file has a dirty block or node (or memory is short), the fsync reports success, and the
writes submitted after its answer succeed, then the inode and all blocks and nodes of the file without a copy in progress
survive a crash, and so does every object that was clean.  Missing: files of which only the inode is dirty
(`C39_fsync_inode_violated`), and the time between the answer and the writes (`C39_fsync_reply_violated`). -/
theorem C39_fsync_partial {e : Env} (he : e.Ok) {s : State} (h : Inv e s) (i : Id) (hc : s.cached i = true)
    (hi : e.cls i = .inode) (mem : Bool) (ans wans : List Bool)
    (hgate : accum e (dqOf s i) > 0 ∨ (mem = true ∧ i ∈ s.dq)) (hok : (fsync e s i mem ans wans).1 = false)
    (hw : (submit (fsyncReply e s i mem ans).2.1 (fsyncReply e s i mem ans).2.2 wans).1 = false) (n : Id)
    (hn : n = i ∨ (s.owner n = some i ∧ s.async n = 0) ∨ n ∉ s.dq) :
    view e (crash (fsync e s i mem ans wans).2) n = view e s n := by
  have hreply : fsyncReply e s i mem ans = flush e s (some i) { fsync := true } mem ans [] := by
    unfold fsyncReply flushOf
    rw [if_pos]
    rcases hgate with hg | hg
    · right; omega
    · exact .inl hg.2
  have hneed : needFlush e s (some i) { fsync := true } mem = true := by
    rcases hgate with hg | hg
    · simp only [needFlush, threshold]
      cases mem <;> simp [hg]
    · simp [needFlush, hg.1]
  unfold fsync at hok ⊢
  rw [hreply] at hok hw ⊢
  simp only at hok hw ⊢
  rcases flush_cases e s (some i) { fsync := true } mem ans [] with ⟨hh, _⟩ | ⟨_, ⟨hp, hh⟩ | ⟨hp, hx, hh⟩ | ⟨hp, hx, hh⟩⟩
  · rw [hneed] at hh; cases hh
  · rw [hh] at hok; cases hok
  · cases hx
  · rw [hh] at hw ⊢
    simp only at hw ⊢
    have hi' : ∀ j, some i = some j → s.cached j = true ∧ e.cls j = .inode := fun j hj => by cases hj; exact ⟨hc, hi⟩
    have him : i ∈ collect e s (some i) { fsync := true } := by simp [collect, ofInode]
    obtain ⟨d, g1, g2, g3⟩ := submit_all_of_flush he h (some i) { fsync := true } hi' ans wans hp
      (List.ne_nil_of_mem him) hw
    rw [g1]
    have hcl : n ∉ (process e s (collect e s (some i) { fsync := true }) ans).2.1.dq := by
      obtain ⟨tx0, tx1, tx2, next', e1, _⟩ := process_ok he (collect e s (some i) { fsync := true }) ans
        (collect_nodup h (some i) _ fun j hj => (hi' j hj).2)
        (fun n hn => (collect_cached h (some i) _ hi' n hn).2.1) hp
      rw [e1]
      intro hm
      obtain ⟨m1, m2⟩ := List.mem_filter.1 hm
      simp only [decide_eq_true_eq] at m2
      rcases hn with rfl | ⟨ho, ha⟩ | hn
      · exact m2 him
      · apply m2
        simp only [collect]
        rw [if_neg (by decide)]
        simp only [ofInode, mayFlush, dqOf, List.mem_append, List.mem_filter, List.mem_singleton, decide_eq_true_eq]
        exact .inl (.inl ⟨⟨m1, ho⟩, ha⟩)
      · exact hn m1
    have := durable_of_clean g2 rfl n hcl
    unfold Durable at this
    rw [this, g3]

/-- **C39**.  A dirty block or node of the file opens the gate of `C39_fsync_partial`. -/
theorem C39_fsync_gate {e : Env} {s : State} (i n : Id) (hd : n ∈ s.dq) (ho : s.owner n = some i)
    (hl : 0 < (e.addr n).len) : accum e (dqOf s i) > 0 := by
  have hm : n ∈ dqOf s i := by simp [dqOf, hd, ho]
  unfold accum
  generalize dqOf s i = l at hm
  induction l with
  | nil => cases hm
  | cons a l ih =>
    simp only [List.map_cons, List.sum_cons]
    rcases List.mem_cons.1 hm with rfl | hm
    · omega
    · have := ih hm; omega

/-! ### Copies in progress -/

/-- Copies into block `n` that were begun and not yet finished -/
def copies (n : Id) : Nat → List Op → Nat
  | k, [] => k
  | k, .asyncBegin m _ :: os => copies n (if m = n then k + 1 else k) os
  | k, .asyncEnd m _ :: os => copies n (if m = n then k - 1 else k) os
  | k, _ :: os => copies n k os

/-- **C39**.  A block counts as being written exactly as long as there are copies into it that have not ended: neither a
flush nor the end of another copy makes it look settled. -/
theorem C39_copies (e : Env) (n : Id) : ∀ (ops : List Op) (s : State),
    (run e s ops).async n = copies n (s.async n) ops
  | [], _ => rfl
  | o :: os, s => by
    show (run e (step e s o) os).async n = _
    rw [C39_copies e n os]
    cases o with
    | modify m o c =>
      show copies n ((dirtify { s with cache := upd s.cache m (some c) } m o).async n) os = _
      rw [(dirtify_same _ m o).2.2.2.2]; rfl
    | update m i c ci =>
      show copies n ((dirtify { (modify s m (some i) c) with cache := _ } i none).async n) os = _
      rw [(dirtify_same _ i none).2.2.2.2]
      show copies n ((dirtify { s with cache := upd s.cache m (some c) } m (some i)).async n) os = _
      rw [(dirtify_same _ m (some i)).2.2.2.2]; rfl
    | load m =>
      show copies n ((load e s m).async n) os = _
      unfold load
      by_cases hh : s.cached m = true
      · rw [if_pos hh]; rfl
      · rw [if_neg hh]; rfl
    | evict m =>
      show copies n ((evict s m).async n) os = _
      unfold evict
      by_cases hh : evictable s m = true
      · rw [if_pos hh]; rfl
      · rw [if_neg hh]; rfl
    | flush ii f mem ans wans =>
      show copies n ((flush e s ii f mem ans wans).2.1.async n) os = copies n (s.async n) os
      have hpa := async_process e s (collect e s ii f) ans
      rcases flush_cases e s ii f mem ans wans with ⟨_, hh⟩ | ⟨_, ⟨hp, hh⟩ | ⟨hp, hn, hh⟩ | ⟨hp, hn, hh⟩⟩ <;> rw [hh]
      · rw [hpa]
      · show copies n ((process e s (collect e s ii f) ans).2.1.async n) os = _
        rw [hpa]
      · rw [hpa]
    | submit apex wans =>
      show copies n ((submit s apex wans).2.async n) os = copies n (s.async n) os
      unfold submit
      by_cases hh : apex = 0
      · rw [if_pos hh]
      · rw [if_neg hh]
    | submitAll wans => rfl
    | asyncBegin m i =>
      show copies n (upd s.async m (s.async m + 1) n) os = _
      unfold upd
      by_cases hh : n = m
      · subst hh; simp [copies]
      · simp [copies, hh, Ne.symm hh]
    | asyncEnd m c =>
      show copies n (upd s.async m (s.async m - 1) n) os = _
      unfold upd
      by_cases hh : n = m
      · subst hh; simp [copies]
      · simp [copies, hh, Ne.symm hh]

/-- Of two copies one has ended. -/
example : copies 1 0 [.asyncBegin 1 0, .asyncBegin 1 0, .submitAll [], .asyncEnd 1 [7]] = 1 := rfl

/-! ### Order of writes -/

/-- The order that data, nodes with inodes, and space maps have to be written in -/
def rank : Cls → Nat
  | .data => 0
  | .vnode => 1
  | .inode => 1
  | .unode => 2

/-- **C39**.  Data is written before the nodes and inodes of the same flush, and those before the space maps: when the write
of an entry with object `m` begins, storage holds the new content of every object of the flush in an earlier group. -/
theorem C39_order {e : Env} (he : e.Ok) {s : State} (h : Inv e s) (ii : Option Id) (f : Flags)
    (hi : ∀ i, ii = some i → s.cached i = true ∧ e.cls i = .inode) (ans : List Bool)
    (hp : (process e s (collect e s ii f) ans).1 = false) (a b : List Sqe) (q : Sqe)
    (hq : (process e s (collect e s ii f) ans).2.1.sq = a ++ q :: b) (hnew : s.next ≤ q.id) (m n : Id) (hm : m ∈ q.refs)
    (hn : n ∈ collect e s ii f) (hlt : rank (e.cls n) < rank (e.cls m)) :
    e.dec n (readAt (overlay s.disk a) (e.addr n)) = view e s n := by
  replace hlt : slotOf (e.cls n) < slotOf (e.cls m) := by
    have hr : ∀ c, rank c = slotOf c := by intro c; cases c <;> rfl
    rwa [hr, hr] at hlt
  obtain ⟨tx0, tx1, tx2, next', e1, e2, e3, e4, e5, e6, e7, e8⟩ := process_ok he (collect e s ii f) ans
    (collect_nodup h ii f fun i hh => (hi i hh).2) (fun n hn => (collect_cached h ii f hi n hn).2.1) hp
  rw [e1] at hq
  simp only at hq
  obtain ⟨a', ha, htx⟩ : ∃ a', a = s.sq ++ a' ∧ tx0 ++ tx1 ++ tx2 = a' ++ q :: b := by
    rcases List.append_eq_append_iff.1 hq with ⟨a', h1, h2⟩ | ⟨c, h1, h2⟩
    · exact ⟨a', h1, h2⟩
    · cases c with
      | nil => exact ⟨[], by simpa using h1.symm, by simpa using h2.symm⟩
      | cons x c =>
        simp only [List.cons_append, List.cons.injEq] at h2
        obtain ⟨rfl, _⟩ := h2
        have := h.below q (by rw [h1]; simp)
        omega
  have hslot : ∀ (tx : List Sqe) k, (tx.flatMap Sqe.refs).Perm (inSlot e k (collect e s ii f)) →
      ∀ x ∈ tx, ∀ u ∈ x.refs, slotOf (e.cls u) = k := by
    intro tx k hperm x hx u hu
    have : u ∈ tx.flatMap Sqe.refs := List.mem_flatMap.2 ⟨x, hx, hu⟩
    rw [hperm.mem_iff] at this
    simpa [inSlot] using (List.mem_filter.1 this).2
  have k0 := hslot tx0 0 e3
  have k1 := hslot tx1 1 e4
  have k2 := hslot tx2 2 e5
  have hpw : (tx0 ++ tx1 ++ tx2).Pairwise fun x y => ∀ u ∈ x.refs, ∀ v ∈ y.refs, slotOf (e.cls u) ≤ slotOf (e.cls v) := by
    have hg : ∀ (tx : List Sqe) k, (∀ x ∈ tx, ∀ u ∈ x.refs, slotOf (e.cls u) = k) →
        tx.Pairwise fun x y => ∀ u ∈ x.refs, ∀ v ∈ y.refs, slotOf (e.cls u) ≤ slotOf (e.cls v) := by
      intro tx k hk
      refine List.pairwise_iff_forall_sublist.2 ?_
      intro x y hs u hu v hv
      rw [hk x (hs.subset (by simp)) u hu, hk y (hs.subset (by simp)) v hv]
      exact Nat.le_refl _
    refine List.pairwise_append.2 ⟨List.pairwise_append.2 ⟨hg _ 0 k0, hg _ 1 k1, ?_⟩, hg _ 2 k2, ?_⟩
    · intro x hx y hy u hu v hv
      rw [k0 x hx u hu, k1 y hy v hv]; omega
    · intro x hx y hy u hu v hv
      rw [k2 y hy v hv]
      rcases List.mem_append.1 hx with hx | hx
      · rw [k0 x hx u hu]; omega
      · rw [k1 x hx u hu]; omega
  obtain ⟨x, hx, hxn⟩ := (mem_tx e3 e4 e5 n).2 hn
  have hsame : ∀ u ∈ q.refs, ∀ v ∈ q.refs, slotOf (e.cls u) = slotOf (e.cls v) := by
    have hqm : q ∈ tx0 ++ tx1 ++ tx2 := by rw [htx]; simp
    intro u hu v hv
    rcases List.mem_append.1 hqm with hqm | hqm
    · rcases List.mem_append.1 hqm with hqm | hqm
      · rw [k0 q hqm u hu, k0 q hqm v hv]
      · rw [k1 q hqm u hu, k1 q hqm v hv]
    · rw [k2 q hqm u hu, k2 q hqm v hv]
  have hxa : x ∈ a' := by
    rw [htx] at hx hpw
    rcases List.mem_append.1 hx with hx | hx
    · exact hx
    · exfalso
      rcases List.mem_cons.1 hx with rfl | hx
      · have := hsame n hxn m hm; omega
      · have := (List.pairwise_cons.1 (List.pairwise_append.1 hpw).2.1).1 x hx m hm n hxn
        omega
  rw [ha, overlay_append, readAt_overlay_same he (fun n => e.enc n (s.cur n)) a'
    (fun y hy => e6 y (by rw [htx]; simp [hy])) _ n ⟨x, hxa, hxn⟩, he.dec_enc]
  have := (collect_cached h ii f hi n hn).2.2
  simp only [view, this]

/-! ### Cases in which the guarantee does not hold -/

/-- An example: object 0 is an inode, 1 a block of data, 3 a space map, the others are nodes; one byte each, one after the
other; encryption adds one to each byte. -/
def tiny : Env where
  addr := fun n => ⟨⟨0, 64⟩, n, 1⟩
  cls := fun n => if n = 0 then .inode else if n = 1 then .data else if n = 3 then .unode else .vnode
  enc := fun _ b => b.map (· + 1)
  dec := fun _ b => b.map (· - 1)
  cmp := fun a b => (b : Int) - (a : Int)

theorem tiny_ok : tiny.Ok where
  disj := by
    intro m n h _
    exact Nat.lt_or_gt_of_ne h
  enc_len := by intro n b; simp [tiny]
  dec_len := by intro n b; simp [tiny]
  dec_enc := by
    intro n b
    simp only [tiny, List.map_map]
    conv => rhs; rw [← List.map_id b]
    apply List.map_congr_left
    intro x _
    simp

def blank : Disk := fun _ _ => 1

/-- The file `0` with its block `1` has been written to. -/
def wrote : List Op := [.load 0, .load 1, .update 1 0 [7] [5]]

theorem runs_wrote : Runs tiny (init blank) wrote := by
  refine ⟨trivial, trivial, trivial, trivial, ⟨rfl, rfl, ?_, rfl⟩, trivial, trivial⟩
  decide

/-- **C39 violated** (fsync answers before it writes).  After a write to a file, fsync reports success; at that moment
nothing has been stored, and a crash loses the write. -/
theorem C39_fsync_reply_violated :
    ∃ ops, Runs tiny (init blank) ops ∧ (∀ o ∈ ops, o.Whole tiny) ∧
      (fsyncReply tiny (run tiny (init blank) ops) 0 false []).1 = false ∧
      view tiny (crash (fsyncReply tiny (run tiny (init blank) ops) 0 false []).2.1) 1 ≠
        view tiny (run tiny (init blank) ops) 1 :=
  ⟨wrote, runs_wrote, by simp [wrote, Op.Whole], by decide +kernel, by decide +kernel⟩

/-- Even when the write that follows fails, the answer was success: the error reaches nobody. -/
theorem C39_fsync_error_violated :
    (fsync tiny (run tiny (init blank) wrote) 0 false [] [true]).1 = false ∧
    (fsync tiny (run tiny (init blank) wrote) 0 false [] [true]).2.dq = [] ∧
    view tiny (crash (fsync tiny (run tiny (init blank) wrote) 0 false [] [true]).2) 1 ≠
      view tiny (run tiny (init blank) wrote) 1 := by
  decide +kernel

/-- **C39 violated** (fsync of a file of which only the inode is dirty).  After chmod, truncation or creation, fsync reports
success and never writes the inode, though no call fails. -/
theorem C39_fsync_inode_violated :
    ∃ ops, Runs tiny (init blank) ops ∧ (∀ o ∈ ops, o.Whole tiny) ∧
      (fsync tiny (run tiny (init blank) ops) 0 false [] []).1 = false ∧
      view tiny (crash (fsync tiny (run tiny (init blank) ops) 0 false [] []).2) 0 ≠
        view tiny (run tiny (init blank) ops) 0 := by
  refine ⟨[.load 0, .modify 0 none [5]], ⟨trivial, trivial, ⟨rfl, fun i hi => nomatch hi⟩, trivial, trivial⟩, ?_,
    by decide +kernel, by decide +kernel⟩
  intro o ho
  simp only [List.mem_cons, List.not_mem_nil, or_false] at ho
  rcases ho with rfl | rfl
  · trivial
  · exact ⟨rfl, .inl rfl⟩

/-- **C39 violated** (flush that fails half way).  A flush that fails in its second group has marked the blocks of the first
clean and forgotten them.  A sync after that succeeds without storing them, and when the block leaves the cache, even the
running file-system has lost the write. -/
theorem C39_flush_failure_violated :
    (flush tiny (run tiny (init blank) wrote) none {} true [false, false, false, false, true] []).1 = true ∧
    (syncfs tiny (flush tiny (run tiny (init blank) wrote) none {} true [false, false, false, false, true] []).2.1
      [] []).1 = false ∧
    view tiny (crash (syncfs tiny
      (flush tiny (run tiny (init blank) wrote) none {} true [false, false, false, false, true] []).2.1 [] []).2) 1 ≠
        view tiny (run tiny (init blank) wrote) 1 ∧
    view tiny (evict (flush tiny (run tiny (init blank) wrote) none {} true [false, false, false, false, true] []).2.1 1) 1 ≠
      view tiny (run tiny (init blank) wrote) 1 := by
  decide +kernel

/-- **C39 violated** (write that fails).  A sync whose write fails reports it; but the next sync reports success although the
data was never stored. -/
theorem C39_write_failure_violated :
    (syncfs tiny (run tiny (init blank) wrote) [] [true]).1 = true ∧
    (syncfs tiny (syncfs tiny (run tiny (init blank) wrote) [] [true]).2 [] []).1 = false ∧
    view tiny (crash (syncfs tiny (syncfs tiny (run tiny (init blank) wrote) [] [true]).2 [] []).2) 1 ≠
      view tiny (run tiny (init blank) wrote) 1 := by
  decide +kernel

/-- A write whose data is copied while a flush runs -/
def copying : List Op :=
  [.load 0, .load 1, .modify 0 none [5], .asyncBegin 1 0, .flush none {} true [] [], .asyncEnd 1 [7]]

theorem runs_copying : Runs tiny (init blank) copying := by
  refine ⟨trivial, trivial, trivial, trivial, ⟨rfl, fun i hi => nomatch hi⟩, trivial, ⟨rfl, rfl, rfl⟩, trivial,
    (fun i hi => nomatch hi), ⟨by simp, ?_⟩, ⟨?_, rfl⟩, trivial, trivial⟩
  · intro h
    exfalso
    revert h
    decide +kernel
  · decide +kernel

/-- **C39 violated** (data copied while a flush runs).  The flush skips the block and cleans its inode; from then on syncs
find the block no more, report success and never store it, though no call fails. -/
theorem C39_async_violated :
    ∃ ops, Runs tiny (init blank) ops ∧ (∀ n, (run tiny (init blank) ops).async n = 0) ∧
      (syncfs tiny (run tiny (init blank) ops) [] []).1 = false ∧
      view tiny (crash (syncfs tiny (run tiny (init blank) ops) [] []).2) 1 ≠ view tiny (run tiny (init blank) ops) 1 := by
  refine ⟨copying, runs_copying, ?_, by decide +kernel, by decide +kernel⟩
  intro n
  by_cases h : n = 1
  · subst h; decide +kernel
  · show (upd _ 1 _) n = 0
    unfold upd
    rw [if_neg h]
    show (flush tiny _ none {} true [] []).2.1.async n = 0
    rcases flush_cases tiny (run tiny (init blank) (copying.take 4)) none {} true [] [] with
      ⟨_, hh⟩ | ⟨_, ⟨_, hh⟩ | ⟨_, hx, hh⟩ | ⟨_, _, hh⟩⟩
    · exact (congrArg (fun r => r.2.1.async n) hh).trans (by
        show (upd _ 1 _) n = 0
        unfold upd
        rw [if_neg h]
        rfl)
    · exact (congrArg (fun r => r.2.1.async n) hh).trans (by
        show (process tiny _ _ _).2.1.async n = 0
        rw [async_process]
        show (upd _ 1 _) n = 0
        unfold upd
        rw [if_neg h]
        rfl)
    · cases hx
    · exact (congrArg (fun r => r.2.1.async n) hh).trans (by
        show (process tiny _ _ _).2.1.async n = 0
        rw [async_process]
        show (upd _ 1 _) n = 0
        unfold upd
        rw [if_neg h]
        rfl)

/-- **C39 violated** (O_SYNC).  A write to a file opened with O_SYNC flushes before the inode gets its new size and times:
when the request and the writes it has queued are over, the inode is not on storage. -/
theorem C39_osync_violated :
    (writeSync tiny (run tiny (init blank) [.load 0, .load 1]) 0 1 [7] [5] false []).1 = false ∧
    view tiny (crash (submit (writeSync tiny (run tiny (init blank) [.load 0, .load 1]) 0 1 [7] [5] false []).2.1
      (writeSync tiny (run tiny (init blank) [.load 0, .load 1]) 0 1 [7] [5] false []).2.2 []).2) 0 ≠
    view tiny (writeSync tiny (run tiny (init blank) [.load 0, .load 1]) 0 1 [7] [5] false []).2.1 0 := by
  decide +kernel

/-! The hypotheses of the theorems are met. -/

example : view tiny (run tiny (init blank) wrote) 1 = [7] ∧ view tiny (init blank) 1 = [0] := by decide +kernel
example : (syncfs tiny (run tiny (init blank) wrote) [] []).1 = false ∧
    view tiny (crash (syncfs tiny (run tiny (init blank) wrote) [] []).2) 1 = [7] ∧
    view tiny (crash (syncfs tiny (run tiny (init blank) wrote) [] []).2) 0 = [5] := by decide +kernel
example : accum tiny (dqOf (run tiny (init blank) wrote) 0) > 0 ∧
    (fsync tiny (run tiny (init blank) wrote) 0 false [] []).1 = false ∧
    (submit (fsyncReply tiny (run tiny (init blank) wrote) 0 false []).2.1
      (fsyncReply tiny (run tiny (init blank) wrote) 0 false []).2.2 []).1 = false ∧
    view tiny (crash (fsync tiny (run tiny (init blank) wrote) 0 false [] []).2) 1 = [7] := by decide +kernel
/-- Two entries: the block, then the inode -/
example : ((process tiny (run tiny (init blank) wrote) (collect tiny (run tiny (init blank) wrote) none {}) []).2.1.sq.map
    Sqe.refs) = [[1], [0]] := by decide +kernel

end Silofs.Flush
