import Verif.Props.LcacheRun
/-
Objects in use stay; there is one copy of each; queues of changed objects and counters are exact; no
assertion fails; what dropping the cache leaves.
-/
set_option linter.unusedSimpArgs false
namespace Silofs.Lcache

/-- States which can be reached from an empty cache by legal requests. -/
def Reach (w : World) : Prop :=
  ∃ hv hu nv nu store ops, (World.init hv hu nv nu store).LegalAll ops ∧
    w = ((World.init hv hu nv nu store).run ops).2

theorem Reach.inv {w : World} (r : Reach w) : Inv w := by
  obtain ⟨hv, hu, nv, nu, store, ops, hL, rfl⟩ := r
  exact (C55_cache_transparent ops _ (inv_init hv hu nv nu store) hL).1

/-- C55. From an empty cache on. -/
theorem C55_cache_from_start (hv hu : Nat → Nat) (nv nu : Nat) (store : Bool → Nat → Nat) (ops : List Op)
    (hL : (World.init hv hu nv nu store).LegalAll ops) :
    (⟨store, store⟩ : Mem).Runs (World.init hv hu nv nu store) ops ((World.init hv hu nv nu store).run ops).1 := by
  have h := (C55_cache_transparent ops _ (inv_init hv hu nv nu store) hL).2
  have e : (World.init hv hu nv nu store).abs = ⟨store, store⟩ := by
    apply Mem.ext'
    · intro v k; cases v <;> rfl
    · intro v k; rfl
  rw [e] at h; exact h

/-- C55. There is never a second copy of an object in memory: as long as an element holds a key, whoever
asks for the key gets that element with its content. -/
theorem C55_one_copy {w : World} (r : Reach w) (v : Bool) (i k size : Nat) (b : Bool) (fails : Nat)
    (hl : (w.hq v).live i = true) (hm : ((w.hq v).heap i).mapped = true) (hk : ((w.hq v).heap i).key = k) :
    (w.step (.stage v k size b fails)).1 = some (i, ((w.hq v).heap i).data) := by
  have iv := r.inv
  have o := iv.ok v
  have hf := (find_some o).mpr ⟨hl, hm, hk⟩
  rcases lookup_spec o k with ⟨hf', _⟩ | ⟨j, hf', hlk, ro⟩
  · rw [hf] at hf'; cases hf'
  · rw [hf] at hf'; cases hf'
    have hfg : (((w.hq v).lookup k).2.heap i).forgot = false := by
      rw [(ro.heap i).forgot]
      cases hx : ((w.hq v).heap i).forgot with
      | false => rfl
      | true => have := o.fm i hl hx; rw [hm] at this; cases this
    show (w.stage v k size b fails).1 = _
    unfold World.stage
    rw [hlk]
    dsimp only
    rw [if_neg (by rw [hfg]; exact fun hc => by cases hc.1)]
    dsimp only
    rw [(ro.heap i).data]

/-- C55. What is asked for is what is handed out: the element has the key, is there, and holds the current
content. -/
theorem C55_stage_right {w : World} (r : Reach w) (v : Bool) (k size : Nat) (b : Bool) (fails i d : Nat)
    (h : (w.step (.stage v k size b fails)).1 = some (i, d)) :
    d = w.abs.cur v k ∧ ((w.step (.stage v k size b fails)).2.hq v).live i = true ∧
    (((w.step (.stage v k size b fails)).2.hq v).heap i).key = k ∧
    (((w.step (.stage v k size b fails)).2.hq v).heap i).data = d := by
  obtain ⟨a, b', c, _, e⟩ := (stage_spec r.inv v k size b fails).2.2 i d h
  exact ⟨a, b', c, e⟩

/-- C55. The request is refused only when the allocator has failed four times; then nothing shows. -/
theorem C55_stage_refused {w : World} (r : Reach w) (v : Bool) (k size : Nat) (b : Bool) (fails : Nat)
    (h : (w.step (.stage v k size b fails)).1 = none) : fails ≥ 4 ∧ (w.hq v).find k = none := by
  have o := r.inv.ok v
  cases hf : (w.hq v).find k with
  | some i =>
    obtain ⟨a, b', c⟩ := (find_some o).mp hf
    rw [C55_one_copy r v i k size b fails a b' c] at h; cases h
  | none =>
    refine ⟨?_, rfl⟩
    rcases lookup_spec o k with ⟨_, hl⟩ | ⟨i, hf', _⟩
    · have e : w.step (.stage v k size b fails) = (w.setHq v (w.hq v)).load v k size b fails := by
        show w.stage v k size b fails = _
        unfold World.stage; rw [hl]
      have e2 : w.setHq v (w.hq v) = w := by cases v <;> rfl
      rw [e, e2] at h
      unfold World.load at h
      apply Decidable.byContradiction
      intro hlt
      have hr : (w.s.require fails).1 = true := by
        match fails, hlt with
        | 0, _ => rfl
        | 1, _ => rfl
        | 2, _ => rfl
        | 3, _ => rfl
        | n + 4, hlt => exact absurd (Nat.le_add_left 4 n) hlt
      rw [if_pos hr] at h; cases h
    · rw [hf] at hf'; cases hf'

/-- What a step leaves of an element. -/
structure Kept (h h' : HQ) (i : Nat) : Prop where
  live : h'.live i = true
  key : (h'.heap i).key = (h.heap i).key
  size : (h'.heap i).size = (h.heap i).size
  isInode : (h'.heap i).isInode = (h.heap i).isInode
  mapped : (h'.heap i).mapped = (h.heap i).mapped

theorem kept_maint {h h' : HQ} (m : Maint h h') {i : Nat} (hl : h.live i = true) (hu : h.InUse i) :
    Kept h h' i ∧ (h'.heap i).data = (h.heap i).data ∧ (h'.heap i).inq = (h.heap i).inq ∧
      (h'.heap i).refcnt = (h.heap i).refcnt := by
  have hlive : h'.live i = true := by
    cases hx : h'.live i with
    | true => rfl
    | false => have := m.gone i hl hx; rw [inUse_iff.mp hu] at this; cases this
  have s := m.heap i hlive
  exact ⟨⟨hlive, s.key, s.size, s.isInode, s.mapped⟩, s.data, s.inq, s.refcnt⟩

theorem load_kept {w : World} (iv : Inv w) (v' : Bool) (k size : Nat) (b : Bool) (fails : Nat) (v : Bool) {i : Nat}
    (hl : (w.hq v).live i = true) (hu : (w.hq v).InUse i) :
    Kept (w.hq v) ((w.load v' k size b fails).2.hq v) i ∧
    (((w.load v' k size b fails).2.hq v).heap i).data = ((w.hq v).heap i).data ∧
    (((w.load v' k size b fails).2.hq v).heap i).inq = ((w.hq v).heap i).inq ∧
    (((w.load v' k size b fails).2.hq v).heap i).refcnt = ((w.hq v).heap i).refcnt := by
  have mr := maint_require (okS iv) fails
  have hmv : Maint (w.hq v) (({ w with s := (w.s.require fails).2 } : World).hq v) := by
    cases v
    · exact mr.u
    · exact mr.v
  have K := kept_maint hmv hl hu
  unfold World.load
  generalize ({ w with s := (w.s.require fails).2 } : World) = w1 at hmv K ⊢
  by_cases hr : (w.s.require fails).1 = true
  · rw [if_pos hr]
    dsimp only
    rw [hq_set]
    by_cases hv : v = v'
    · subst hv
      rw [if_pos rfl]
      have hne : i ≠ (w1.hq v).next := fun he => absurd (hmv.ok.lt i K.1.live) (by rw [he]; exact Nat.lt_irrefl _)
      have hO := (create_heap (w1.hq v) k size b (w.store v k)).2 i hne
      refine ⟨⟨(create_live _ _ _ _ _ _).mpr (Or.inr K.1.live), ?_, ?_, ?_, ?_⟩, ?_, ?_, ?_⟩ <;> rw [hO]
      · exact K.1.key
      · exact K.1.size
      · exact K.1.isInode
      · exact K.1.mapped
      · exact K.2.1
      · exact K.2.2.1
      · exact K.2.2.2
    · rw [if_neg hv]; exact K
  · rw [if_neg hr]; exact K

theorem upd_kept {w : World} (v' v : Bool) (i' i : Nat) (f : Elem → Elem) (hl : (w.hq v).live i = true)
    (hf : ∀ e, (f e).key = e.key ∧ (f e).size = e.size ∧ (f e).isInode = e.isInode ∧ (f e).mapped = e.mapped ∧
      (f e).data = e.data ∧ (f e).inq = e.inq) :
    Kept (w.hq v) ((w.setHq v' ((w.hq v').upd i' f)).hq v) i ∧
    (((w.setHq v' ((w.hq v').upd i' f)).hq v).heap i).data = ((w.hq v).heap i).data ∧
    (((w.setHq v' ((w.hq v').upd i' f)).hq v).heap i).inq = ((w.hq v).heap i).inq := by
  rw [hq_set]
  by_cases hv : v = v'
  · subst hv
    rw [if_pos rfl]
    have hh : ((w.hq v).upd i' f).heap i = if i = i' then f ((w.hq v).heap i) else (w.hq v).heap i := rfl
    by_cases hi : i = i'
    · rw [if_pos hi] at hh
      obtain ⟨a, b, c, d, e, g⟩ := hf ((w.hq v).heap i)
      exact ⟨⟨hl, by rw [hh]; exact a, by rw [hh]; exact b, by rw [hh]; exact c, by rw [hh]; exact d⟩,
        by rw [hh]; exact e, by rw [hh]; exact g⟩
    · rw [if_neg hi] at hh
      exact ⟨⟨hl, by rw [hh], by rw [hh], by rw [hh], by rw [hh]⟩, by rw [hh], by rw [hh]⟩
  · rw [if_neg hv]; exact ⟨⟨hl, rfl, rfl, rfl, rfl⟩, rfl, rfl⟩

/-- One step, one element in use. -/
theorem step_kept {w : World} (iv : Inv w) (op : Op) (hL : w.Legal op) (v : Bool) {i : Nat}
    (hl : (w.hq v).live i = true) (hu : (w.hq v).InUse i) (hnf : op ≠ .forget v i) :
    Kept (w.hq v) ((w.step op).2.hq v) i ∧
    ((∀ d o, op ≠ .write v i d o) → (((w.step op).2.hq v).heap i).data = ((w.hq v).heap i).data) ∧
    (op ≠ .save v i → ((w.hq v).heap i).inq = true → (((w.step op).2.hq v).heap i).inq = true) := by
  have plain : ∀ {w' : World}, Kept (w.hq v) (w'.hq v) i ∧ ((w'.hq v).heap i).data = ((w.hq v).heap i).data ∧
      ((w'.hq v).heap i).inq = ((w.hq v).heap i).inq →
      Kept (w.hq v) (w'.hq v) i ∧
      ((∀ d o, op ≠ .write v i d o) → ((w'.hq v).heap i).data = ((w.hq v).heap i).data) ∧
      (op ≠ .save v i → ((w.hq v).heap i).inq = true → ((w'.hq v).heap i).inq = true) :=
    fun h => ⟨h.1, fun _ => h.2.1, fun _ g => h.2.2.trans g⟩
  have same : Kept (w.hq v) (w.hq v) i := ⟨hl, rfl, rfl, rfl, rfl⟩
  cases op with
  | stage v' k size b fails =>
    refine plain ?_
    show Kept (w.hq v) ((w.stage v' k size b fails).2.hq v) i ∧ _
    rcases lookup_spec (iv.ok v') k with ⟨hf, hlk⟩ | ⟨j, hf, hlk, r⟩
    · have e : w.stage v' k size b fails = (w.setHq v' (w.hq v')).load v' k size b fails := by
        unfold World.stage; rw [hlk]
      have e2 : w.setHq v' (w.hq v') = w := by cases v' <;> rfl
      have K := load_kept iv v' k size b fails v hl hu
      rw [show (w.step (.stage v' k size b fails)) = w.stage v' k size b fails from rfl, e, e2]
      exact ⟨K.1, K.2.1, K.2.2.1⟩
    · obtain ⟨a, bm, c⟩ := (find_some (iv.ok v')).mp hf
      have hfg : (((w.hq v').lookup k).2.heap j).forgot = false := by
        rw [(r.heap j).forgot]
        cases hx : ((w.hq v').heap j).forgot with
        | false => rfl
        | true => have := (iv.ok v').fm j a hx; rw [bm] at this; cases this
      have e : w.stage v' k size b fails =
          (some (j, (((w.hq v').lookup k).2.heap j).data), w.setHq v' ((w.hq v').lookup k).2) := by
        unfold World.stage
        rw [hlk]
        dsimp only
        rw [if_neg (by rw [hfg]; exact fun hc => by cases hc.1)]
      rw [show (w.step (.stage v' k size b fails)) = w.stage v' k size b fails from rfl, e]
      dsimp only
      rw [hq_set]
      by_cases hv : v = v'
      · subst hv
        rw [if_pos rfl]
        have K := kept_maint (r.maint (iv.ok v)) hl hu
        exact ⟨K.1, K.2.1, K.2.2.1⟩
      · rw [if_neg hv]; exact ⟨same, rfl, rfl⟩
  | incref v' j => exact plain (upd_kept v' v j i _ hl (fun e => ⟨rfl, rfl, rfl, rfl, rfl, rfl⟩))
  | decref v' j => exact plain (upd_kept v' v j i _ hl (fun e => ⟨rfl, rfl, rfl, rfl, rfl, rfl⟩))
  | write v' j d owner =>
    show Kept (w.hq v) ((w.setHq v' (((w.hq v').upd j fun e => { e with data := d }).dirtify j owner)).hq v) i ∧ _
    rw [show (w.step (.write v' j d owner)).2 = w.setHq v' (((w.hq v').upd j fun e => { e with data := d }).dirtify j owner) from rfl]
    rw [hq_set]
    by_cases hv : v = v'
    · subst hv
      rw [if_pos rfl]
      have D := dirtify_heap ((w.hq v).upd j fun e => { e with data := d }) j i owner
      generalize ((w.hq v).upd j fun e => { e with data := d }).dirtify j owner = H at D
      have hh : ((w.hq v).upd j fun e => { e with data := d }).heap i =
          if i = j then { (w.hq v).heap i with data := d } else (w.hq v).heap i := rfl
      rw [hh] at D
      obtain ⟨d1, d2, d3, d4, d5, d6, d7, d8, d9, d10, d11⟩ := D
      have hlv : H.live i = true := by rw [d10]; exact hl
      by_cases hij : i = j
      · rw [if_pos hij] at d1 d2 d3 d4 d8 d9
        refine ⟨⟨hlv, d1, d2, d3, d8⟩, fun hw => ?_, fun _ _ => ?_⟩
        · exact absurd (by rw [hij]) (hw d owner)
        · first | exact d9 | (rw [if_pos hij] at d9; exact d9)
      · rw [if_neg hij] at d1 d2 d3 d4 d8 d9
        refine ⟨⟨hlv, d1, d2, d3, d8⟩, fun _ => d4, fun _ h => ?_⟩
        first | exact d9.trans h | (rw [if_neg hij] at d9; exact d9.trans h)
    · rw [if_neg hv]; exact ⟨same, fun _ => rfl, fun _ h => h⟩
  | redirtify j =>
    rw [show (w.step (.redirtify j)).2 = w.setHq true ((w.hq true).redirtify j) from rfl, hq_set]
    by_cases hv : v = true
    · subst hv
      rw [if_pos rfl]
      unfold HQ.redirtify
      have e1 := undirtify_rest (w.hq true) j
      have hheap := undirtify_heap (w.hq true) j i
      generalize (w.hq true).classOf ((w.hq true).heap j).isInode = c
      have D := dirtify_heap (((w.hq true).undirtify j).setDq j c) j i none
      generalize (((w.hq true).undirtify j).setDq j c).dirtify j none = H at D
      have hh : (((w.hq true).undirtify j).setDq j c).heap i =
          if i = j then { ((w.hq true).undirtify j).heap i with dq := c } else ((w.hq true).undirtify j).heap i := rfl
      have hl2 : (((w.hq true).undirtify j).setDq j c).live = (w.hq true).live := e1.1
      rw [hh, hheap, hl2] at D
      obtain ⟨d1, d2, d3, d4, d5, d6, d7, d8, d9, d10, d11⟩ := D
      have hlv : H.live i = true := by rw [d10]; exact hl
      by_cases hij : i = j
      · simp only [if_pos hij] at d1 d2 d3 d4 d8 d9
        exact ⟨⟨hlv, d1, d2, d3, d8⟩, fun _ => d4, fun _ _ => d9⟩
      · simp only [if_neg hij] at d1 d2 d3 d4 d8 d9
        exact ⟨⟨hlv, d1, d2, d3, d8⟩, fun _ => d4, fun _ h => d9.trans h⟩
    · rw [if_neg hv]; exact ⟨same, fun _ => rfl, fun _ h => h⟩
  | save v' j =>
    have hq' : ((w.step (.save v' j)).2).hq v = if v = v' then (w.hq v').undirtify j else w.hq v := by
      show ({ w.setHq v' ((w.hq v').undirtify j) with store := _ } : World).hq v = _
      rw [hq_store, hq_set]
    rw [hq']
    by_cases hv : v = v'
    · subst hv
      rw [if_pos rfl]
      have e1 := undirtify_rest (w.hq v) j
      have hheap := undirtify_heap (w.hq v) j i
      by_cases hij : i = j
      · rw [if_pos hij] at hheap
        refine ⟨⟨by rw [e1.1]; exact hl, by rw [hheap], by rw [hheap], by rw [hheap], by rw [hheap]⟩, fun _ => by rw [hheap], fun h => ?_⟩
        exact absurd (by rw [hij]) h
      · rw [if_neg hij] at hheap
        exact ⟨⟨by rw [e1.1]; exact hl, by rw [hheap], by rw [hheap], by rw [hheap], by rw [hheap]⟩, fun _ => by rw [hheap], fun _ h => by rw [hheap]; exact h⟩
    · rw [if_neg hv]; exact ⟨same, fun _ => rfl, fun _ h => h⟩
  | forget v' j =>
    rw [show (w.step (.forget v' j)).2 = w.setHq v' ((w.hq v').forget j) from rfl, hq_set]
    by_cases hv : v = v'
    · subst hv
      rw [if_pos rfl]
      have hij : i ≠ j := fun h => hnf (by rw [h])
      obtain ⟨l1, l2, l3⟩ := hL
      have g := (forget_hq (iv.ok v) l1 (fun h => l2 ((iv.kind v).symm.trans h)) l3).2.2.1 i hij
      exact ⟨⟨by rw [g.1]; exact hl, by rw [g.2], by rw [g.2], by rw [g.2], by rw [g.2]⟩, fun _ => by rw [g.2], fun _ h => by rw [g.2]; exact h⟩
    · rw [if_neg hv]; exact ⟨same, fun _ => rfl, fun _ h => h⟩
  | opened j => exact plain (upd_kept true v j i _ hl (fun e => ⟨rfl, rfl, rfl, rfl, rfl, rfl⟩))
  | closed j => exact plain (upd_kept true v j i _ hl (fun e => ⟨rfl, rfl, rfl, rfl, rfl, rfl⟩))
  | pin j => exact plain (upd_kept true v j i _ hl (fun e => ⟨rfl, rfl, rfl, rfl, rfl, rfl⟩))
  | unpin j => exact plain (upd_kept true v j i _ hl (fun e => ⟨rfl, rfl, rfl, rfl, rfl, rfl⟩))
  | relax pct f =>
    have m := maint_relax (okS iv) pct f
    have hmv : Maint (w.hq v) (({ w with s := w.s.relax pct f } : World).hq v) := by
      cases v
      · exact m.u
      · exact m.v
    have K := kept_maint hmv hl hu
    exact plain ⟨K.1, K.2.1, K.2.2.1⟩
  | drop =>
    have m := maint_drop (okS iv)
    have hmv : Maint (w.hq v) (({ w with s := w.s.drop } : World).hq v) := by
      cases v
      · exact m.u
      · exact m.v
    have K := kept_maint hmv hl hu
    exact plain ⟨K.1, K.2.1, K.2.2.1⟩

/-- C55. An object in use (referred to, with unsaved changes, pinned, open, or with unsaved objects of
its own) stays in memory at its place whatever else is asked of the cache, and stays the one that is
found under its key. -/
theorem C55_in_use_stays {w : World} (r : Reach w) (op : Op) (hL : w.Legal op) (v : Bool) (i : Nat)
    (hl : (w.hq v).live i = true) (hu : (w.hq v).InUse i) (hnf : op ≠ .forget v i) :
    ((w.step op).2.hq v).live i = true ∧ (((w.step op).2.hq v).heap i).key = ((w.hq v).heap i).key ∧
    (((w.hq v).heap i).mapped = true → ((w.step op).2.hq v).find ((w.hq v).heap i).key = some i) := by
  have K := (step_kept r.inv op hL v hl hu hnf).1
  refine ⟨K.live, K.key, fun hm => ?_⟩
  exact (find_some ((step_spec r.inv op hL).1.ok v)).mpr ⟨K.live, by rw [K.mapped]; exact hm, K.key⟩

/-- C55. Unsaved changes are not lost: an object with unsaved changes keeps them, and stays in its queue
for the flusher, until they are saved, changed again or the object is forgotten. -/
theorem C55_unsaved_kept {w : World} (r : Reach w) (op : Op) (hL : w.Legal op) (v : Bool) (i : Nat)
    (hl : (w.hq v).live i = true) (hd : ((w.hq v).heap i).inq = true) (hnf : op ≠ .forget v i)
    (hns : op ≠ .save v i) :
    ((w.step op).2.hq v).live i = true ∧
    i ∈ ((w.step op).2.hq v).dq (((w.step op).2.hq v).heap i).dq ∧
    ((∀ d o, op ≠ .write v i d o) → (((w.step op).2.hq v).heap i).data = ((w.hq v).heap i).data) := by
  have K := step_kept r.inv op hL v hl (Or.inr (Or.inl hd)) hnf
  refine ⟨K.1.live, ?_, K.2.1⟩
  exact (((step_spec r.inv op hL).1.ok v).qmem _ _).mpr ⟨K.1.live, K.2.2 hns hd, rfl⟩

/-- C55. A vnode forgotten while somebody refers to it is still there for them, with its content, and no
longer found by others. -/
theorem C55_forgotten_stays {w : World} (r : Reach w) (i : Nat) (hL : w.Legal (.forget true i))
    (hr : ((w.hq true).heap i).refcnt > 0) :
    ((w.step (.forget true i)).2.hq true).live i = true ∧
    (((w.step (.forget true i)).2.hq true).heap i).data = ((w.hq true).heap i).data ∧
    ∀ k, ((w.step (.forget true i)).2.hq true).find k ≠ some i := by
  have iv := r.inv
  obtain ⟨l1, l2, l3⟩ := hL
  obtain ⟨o1, _, _, g4, g5⟩ := forget_hq (iv.ok true) l1 (fun h => l2 ((iv.kind true).symm.trans h)) l3
  have e : (w.step (.forget true i)).2.hq true = (w.hq true).forget i := rfl
  rw [e]
  have hlive : ((w.hq true).forget i).live i = true := by
    cases hx : ((w.hq true).forget i).live i with
    | true => rfl
    | false => have := g5 hx; omega
  refine ⟨hlive, (g4 hlive).2.2.2.2.2, fun k hk => ?_⟩
  have := (find_some o1).mp hk
  rw [(g4 hlive).1] at this; cases this.2.1

/-- C55. The queues of changed objects hold exactly the changed objects, each once, and the counters
hold the sum of their sizes; an object in an inode's queue belongs to an inode which is there. -/
theorem C55_queues_exact {w : World} (r : Reach w) (v : Bool) (q : Dq) :
    ((w.hq v).dq q).Nodup ∧
    (∀ i, i ∈ (w.hq v).dq q ↔ (w.hq v).live i = true ∧ ((w.hq v).heap i).inq = true ∧ ((w.hq v).heap i).dq = q) ∧
    (w.hq v).accum q = (((w.hq v).dq q).map fun i => ((w.hq v).heap i).size).sum ∧
    (∀ o i, q = .own o → i ∈ (w.hq v).dq q → (w.hq v).live o = true ∧ ((w.hq v).heap o).isInode = true) := by
  have ok := r.inv.ok v
  refine ⟨ok.qnodup q, ok.qmem q, ok.accum q, ?_⟩
  intro o i hq hi
  have := (ok.qmem q i).mp hi
  exact ok.owner i o this.1 this.2.1 (this.2.2.trans hq)

/-- C55. No assertion of the cache fails: nothing that somebody refers to or that is in a queue is freed,
nothing is freed twice, no look up meets an unmapped element, no counter goes below zero. -/
theorem C55_no_assertion_fails {w : World} (r : Reach w) (v : Bool) : (w.hq v).crash = false :=
  (r.inv.ok v).crash

/-- C55. The number of mapped objects which relaxing goes by is right. -/
theorem C55_count_exact {w : World} (r : Reach w) (v : Bool) :
    (w.hq v).size = ((w.hq v).lru.filter fun i => ((w.hq v).heap i).mapped).length ∧
    (w.hq v).lru.Nodup ∧ ∀ i, i ∈ (w.hq v).lru ↔ (w.hq v).live i = true :=
  ⟨(r.inv.ok v).size, (r.inv.ok v).lnodup, (r.inv.ok v).llive⟩

/-- C55. Dropping the cache leaves only objects in use, provided that any object is mapped. -/
theorem C55_drop_leaves_used_partial {w : World} (r : Reach w) (hs : (w.hq true).size + (w.hq false).size ≠ 0)
    (v : Bool) (i : Nat) (hl : ((w.step .drop).2.hq v).live i = true) : ((w.step .drop).2.hq v).InUse i := by
  have := drop_all (okS r.inv) hs
  apply inUse_iff.mpr
  cases v
  · exact this.2 i hl
  · exact this.1 i hl

/-- The first round of a shrink takes the oldest element if nobody uses it. -/
theorem shrink_oldest {h : HQ} (o : Ok h) {x : Nat} (hx : h.lru.getLast? = some x) (he : h.evictable x = true)
    {cnt : Nat} (hc : 0 < cnt) (now : Bool) : (h.shrink cnt now).2.live x = false := by
  have hmem : x ∈ h.lru := List.mem_of_getLast? hx
  have hl := (o.llive x).mp hmem
  have hlen : 0 < h.lru.length := List.length_pos_of_mem hmem
  unfold HQ.shrink
  obtain ⟨n, hn⟩ : ∃ n, min cnt h.lru.length = n + 1 := ⟨min cnt h.lru.length - 1, by omega⟩
  rw [hn]
  unfold HQ.shrinkLoop
  rw [hx]
  dsimp only
  rw [if_pos he]
  have e : h.evictOrRelru x = h.evict x := if_pos he
  have m := maint_evict o hl he
  rw [e]
  have hdead : (h.evict x).live x = false := by
    obtain ⟨a1, a2, a3, a4⟩ := evictable_iff.mp he
    have hown : h.dq (.own x) = [] := by
      cases hi : (h.heap x).isInode with
      | false => exact own_nil o hi
      | true => exact (a1 hi).2
    have := (evict_spec o hl a3 a4 hown).2.2.2.2.2.1 x
    rw [this, if_pos rfl]
  have m2 := maint_shrinkLoop now n 1 1 (h.evict x) m.ok
  cases hb : (HQ.shrinkLoop now n (0 + 1) (0 + 1) (h.evict x)).2.live x with
  | false => rfl
  | true => have := m2.live x hb; rw [hdead] at this; cases this

/-- C55. Memory is given back: when more than six tenths of it are in use, relaxing frees the vnode
which has not been used for longest, unless it is in use. -/
theorem C55_relax_frees {w : World} (r : Reach w) (pct : Nat) (f : RFlags) (hp : pct > 60) (i : Nat)
    (hi : (w.hq true).lru.getLast? = some i) (hu : ¬ (w.hq true).InUse i) :
    ((w.step (.relax pct f)).2.hq true).live i = false := by
  have o := okS r.inv
  have he : w.s.v.evictable i = true := by
    cases hx : w.s.v.evictable i with
    | true => rfl
    | false => exact absurd (inUse_iff.mpr hx) hu
  show (w.s.relax pct f).v.live i = false
  unfold St.relax
  have hn : 0 < calcNiter pct f := by
    unfold calcNiter
    simp only [if_pos hp]
    have : ∀ x : Nat, 0 < (if 10 + x = 0 ∧ f.idle = true then 2 + min pct 3 else 10 + x) := by
      intro x; rw [if_neg (by omega)]; omega
    exact this _
  obtain ⟨n, hn'⟩ : ∃ n, calcNiter pct f = n + 1 := ⟨calcNiter pct f - 1, by omega⟩
  generalize (if f.now ∨ calcNiter pct f > 1 then 2 else 1) = cnt
  rw [hn']
  have hd := shrink_oldest o.v hi he (Nat.succ_pos 0) f.now
  have stay : ∀ {s' : St}, MaintS ⟨(w.s.v.shrink (0 + 1) f.now).2, w.s.u⟩ s' ∨
      MaintS ⟨(w.s.v.shrink (0 + 1) f.now).2, (w.s.u.shrink cnt f.now).2⟩ s' → s'.v.live i = false := by
    intro s' h
    have hm : Maint (w.s.v.shrink (0 + 1) f.now).2 s'.v := by
      rcases h with h | h
      · exact h.v
      · exact h.v
    cases hb : s'.v.live i with
    | false => rfl
    | true => have := hm.live i hb; rw [hd] at this; cases this
  have ov := (maint_shrink o.v (0 + 1) f.now).ok
  have ou := (maint_shrink o.u cnt f.now).ok
  unfold St.relaxLoop
  by_cases h1 : (w.s.v.shrink (0 + 1) f.now).1 = 0 ∨ f.now ∨ w.s.u.size > 128
  · rw [if_pos h1]
    by_cases h2 : (w.s.v.shrink (0 + 1) f.now).1 = 0 ∧ (w.s.u.shrink cnt f.now).1 = 0
    · rw [if_pos h2]
      exact stay (Or.inr (maint_relaxOverpop ⟨ov, ou⟩))
    · rw [if_neg h2]
      have m := maint_relaxLoop f.now cnt n (0 + 1) ⟨(w.s.v.shrink (0 + 1) f.now).2, (w.s.u.shrink cnt f.now).2⟩
        (0 + (w.s.v.shrink (0 + 1) f.now).1 + (w.s.u.shrink cnt f.now).1) ⟨ov, ou⟩
      exact stay (Or.inr (m.trans (maint_relaxOverpop m.ok)))
  · rw [if_neg h1]
    have m := maint_relaxLoop f.now cnt n (0 + 1) ⟨(w.s.v.shrink (0 + 1) f.now).2, w.s.u⟩
      (0 + (w.s.v.shrink (0 + 1) f.now).1) ⟨ov, o.u⟩
    exact stay (Or.inl (m.trans (maint_relaxOverpop m.ok)))

/-- C55. When the allocator has nothing to give, some object out of use makes room, if there is one
among the ten vnodes or the ten unodes not used for longest. -/
theorem C55_shortage_frees {w : World} (r : Reach w) (v : Bool) (k size : Nat) (b : Bool)
    (hf : (w.hq v).find k = none) (v' : Bool) (i : Nat) (hi : i ∈ (w.hq v').lru.reverse.take 10)
    (hu : ¬ (w.hq v').InUse i) :
    ∃ j, (w.hq v').live j = true ∧ ((w.step (.stage v k size b 1)).2.hq v').live j = false := by
  have o := okS r.inv
  have ov' := r.inv.ok v'
  have hev : (w.hq v').evictable i = true := by
    cases hx : (w.hq v').evictable i with
    | true => rfl
    | false => exact absurd (inUse_iff.mpr hx) hu
  obtain ⟨j, hj⟩ : ∃ j, (w.hq v').findEvictable = some j := by
    cases hx : (w.hq v').findEvictable with
    | some j => exact ⟨j, rfl⟩
    | none =>
      unfold HQ.findEvictable at hx
      have := List.find?_eq_none.mp hx i hi
      exact absurd hev this
  obtain ⟨hjl, hje⟩ := findEvictable_some ov' hj
  have hdead : ((w.hq v').evict j).live j = false := by
    obtain ⟨a1, a2, a3, a4⟩ := evictable_iff.mp hje
    have hown : (w.hq v').dq (.own j) = [] := by
      cases hi : ((w.hq v').heap j).isInode with
      | false => exact own_nil ov' hi
      | true => exact (a1 hi).2
    have := (evict_spec ov' hjl a3 a4 hown).2.2.2.2.2.1 j
    rw [this, if_pos rfl]
  have hes : ({ w with s := w.s.evictSome } : World).hq v' = (w.hq v').evict j := by
    unfold St.evictSome
    cases v' with
    | true =>
      have hj' : w.s.v.findEvictable = some j := hj
      rw [hj']
      cases w.s.u.findEvictable <;> rfl
    | false =>
      have hj' : w.s.u.findEvictable = some j := hj
      rw [hj']
      cases w.s.v.findEvictable <;> rfl
  refine ⟨j, hjl, ?_⟩
  rcases lookup_spec (r.inv.ok v) k with ⟨_, hlk⟩ | ⟨x, hf', _⟩
  · have e : w.step (.stage v k size b 1) = (w.setHq v (w.hq v)).load v k size b 1 := by
      show w.stage v k size b 1 = _
      unfold World.stage; rw [hlk]
    have e2 : w.setHq v (w.hq v) = w := by cases v <;> rfl
    rw [e, e2]
    unfold World.load
    rw [show (w.s.require 1) = (true, w.s.evictSome) from rfl]
    rw [if_pos rfl]
    dsimp only
    rw [hq_set]
    by_cases hv : v' = v
    · subst hv
      rw [if_pos rfl]
      have hne : j ≠ (({ w with s := w.s.evictSome } : World).hq v').next := by
        rw [hes]
        have := (maint_evict ov' hjl hje).next
        rw [this]
        exact Nat.ne_of_lt (ov'.lt j hjl)
      cases hb : ((({ w with s := w.s.evictSome } : World).hq v').create k size b (w.store v' k)).live j with
      | false => rfl
      | true =>
        rcases (create_live _ _ _ _ _ _).mp hb with h | h
        · exact absurd h hne
        · rw [hes, hdead] at h; cases h
    · rw [if_neg hv, hes]; exact hdead
  · rw [hf] at hf'; cases hf'

/-! ### Witnesses -/

/-- An empty cache over storage which holds for key `k` the number `100 + k`. -/
def w0 : World := World.init id id 8 8 (fun _ k => 100 + k)

/-- An inode (element 0) is loaded, opened, changed; another vnode (element 1) is changed in its queue; a
third (element 2) is just read; the cache is dropped. -/
def demo : List Op :=
  [.stage true 1 1024 true 0, .opened 0, .write true 0 7 none, .stage true 9 4096 false 0,
   .write true 1 8 (some 0), .stage true 5 4096 false 1, .stage false 5 4096 false 0, .drop,
   .stage true 5 4096 false 2, .stage true 9 4096 false 9, .save true 1, .drop, .stage true 9 4096 false 0]

instance (w : World) (op : Op) : Decidable (w.Legal op) := by
  cases op with
  | write v i d owner =>
    cases owner with
    | none =>
      unfold World.Legal
      dsimp only
      cases hq : ((w.hq v).heap i).dq with
      | own o =>
        exact decidable_of_iff ((w.hq v).live i = true ∧ ((w.hq v).heap i).mapped = true ∧
          ((w.hq v).live o = true ∧ ((w.hq v).heap o).isInode = true))
          ⟨fun h => ⟨h.1, h.2.1, fun x hx => by cases hx; exact h.2.2⟩, fun h => ⟨h.1, h.2.1, h.2.2 o rfl⟩⟩
      | unis =>
        exact decidable_of_iff ((w.hq v).live i = true ∧ ((w.hq v).heap i).mapped = true)
          ⟨fun h => ⟨h.1, h.2, fun x hx => by cases hx⟩, fun h => ⟨h.1, h.2.1⟩⟩
      | iis =>
        exact decidable_of_iff ((w.hq v).live i = true ∧ ((w.hq v).heap i).mapped = true)
          ⟨fun h => ⟨h.1, h.2, fun x hx => by cases hx⟩, fun h => ⟨h.1, h.2.1⟩⟩
      | vnis =>
        exact decidable_of_iff ((w.hq v).live i = true ∧ ((w.hq v).heap i).mapped = true)
          ⟨fun h => ⟨h.1, h.2, fun x hx => by cases hx⟩, fun h => ⟨h.1, h.2.1⟩⟩
    | some o => unfold World.Legal; dsimp only; infer_instance
  | _ => unfold World.Legal; dsimp only; infer_instance

instance decLegalAll : ∀ (ops : List Op) (w : World), Decidable (w.LegalAll ops)
  | [], _ => isTrue trivial
  | op :: ops, w => by
    have : Decidable ((w.step op).2.LegalAll ops) := decLegalAll ops (w.step op).2
    unfold World.LegalAll
    infer_instance

example : w0.LegalAll demo := by decide +kernel

/-- The answers: fresh contents from storage, the changed ones from memory, also after the drop. -/
example : (w0.run demo).1 = [some 101, none, none, some 109, none, some 105, some 105, none, some 105, some 8,
    none, none, some 8] := by decide +kernel

/-- C55. When no object is mapped, dropping the cache leaves an object which nobody uses: a vnode which
was forgotten while referred to, of which the last reference has gone. -/
theorem C55_drop_leaves_used_violated :
    w0.LegalAll [.stage true 1 4096 false 0, .incref true 0, .forget true 0, .decref true 0, .drop] ∧
    ((w0.run [.stage true 1 4096 false 0, .incref true 0, .forget true 0, .decref true 0, .drop]).2.hq true).live 0 = true ∧
    ((w0.run [.stage true 1 4096 false 0, .incref true 0, .forget true 0, .decref true 0, .drop]).2.hq true).evictable 0 = true := by
  refine ⟨by decide +kernel, by decide +kernel, by decide +kernel⟩

end Silofs.Lcache
