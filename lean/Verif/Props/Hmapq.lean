import Verif.Props.HmapqFind
import Verif.Spec.Hmapq
set_option linter.unusedSimpArgs false
set_option linter.unusedVariables false
/-
C69: the cache in linked memory answers as the cache with plain sequences does.
-/
namespace Silofs.Hmq
open Silofs.Lk (Mem dec Ring Forest)
open Silofs.Lcache (Dq Elem HQ Ok Maint OkS MaintS Op MOp RFlags calcNiter)

/-! ### Both maps -/

structure RepS (s : St) (t : Silofs.Lcache.St) : Prop where
  v : Rep s.v t.v
  u : Rep s.u t.u

theorem rep_evictSome {s : St} {t : Silofs.Lcache.St} (r : RepS s t) (o : OkS t) : RepS s.evictSome t.evictSome := by
  unfold St.evictSome Silofs.Lcache.St.evictSome
  rw [findEvictable_eq r.v o.v, findEvictable_eq r.u o.u]
  cases hv : t.v.findEvictable with
  | none =>
    cases hu : t.u.findEvictable with
    | none => exact ⟨(rep_shrink r.v o.v 1 false).2, (rep_shrink r.u o.u 1 false).2⟩
    | some j =>
      have gu := Silofs.Lcache.findEvictable_some o.u hu
      exact ⟨r.v, rep_evictable r.u o.u gu.1 gu.2⟩
  | some i =>
    have gv := Silofs.Lcache.findEvictable_some o.v hv
    cases hu : t.u.findEvictable with
    | none => exact ⟨rep_evictable r.v o.v gv.1 gv.2, r.u⟩
    | some j =>
      have gu := Silofs.Lcache.findEvictable_some o.u hu
      exact ⟨rep_evictable r.v o.v gv.1 gv.2, rep_evictable r.u o.u gu.1 gu.2⟩

theorem rep_require {s : St} {t : Silofs.Lcache.St} (r : RepS s t) (o : OkS t) (n : Nat) :
    (s.require n).1 = (t.require n).1 ∧ RepS (s.require n).2 (t.require n).2 := by
  have r1 := rep_evictSome r o
  have o1 := (Silofs.Lcache.maint_evictSome o).ok
  have r2 := rep_evictSome r1 o1
  have o2 := (Silofs.Lcache.maint_evictSome o1).ok
  have r3 := rep_evictSome r2 o2
  have o3 := (Silofs.Lcache.maint_evictSome o2).ok
  have r4 := rep_evictSome r3 o3
  match n with
  | 0 => exact ⟨rfl, r⟩
  | 1 => exact ⟨rfl, r1⟩
  | 2 => exact ⟨rfl, r2⟩
  | 3 => exact ⟨rfl, r3⟩
  | n + 4 =>
    have e1 : s.require (n + 4) = (false, s.evictSome.evictSome.evictSome.evictSome) := by
      unfold St.require; rfl
    have e2 : t.require (n + 4) = (false, t.evictSome.evictSome.evictSome.evictSome) := by
      unfold Silofs.Lcache.St.require; rfl
    rw [e1, e2]; exact ⟨rfl, r4⟩

theorem rep_relaxLoop (now : Bool) (cnt : Nat) : ∀ (n i : Nat) {s : St} {t : Silofs.Lcache.St} (total : Nat), RepS s t → OkS t →
    (St.relaxLoop now cnt n i s total).2 = (Silofs.Lcache.St.relaxLoop now cnt n i t total).2 ∧
    RepS (St.relaxLoop now cnt n i s total).1 (Silofs.Lcache.St.relaxLoop now cnt n i t total).1
  | 0, _, _, _, _, r, _ => ⟨rfl, r⟩
  | n + 1, i, s, t, total, r, o => by
    obtain ⟨v1, v2⟩ := rep_shrink r.v o.v (i + 1) now
    obtain ⟨u1, u2⟩ := rep_shrink r.u o.u cnt now
    have mv := (Silofs.Lcache.maint_shrink o.v (i + 1) now).ok
    have mu := (Silofs.Lcache.maint_shrink o.u cnt now).ok
    unfold St.relaxLoop Silofs.Lcache.St.relaxLoop
    rw [v1, u1, r.u.size]
    split
    · split
      · exact ⟨rfl, ⟨v2, u2⟩⟩
      · exact rep_relaxLoop now cnt n _ _ ⟨v2, u2⟩ ⟨mv, mu⟩
    · exact rep_relaxLoop now cnt n _ _ ⟨v2, r.u⟩ ⟨mv, o.u⟩

theorem rep_relaxOverpop {s : St} {t : Silofs.Lcache.St} (r : RepS s t) (o : OkS t) : RepS s.relaxOverpop t.relaxOverpop := by
  unfold St.relaxOverpop Silofs.Lcache.St.relaxOverpop
  rw [overpop_eq r.v, overpop_eq r.u]
  refine ⟨?_, ?_⟩
  · dsimp only
    split
    · exact (rep_shrink r.v o.v _ true).2
    · exact r.v
  · dsimp only
    split
    · exact (rep_shrink r.u o.u _ true).2
    · exact r.u

theorem rep_relax {s : St} {t : Silofs.Lcache.St} (r : RepS s t) (o : OkS t) (pct : Nat) (f : RFlags) :
    RepS (s.relax pct f) (t.relax pct f) :=
  rep_relaxOverpop (rep_relaxLoop _ _ _ _ _ r o).2 (Silofs.Lcache.maint_relaxLoop _ _ _ _ _ _ o).ok

theorem rep_dropLoop : ∀ (n pre : Nat) {s : St} {t : Silofs.Lcache.St}, RepS s t → OkS t →
    RepS (St.dropLoop n pre s) (Silofs.Lcache.St.dropLoop n pre t)
  | 0, _, _, _, r, _ => r
  | n + 1, pre, s, t, r, o => by
    unfold St.dropLoop Silofs.Lcache.St.dropLoop
    rw [r.v.size, r.u.size]
    split
    · exact r
    · exact rep_dropLoop n _ ⟨rep_dropEvictable r.v o.v, rep_dropEvictable r.u o.u⟩ (Silofs.Lcache.maint_dropOnce o).ok

/-! ### The cache in use -/

structure RepW (w : World) (x : Silofs.Lcache.World) : Prop where
  s : RepS w.s x.s
  store : w.store = x.store

theorem RepW.hq {w : World} {x : Silofs.Lcache.World} (r : RepW w x) (v : Bool) : Rep (w.hq v) (x.hq v) := by
  cases v
  · exact r.s.u
  · exact r.s.v

theorem RepW.set {w : World} {x : Silofs.Lcache.World} (r : RepW w x) (v : Bool) {p : PQ} {h : HQ} (e : Rep p h) :
    RepW (w.setHq v p) (x.setHq v h) := by
  cases v
  · exact ⟨⟨r.s.v, e⟩, r.store⟩
  · exact ⟨⟨e, r.s.u⟩, r.store⟩

theorem rep_load {w : World} {x : Silofs.Lcache.World} (r : RepW w x) (iv : Silofs.Lcache.Inv x) (v : Bool) (k size : Nat)
    (b : Bool) (n : Nat) : (w.load v k size b n).1 = (x.load v k size b n).1 ∧ RepW (w.load v k size b n).2 (x.load v k size b n).2 := by
  have o := Silofs.Lcache.okS iv
  obtain ⟨g1, g2⟩ := rep_require r.s o n
  have o2 := (Silofs.Lcache.maint_require o n).ok
  have r2 : RepW { w with s := (w.s.require n).2 } { x with s := (x.s.require n).2 } := ⟨g2, r.store⟩
  have ok2 : Ok (({ x with s := (x.s.require n).2 } : Silofs.Lcache.World).hq v) := by
    cases v
    · exact o2.u
    · exact o2.v
  unfold World.load Silofs.Lcache.World.load
  rw [g1]
  split
  · have q := r2.set v (rep_create (r2.hq v) ok2 k size b (x.store v k))
    rw [(r2.hq v).next]
    have e : w.store v k = x.store v k := by rw [r.store]
    rw [e]
    exact ⟨rfl, q⟩
  · exact ⟨rfl, r2⟩

theorem rep_stage {w : World} {x : Silofs.Lcache.World} (r : RepW w x) (iv : Silofs.Lcache.Inv x) (v : Bool) (k size : Nat)
    (b : Bool) (n : Nat) : (w.stage v k size b n).1 = (x.stage v k size b n).1 ∧
      RepW (w.stage v k size b n).2 (x.stage v k size b n).2 := by
  have o := iv.ok v
  obtain ⟨g1, g2⟩ := rep_lookup (r.hq v) o k
  unfold World.stage Silofs.Lcache.World.stage
  rw [g1]
  rcases Silofs.Lcache.lookup_spec o k with ⟨h1, h2⟩ | ⟨i, h1, h2, h3⟩
  · rw [h2]
    rw [h2] at g2
    dsimp only at g2 ⊢
    have ee : x.setHq v (x.hq v) = x := by cases v <;> rfl
    rw [ee]
    have q := r.set v g2
    rw [ee] at q
    exact rep_load q iv v k size b n
  · rw [h2]
    dsimp only
    have fnd := (Silofs.Lcache.find_some o).mp h1
    have nf : (((x.hq v).lookup k).2.heap i).forgot = false := by
      rw [(h3.heap i).forgot]
      cases hf : ((x.hq v).heap i).forgot with
      | false => rfl
      | true => have := o.fm i fnd.1 hf; rw [this] at fnd; exact absurd fnd.2.1 (by decide)
    rw [g2.heap]
    have neg : ¬ ((((x.hq v).lookup k).2.heap i).forgot = true ∧ (((x.hq v).lookup k).2.heap i).refcnt = 0) := by
      intro h; rw [nf] at h; exact absurd h.1 (by decide)
    rw [if_neg neg, if_neg neg]
    exact ⟨rfl, r.set v g2⟩

/-- A legal request is legal with plain sequences. -/
theorem legal_to {w : World} {x : Silofs.Lcache.World} (r : RepW w x) (iv : Silofs.Lcache.Inv x) (op : Op) (hL : w.Legal op) :
    x.Legal op := by
  cases op with
  | stage v k s b n => exact hL
  | incref v i =>
    have h : (w.hq v).live i = true := hL
    rw [(r.hq v).live] at h; exact h
  | decref v i =>
    have h : (w.hq v).live i = true ∧ ((w.hq v).heap i).refcnt > 0 := hL
    rw [(r.hq v).live, (r.hq v).heap] at h; exact h
  | write v i d ow =>
    cases ow with
    | none =>
      have h : (w.hq v).live i = true ∧ ((w.hq v).heap i).mapped = true ∧ ∀ o, ((w.hq v).heap i).dq = .own o →
          (w.hq v).live o = true ∧ ((w.hq v).heap o).isInode = true := hL
      rw [(r.hq v).live, (r.hq v).heap] at h; exact h
    | some o =>
      have h : (w.hq v).live i = true ∧ ((w.hq v).heap i).mapped = true ∧ v = true ∧ (w.hq v).live o = true ∧
        ((w.hq v).heap o).isInode = true := hL
      rw [(r.hq v).live, (r.hq v).heap] at h; exact h
  | redirtify i =>
    have h : (w.hq true).live i = true ∧ ((w.hq true).heap i).mapped = true := hL
    rw [(r.hq true).live, (r.hq true).heap] at h; exact h
  | save v i =>
    have h : (w.hq v).live i = true ∧ ((w.hq v).heap i).inq = true := hL
    rw [(r.hq v).live, (r.hq v).heap] at h; exact h
  | forget v i =>
    have h : (w.hq v).live i = true ∧ (v = false → ((w.hq v).heap i).refcnt = 0) ∧
      ∀ j, (w.hq v).live j = true → ((w.hq v).heap j).inq = true → ((w.hq v).heap j).dq ≠ .own i := hL
    rw [(r.hq v).live, (r.hq v).heap] at h
    refine ⟨h.1, h.2.1, List.eq_nil_iff_forall_not_mem.mpr (fun j hj => ?_)⟩
    have := ((iv.ok v).qmem _ _).mp hj
    exact h.2.2 j this.1 this.2.1 this.2.2
  | opened i =>
    have h : (w.hq true).live i = true ∧ ((w.hq true).heap i).isInode = true := hL
    rw [(r.hq true).live, (r.hq true).heap] at h; exact h
  | closed i =>
    have h : (w.hq true).live i = true ∧ ((w.hq true).heap i).isInode = true ∧ ((w.hq true).heap i).nopen > 0 := hL
    rw [(r.hq true).live, (r.hq true).heap] at h; exact h
  | pin i =>
    have h : (w.hq true).live i = true := hL
    rw [(r.hq true).live] at h; exact h
  | unpin i =>
    have h : (w.hq true).live i = true := hL
    rw [(r.hq true).live] at h; exact h
  | relax p f => trivial
  | drop => trivial

theorem rep_step {w : World} {x : Silofs.Lcache.World} (r : RepW w x) (iv : Silofs.Lcache.Inv x) (op : Op) (hL : x.Legal op) :
    (w.step op).1 = (x.step op).1 ∧ RepW (w.step op).2 (x.step op).2 := by
  cases op with
  | stage v k s b n => exact rep_stage r iv v k s b n
  | incref v i => exact ⟨rfl, r.set v (rep_upd (r.hq v) i (fun e => { e with refcnt := e.refcnt + 1 }) rfl)⟩
  | decref v i => exact ⟨rfl, r.set v (rep_upd (r.hq v) i (fun e => { e with refcnt := e.refcnt - 1 }) rfl)⟩
  | write v i d ow =>
    refine ⟨rfl, r.set v ?_⟩
    have r1 := rep_upd (r.hq v) i (fun e => { e with data := d }) rfl
    have o1 : Ok ((x.hq v).upd i (fun e => { e with data := d })) :=
      Silofs.Lcache.ok_upd (iv.ok v) i _ rfl rfl rfl rfl ((iv.ok v).fm i hL.1) rfl (fun _ => rfl)
    have inode : ∀ o, (((x.hq v).upd i (fun e => { e with data := d })).heap o).isInode = ((x.hq v).heap o).isInode := by
      intro o
      show (if o = i then { (x.hq v).heap o with data := d } else (x.hq v).heap o).isInode = _
      split <;> rfl
    have dqe : (((x.hq v).upd i (fun e => { e with data := d })).heap i).dq = ((x.hq v).heap i).dq := by
      show (if i = i then { (x.hq v).heap i with data := d } else (x.hq v).heap i).dq = _
      rw [if_pos rfl]
    refine rep_dirtify r1 o1 ow hL.1 ?_
    cases ow with
    | none =>
      have h : ∀ o, ((x.hq v).heap i).dq = .own o → (x.hq v).live o = true ∧ ((x.hq v).heap o).isInode = true := hL.2.2
      intro o ho
      rw [dqe] at ho
      rw [inode]; exact h o ho
    | some o =>
      have h : v = true ∧ (x.hq v).live o = true ∧ ((x.hq v).heap o).isInode = true := hL.2.2
      refine ⟨h.2.1, ?_⟩
      rw [inode]; exact h.2.2
  | redirtify i =>
    refine ⟨rfl, r.set true ?_⟩
    have o := iv.ok true
    have hl : (x.hq true).live i = true := hL.1
    have r1 := rep_undirtify (r.hq true) o hl
    have o1 := Silofs.Lcache.ok_undirtify o hl
    have hl1 : ((x.hq true).undirtify i).live i = true := by rw [(Silofs.Lcache.undirtify_rest _ i).1]; exact hl
    have hq1 : (((x.hq true).undirtify i).heap i).inq = false := by rw [Silofs.Lcache.undirtify_heap, if_pos rfl]
    have ec : (w.hq true).classOf ((w.hq true).heap i).isInode = (x.hq true).classOf ((x.hq true).heap i).isInode := by
      unfold PQ.classOf HQ.classOf
      rw [(r.hq true).vkind, (r.hq true).heap]
    unfold PQ.redirtify HQ.redirtify
    rw [ec]
    have r2 := rep_setDq r1 i ((x.hq true).classOf ((x.hq true).heap i).isInode) hq1
    have o2 : Ok (((x.hq true).undirtify i).setDq i ((x.hq true).classOf ((x.hq true).heap i).isInode)) := by
      have q := Silofs.Lcache.ok_upd o1 i (fun e => { e with dq := (x.hq true).classOf ((x.hq true).heap i).isInode }) rfl rfl rfl rfl
        (o1.fm i hl1) rfl (fun hc => by rw [hq1] at hc; cases hc)
      unfold HQ.setDq
      have hc : (((x.hq true).undirtify i).crash || (((x.hq true).undirtify i).heap i).inq) =
          (((x.hq true).undirtify i).upd i fun e => { e with dq := (x.hq true).classOf ((x.hq true).heap i).isInode }).crash := by
        rw [hq1, Bool.or_false]; rfl
      rw [hc]; exact q
    refine rep_dirtify r2 o2 none hl1 (fun o ho => ?_)
    have hi : ((((x.hq true).undirtify i).setDq i ((x.hq true).classOf ((x.hq true).heap i).isInode)).heap i).dq =
        (x.hq true).classOf ((x.hq true).heap i).isInode := by
      show (if i = i then _ else _ : Elem).dq = _
      rw [if_pos rfl]
    rw [hi] at ho
    unfold HQ.classOf at ho
    split at ho
    · split at ho <;> cases ho
    · cases ho
  | save v i =>
    have r1 := r.set v (rep_undirtify (r.hq v) (iv.ok v) hL.1)
    refine ⟨rfl, ⟨r1.s, ?_⟩⟩
    show (fun v' k' => if v' = v ∧ k' = ((w.hq v).heap i).key then ((w.hq v).heap i).data else w.store v' k') =
      (fun v' k' => if v' = v ∧ k' = ((x.hq v).heap i).key then ((x.hq v).heap i).data else x.store v' k')
    rw [(r.hq v).heap, r.store]
  | forget v i =>
    refine ⟨rfl, r.set v (rep_forget (r.hq v) (iv.ok v) hL.1 (fun hk => hL.2.1 ?_) hL.2.2)⟩
    rw [iv.kind v] at hk; exact hk
  | opened i => exact ⟨rfl, r.set true (rep_upd (r.hq true) i (fun e => { e with nopen := e.nopen + 1 }) rfl)⟩
  | closed i => exact ⟨rfl, r.set true (rep_upd (r.hq true) i (fun e => { e with nopen := e.nopen - 1 }) rfl)⟩
  | pin i => exact ⟨rfl, r.set true (rep_upd (r.hq true) i (fun e => { e with pinned := true }) rfl)⟩
  | unpin i => exact ⟨rfl, r.set true (rep_upd (r.hq true) i (fun e => { e with pinned := false }) rfl)⟩
  | relax p f => exact ⟨rfl, ⟨rep_relax r.s (Silofs.Lcache.okS iv) p f, r.store⟩⟩
  | drop => exact ⟨rfl, ⟨rep_dropLoop 10 0 r.s (Silofs.Lcache.okS iv), r.store⟩⟩

/-! ### From the start -/

theorem rep_init (k : Bool) (hash : Nat → Nat) {n : Nat} (hn : 0 < n) : Rep (PQ.init k hash n) (HQ.init k hash n) where
  vkind := rfl
  hash := rfl
  nslots := rfl
  heap := rfl
  live := rfl
  next := rfl
  size := rfl
  accum := rfl
  lruSz := rfl
  dqSz _ := rfl
  crash := rfl
  pos := hn
  forest := by
    have hnil : ∀ a, Ls (HQ.init k hash n) a = [] := fun a => by cases a <;> rfl
    have self : ∀ a, Hd (HQ.init k hash n) a → (PQ.init k hash n).mem.lnk a = ⟨some a, some a⟩ := by
      intro a ha
      cases a with
      | slot s => exact if_pos ha
      | lruHd => rfl
      | dqHd q =>
        cases q with
        | own o => exact absurd ha.1 (by show ¬ false = true; decide)
        | unis => rfl
        | iis => rfl
        | vnis => rfl
      | htb i => exact ha.elim
      | lru i => exact ha.elim
      | dqe i => exact ha.elim
    have nofr : ∀ x, ¬ Fr (HQ.init k hash n) x := by
      intro x hx
      cases x with
      | htb i => exact absurd hx.1 (by show ¬ false = true; decide)
      | lru i => exact absurd hx.1 (by show ¬ false = true; decide)
      | dqe i => exact absurd hx.1 (by show ¬ false = true; decide)
      | slot s => exact hx
      | lruHd => exact hx
      | dqHd q => exact hx
    refine ⟨fun a ha => ?_, fun a b x _ _ h => ?_, fun a x _ h => ?_, fun x hx => absurd hx (nofr x), fun x hx => absurd hx (nofr x),
      fun x a hx => absurd hx (nofr x), rfl⟩
    · rw [hnil]
      have e := self a ha
      exact ⟨⟨⟨by rw [e], by rw [e]⟩, trivial⟩, List.nodup_cons.mpr ⟨fun h => (nomatch h), List.nodup_nil⟩⟩
    · rw [hnil] at h; cases h
    · rw [hnil] at h; cases h

theorem repW_init (hv hu : Nat → Nat) {nv nu : Nat} (h1 : 0 < nv) (h2 : 0 < nu) (store : Bool → Nat → Nat) :
    RepW (World.init hv hu nv nu store) (Silofs.Lcache.World.init hv hu nv nu store) :=
  ⟨⟨rep_init true hv h1, rep_init false hu h2⟩, rfl⟩

theorem rep_run : ∀ (ops : List Op) {w : World} {x : Silofs.Lcache.World}, RepW w x → Silofs.Lcache.Inv x → w.LegalAll ops →
    ∃ y, RepW (w.run ops).2 y ∧ Silofs.Lcache.Inv y ∧ x.LegalAll ops ∧ y = (x.run ops).2 ∧
      (w.run ops).1.map (·.map (·.2)) = (x.run ops).1 ∧ Runs x.abs w ops (w.run ops).1
  | [], w, x, r, iv, _ => ⟨x, r, iv, trivial, rfl, rfl, rfl⟩
  | op :: ops, w, x, r, iv, hL => by
    have l1 := legal_to r iv op hL.1
    obtain ⟨g1, g2⟩ := rep_step r iv op l1
    obtain ⟨s1, s2, s3⟩ := Silofs.Lcache.step_spec iv op l1
    obtain ⟨y, h1, h2, h3, h4, h5, h6⟩ := rep_run ops g2 s1 hL.2
    have ea : w.absOp op = x.absOp op := by
      cases op with
      | write v i d o => show MOp.write _ _ _ = MOp.write _ _ _; rw [(r.hq v).heap]
      | save v i => show MOp.save _ _ = MOp.save _ _; rw [(r.hq v).heap]
      | forget v i =>
        show (if ((w.hq v).heap i).mapped then MOp.discard v ((w.hq v).heap i).key else .none) =
          (if ((x.hq v).heap i).mapped then MOp.discard v ((x.hq v).heap i).key else .none)
        rw [(r.hq v).heap]
      | stage v k s b n => rfl
      | incref v i => rfl
      | decref v i => rfl
      | redirtify i => rfl
      | opened i => rfl
      | closed i => rfl
      | pin i => rfl
      | unpin i => rfl
      | relax p f => rfl
      | drop => rfl
    refine ⟨y, h1, h2, ⟨l1, h3⟩, h4, ?_, _, _, rfl, ?_, ?_⟩
    · show (w.step op).1.map (·.2) :: _ = (x.step op).1.map (·.2) :: _
      rw [g1]
      exact congrArg _ h5
    · rw [ea, g1]; exact s3
    · rw [ea, ← s2]; exact h6

/-- A state which is reached from an empty cache by legal requests. -/
def Reach (w : World) : Prop := ∃ hv hu nv nu store ops, 0 < nv ∧ 0 < nu ∧ (World.init hv hu nv nu store).LegalAll ops ∧
  w = ((World.init hv hu nv nu store).run ops).2

theorem Reach.rep {w : World} (h : Reach w) : ∃ x, RepW w x ∧ Silofs.Lcache.Inv x := by
  obtain ⟨hv, hu, nv, nu, store, ops, h1, h2, h3, rfl⟩ := h
  obtain ⟨y, g1, g2, _⟩ := rep_run ops (repW_init hv hu h1 h2 store) (Silofs.Lcache.inv_init hv hu nv nu store) h3
  exact ⟨y, g1, g2⟩

/-- **C69** The cache of objects, with hash chains, LRU queue and queues of changed objects as links in memory: whatever is
asked of it, the answers are those of one current and one stored content of each object; no assertion fails, no null
pointer is followed, nothing is taken for an object which is none, and every walk ends. -/
theorem C69_cache_transparent (hv hu : Nat → Nat) (nv nu : Nat) (h1 : 0 < nv) (h2 : 0 < nu) (store : Bool → Nat → Nat)
    (ops : List Op) (hL : (World.init hv hu nv nu store).LegalAll ops) :
    Runs ⟨store, store⟩ (World.init hv hu nv nu store) ops ((World.init hv hu nv nu store).run ops).1 ∧
    ∀ v, (((World.init hv hu nv nu store).run ops).2.hq v).crash = false ∧
      (((World.init hv hu nv nu store).run ops).2.hq v).mem.bad = false := by
  obtain ⟨y, g1, g2, _, _, _, g6⟩ := rep_run ops (repW_init hv hu h1 h2 store) (Silofs.Lcache.inv_init hv hu nv nu store) hL
  refine ⟨?_, fun v => ⟨(g1.hq v).crash, (g1.hq v).forest.ok⟩⟩
  have e : (Silofs.Lcache.World.init hv hu nv nu store).abs = ⟨store, store⟩ := by
    apply Silofs.Lcache.Mem.ext'
    · intro v k; cases v <;> rfl
    · intro v k; rfl
  rw [e] at g6; exact g6

/-- **C69** With plain sequences in place of links the same requests are legal and get the same contents. -/
theorem C69_cache_same (hv hu : Nat → Nat) (nv nu : Nat) (h1 : 0 < nv) (h2 : 0 < nu) (store : Bool → Nat → Nat)
    (ops : List Op) (hL : (World.init hv hu nv nu store).LegalAll ops) :
    (Silofs.Lcache.World.init hv hu nv nu store).LegalAll ops ∧
    ((World.init hv hu nv nu store).run ops).1.map (·.map (·.2)) = ((Silofs.Lcache.World.init hv hu nv nu store).run ops).1 := by
  obtain ⟨y, _, _, g3, _, g5, _⟩ := rep_run ops (repW_init hv hu h1 h2 store) (Silofs.Lcache.inv_init hv hu nv nu store) hL
  exact ⟨g3, g5⟩

theorem holds_of {p : PQ} {h : HQ} (r : Rep p h) {a : Addr} (ha : Hd h a) : p.Holds a (Ls h a) := fun n hn =>
  ⟨Silofs.Lk.ring_fwd (r.forest.ring a ha) hn, Silofs.Lk.ring_bwd (r.forest.ring a ha) hn⟩

/-- **C69** The LRU queue: its links lead through every object in memory once, forwards and backwards; its count is their
number. -/
theorem C69_lru_queue {w : World} (h : Reach w) (v : Bool) : ∃ l : List Nat, (w.hq v).Holds .lruHd (l.map .lru) ∧ l.Nodup ∧
    (w.hq v).lruSz = l.length ∧ ∀ i, i ∈ l ↔ (w.hq v).live i = true := by
  obtain ⟨x, r, iv⟩ := h.rep
  have o := iv.ok v
  refine ⟨(x.hq v).lru, holds_of (r.hq v) (a := .lruHd) trivial, o.lnodup, (r.hq v).lruSz, fun i => ?_⟩
  rw [(r.hq v).live]; exact o.llive i

/-- **C69** Every slot of the hash table: its links lead through the mapped objects whose key belongs there, once each. -/
theorem C69_slots {w : World} (h : Reach w) (v : Bool) (s : Nat) (hs : s < (w.hq v).nslots) : ∃ l : List Nat,
    (w.hq v).Holds (.slot s) (l.map .htb) ∧ l.Nodup ∧
    ∀ i, i ∈ l ↔ (w.hq v).live i = true ∧ ((w.hq v).heap i).mapped = true ∧ (w.hq v).hash ((w.hq v).heap i).key % (w.hq v).nslots = s := by
  obtain ⟨x, r, iv⟩ := h.rep
  have o := iv.ok v
  rw [(r.hq v).nslots] at hs
  refine ⟨(x.hq v).htbl s, holds_of (r.hq v) (a := .slot s) hs, o.tnodup s, fun i => ?_⟩
  rw [(r.hq v).live, (r.hq v).heap, (r.hq v).hash, (r.hq v).nslots]; exact o.tmem s i

/-- **C69** Every queue of changed objects, those of the cache and those within inodes: its links lead through the changed
objects which name it, once each; its counts are their number and the sum of their sizes. -/
theorem C69_dirty_queues {w : World} (h : Reach w) (v : Bool) (q : Dq)
    (hq : ∀ i, q = .own i → (w.hq v).live i = true ∧ ((w.hq v).heap i).isInode = true) : ∃ l : List Nat,
    (w.hq v).Holds (.dqHd q) (l.map .dqe) ∧ l.Nodup ∧ (w.hq v).dqSz q = l.length ∧
    (w.hq v).accum q = (l.map fun i => ((w.hq v).heap i).size).sum ∧
    ∀ i, i ∈ l ↔ (w.hq v).live i = true ∧ ((w.hq v).heap i).inq = true ∧ ((w.hq v).heap i).dq = q := by
  obtain ⟨x, r, iv⟩ := h.rep
  have o := iv.ok v
  rw [(r.hq v).live, (r.hq v).heap] at hq
  refine ⟨(x.hq v).dq q, holds_of (r.hq v) (a := .dqHd q) (hd_dq hq), o.qnodup q, (r.hq v).dqSz q, ?_, fun i => ?_⟩
  · rw [(r.hq v).accum, (r.hq v).heap]; exact o.accum q
  · rw [(r.hq v).live, (r.hq v).heap]; exact o.qmem q i

/-- **C69** A look up finds an object iff it is in memory, mapped, and has that key; it ends, and never takes the head of a
list for an object. -/
theorem C69_find {w : World} (h : Reach w) (v : Bool) (k : Nat) : (w.hq v).find k ≠ .wild ∧
    ∀ i, (w.hq v).find k = .elem i ↔ (w.hq v).live i = true ∧ ((w.hq v).heap i).mapped = true ∧ ((w.hq v).heap i).key = k := by
  obtain ⟨x, r, iv⟩ := h.rep
  have o := iv.ok v
  rw [(r.hq v).live, (r.hq v).heap, find_eq (r.hq v) o]
  refine ⟨?_, fun i => ?_⟩
  · cases (x.hq v).find k <;> exact fun e => by cases e
  · rw [← Silofs.Lcache.find_some o]
    cases (x.hq v).find k with
    | none => exact ⟨fun e => (nomatch e), fun e => (nomatch e)⟩
    | some j => exact ⟨fun e => by cases e; rfl, fun e => by cases e; rfl⟩

/-- **C69** An object which is not in any list has its link pointing to itself, so that taking it off again harms nothing. -/
theorem C69_unlinked {w : World} (h : Reach w) (v : Bool) (i : Nat) (hl : (w.hq v).live i = true) :
    (((w.hq v).heap i).mapped = false → (w.hq v).mem.lnk (.htb i) = ⟨some (.htb i), some (.htb i)⟩) ∧
    (((w.hq v).heap i).inq = false → (w.hq v).mem.lnk (.dqe i) = ⟨some (.dqe i), some (.dqe i)⟩) := by
  obtain ⟨x, r, iv⟩ := h.rep
  have o := iv.ok v
  rw [(r.hq v).live] at hl
  rw [(r.hq v).heap]
  refine ⟨fun hm => (r.hq v).forest.self _ ⟨hl, fun s hc => ?_⟩, fun hm => (r.hq v).forest.self _ ⟨hl, fun q hc => ?_⟩⟩
  · have := ((o.tmem s i).mp hc).2.1; rw [hm] at this; cases this
  · have := ((o.qmem q i).mp hc).2.1; rw [hm] at this; cases this

/-! ### A run -/

def demo : List Op :=
  [.stage true 1 4096 true 0, .opened 0, .incref true 0, .write true 0 55 none, .stage true 9 512 false 0,
   .write true 1 66 (some 0), .stage true 3 512 false 0, .relax 90 ⟨true, false, false, false⟩, .save true 1, .decref true 0, .drop]

theorem demo_legal : (World.init id id 8 8 (fun _ k => 100 + k)).LegalAll demo := by
  refine ⟨fun _ => rfl, ⟨rfl, rfl⟩, rfl, ⟨rfl, rfl, fun o ho => ?_⟩, fun h => (nomatch h), ⟨rfl, rfl, rfl, rfl, rfl⟩,
    fun h => (nomatch h), trivial, ⟨rfl, rfl⟩, ⟨rfl, ?_⟩, trivial, trivial⟩
  · have e : ((((((World.init id id 8 8 fun _ k => 100 + k).step (.stage true 1 4096 true 0)).2.step (.opened 0)).2.step
      (.incref true 0)).2.hq true).heap 0).dq = Dq.iis := rfl
    have ho' : Dq.iis = Dq.own o := e.symm.trans ho
    cases ho'
  · exact (by decide +kernel)

/-- The hypotheses of the theorems above are met by this run: objects are loaded, changed, evicted. -/
example : ((World.init id id 8 8 (fun _ k => 100 + k)).run demo).1 =
      [some (0, 101), none, none, none, some (1, 109), none, some (2, 103), none, none, none, none] ∧
    (((World.init id id 8 8 (fun _ k => 100 + k)).run demo).2.hq true).live 2 = false ∧
    (((World.init id id 8 8 (fun _ k => 100 + k)).run demo).2.hq true).find 1 = .elem 0 := by
  decide +kernel

end Silofs.Hmq
