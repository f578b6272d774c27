import Verif.Props.LcacheStep
/-
The in-memory cache refines a map from keys to contents.
-/
set_option linter.unusedSimpArgs false
namespace Silofs.Lcache

structure Inv (w : World) : Prop where
  ok : ∀ v, Ok (w.hq v)
  kind : ∀ v, (w.hq v).vkind = v
  clean : ∀ v, Clean (w.hq v) (w.store v)

theorem hq_set (w : World) (v v' : Bool) (h : HQ) : (w.setHq v h).hq v' = if v' = v then h else w.hq v' := by
  cases v <;> cases v' <;> rfl

theorem store_set (w : World) (v : Bool) (h : HQ) : (w.setHq v h).store = w.store := by
  cases v <;> rfl

theorem hq_store (w : World) (st : Bool → Nat → Nat) (v : Bool) : ({ w with store := st } : World).hq v = w.hq v := by
  cases v <;> rfl

theorem abs_cur (w : World) (v : Bool) (k : Nat) : w.abs.cur v k = curOf (w.hq v) (w.store v) k := rfl

theorem Mem.ext' {m m' : Mem} (h1 : ∀ v k, m.cur v k = m'.cur v k) (h2 : ∀ v k, m.saved v k = m'.saved v k) : m = m' := by
  cases m; cases m'
  have e1 := funext fun v => funext fun k => h1 v k
  have e2 := funext fun v => funext fun k => h2 v k
  dsimp only at e1 e2
  rw [e1, e2]

theorem inv_set {w : World} (iv : Inv w) (v : Bool) {h : HQ} (o : Ok h) (hk : h.vkind = v) (cl : Clean h (w.store v)) :
    Inv (w.setHq v h) := by
  refine ⟨fun v' => ?_, fun v' => ?_, fun v' => ?_⟩ <;> rw [hq_set]
  · split
    · exact o
    · exact iv.ok v'
  · split
    · rename_i hv; rw [hv]; exact hk
    · exact iv.kind v'
  · rw [store_set]
    split
    · rename_i hv; rw [hv]; exact cl
    · exact iv.clean v'

/-- A change of one map which shows nowhere. -/
theorem set_same {w : World} (v : Bool) {h : HQ} (hc : ∀ k, curOf h (w.store v) k = curOf (w.hq v) (w.store v) k) :
    (w.setHq v h).abs = w.abs := by
  apply Mem.ext'
  · intro v' k
    rw [abs_cur, abs_cur, hq_set, store_set]
    by_cases hv : v' = v
    · rw [if_pos hv, hv]; exact hc k
    · rw [if_neg hv]
  · intro v' k
    show (w.setHq v h).store v' k = w.store v' k
    rw [store_set]

/-- An update of fields which are neither key, content nor state in the lists. -/
theorem upd_plain {w : World} (iv : Inv w) (v : Bool) (i : Nat) (f : Elem → Elem)
    (hf : (f ((w.hq v).heap i)).key = ((w.hq v).heap i).key ∧ (f ((w.hq v).heap i)).size = ((w.hq v).heap i).size ∧
      (f ((w.hq v).heap i)).isInode = ((w.hq v).heap i).isInode ∧ (f ((w.hq v).heap i)).mapped = ((w.hq v).heap i).mapped ∧
      (f ((w.hq v).heap i)).forgot = ((w.hq v).heap i).forgot ∧ (f ((w.hq v).heap i)).inq = ((w.hq v).heap i).inq ∧
      (f ((w.hq v).heap i)).dq = ((w.hq v).heap i).dq ∧ (f ((w.hq v).heap i)).data = ((w.hq v).heap i).data)
    (hl : (w.hq v).live i = true) :
    Inv (w.setHq v ((w.hq v).upd i f)) ∧ (w.setHq v ((w.hq v).upd i f)).abs = w.abs := by
  obtain ⟨h1, h2, h3, h4, h5, h6, h7, h8⟩ := hf
  have o := iv.ok v
  have o' : Ok ((w.hq v).upd i f) :=
    ok_upd o i f h1 h2 h3 h4 (fun h => o.fm i hl (h5.symm.trans h)) h6 (fun _ => h7)
  have hh : ∀ j, (((w.hq v).upd i f).heap j).key = ((w.hq v).heap j).key ∧
      (((w.hq v).upd i f).heap j).mapped = ((w.hq v).heap j).mapped ∧
      (((w.hq v).upd i f).heap j).inq = ((w.hq v).heap j).inq ∧
      (((w.hq v).upd i f).heap j).data = ((w.hq v).heap j).data := by
    intro j
    show (if j = i then f ((w.hq v).heap j) else (w.hq v).heap j).key = _ ∧
      (if j = i then f ((w.hq v).heap j) else (w.hq v).heap j).mapped = _ ∧
      (if j = i then f ((w.hq v).heap j) else (w.hq v).heap j).inq = _ ∧
      (if j = i then f ((w.hq v).heap j) else (w.hq v).heap j).data = _
    by_cases hj : j = i
    · rw [if_pos hj, hj]; exact ⟨h1, h4, h6, h8⟩
    · rw [if_neg hj]; exact ⟨rfl, rfl, rfl, rfl⟩
  refine ⟨inv_set iv v o' (iv.kind v) ?_, set_same v fun k => cur_at o o' _ k ?_ ?_⟩
  · intro j
    rw [(hh j).1, (hh j).2.1, (hh j).2.2.1, (hh j).2.2.2]
    exact iv.clean v j
  · intro j a b c
    rw [(hh j).1, (hh j).2.1, (hh j).2.2.2]; exact ⟨a, b, c, rfl⟩
  · intro j a b c
    rw [(hh j).2.1] at b; rw [(hh j).1] at c
    exact ⟨a, b, c⟩

theorem hq_ext {w w' : World} (h : w'.s = w.s) (v : Bool) : w'.hq v = w.hq v := by
  unfold World.hq; rw [h]

/-- Making room shows nowhere. -/
theorem maintS_inv {w : World} (iv : Inv w) {s : St} (m : MaintS w.s s) :
    Inv { w with s := s } ∧ ({ w with s := s } : World).abs = w.abs := by
  have hm : ∀ v, Maint (w.hq v) (({ w with s := s } : World).hq v) := by
    intro v; cases v
    · exact m.u
    · exact m.v
  refine ⟨⟨fun v => (hm v).ok, fun v => (hm v).vkind.trans (iv.kind v), fun v => clean_maint (hm v) (iv.clean v)⟩, ?_⟩
  apply Mem.ext'
  · intro v k
    rw [abs_cur, abs_cur]
    exact cur_maint (iv.ok v) (hm v) (iv.clean v) k
  · intro v k; rfl

theorem okS {w : World} (iv : Inv w) : OkS w.s := ⟨iv.ok true, iv.ok false⟩

/-! ### Stage -/

theorem load_spec {w : World} (iv : Inv w) (v : Bool) (k size : Nat) (b : Bool) (fails : Nat)
    (hf : (w.hq v).find k = none) :
    Inv (w.load v k size b fails).2 ∧ (w.load v k size b fails).2.abs = w.abs ∧
    ∀ i d, (w.load v k size b fails).1 = some (i, d) → d = w.abs.cur v k ∧
      ((w.load v k size b fails).2.hq v).live i = true ∧
      (((w.load v k size b fails).2.hq v).heap i).key = k ∧
      (((w.load v k size b fails).2.hq v).heap i).mapped = true ∧
      (((w.load v k size b fails).2.hq v).heap i).data = d := by
  have mr := maint_require (okS iv) fails
  obtain ⟨iv1, ab1⟩ := maintS_inv iv mr
  have hcur : w.abs.cur v k = w.store v k := by rw [abs_cur]; unfold curOf; rw [hf]
  have hmv : Maint (w.hq v) (({ w with s := (w.s.require fails).2 } : World).hq v) := by
    cases v
    · exact mr.u
    · exact mr.v
  unfold World.load
  generalize hw1 : ({ w with s := (w.s.require fails).2 } : World) = w1 at iv1 ab1 hmv ⊢
  have hst : w1.store = w.store := by rw [← hw1]
  by_cases hr : (w.s.require fails).1 = true
  · rw [if_pos hr]
    have hf1 : (w1.hq v).find k = none := by
      rw [find_none hmv.ok]
      intro j a b c
      rw [(hmv.heap j a).mapped] at b
      rw [(hmv.heap j a).key] at c
      exact (find_none (iv.ok v)).mp hf j (hmv.live j a) b c
    have oc := ok_create (iv1.ok v) k size b (w.store v k) hf1
    obtain ⟨hN, hO⟩ := create_heap (w1.hq v) k size b (w.store v k)
    have hlive := create_live (w1.hq v) k size b (w.store v k)
    have hn : ∀ j, (w1.hq v).live j = true → j ≠ (w1.hq v).next := fun j hj he =>
      absurd ((iv1.ok v).lt j hj) (by rw [he]; exact Nat.lt_irrefl _)
    refine ⟨inv_set iv1 v oc (iv1.kind v) ?_, ?_, ?_⟩
    · intro j hj
      rcases (hlive j).mp hj with hj' | hj'
      · rw [hj', hN, hst]; exact fun _ _ => rfl
      · rw [hO j (hn j hj')]; exact iv1.clean v j hj'
    · rw [← ab1]
      refine set_same v fun k' => ?_
      by_cases hk : k' = k
      · rw [hk, cur_some oc _ ((hlive _).mpr (Or.inl rfl)) (by rw [hN]) (by rw [hN]), hN]
        show w.store v k = curOf (w1.hq v) (w1.store v) k
        unfold curOf
        rw [hf1, hst]
      · refine cur_at (iv1.ok v) oc _ k' ?_ ?_
        · intro j a b c
          rw [hO j (hn j a)]
          exact ⟨(hlive j).mpr (Or.inr a), b, c, rfl⟩
        · intro j a b c
          rcases (hlive j).mp a with hj' | hj'
          · rw [hj', hN] at c; exact absurd c.symm hk
          · rw [hO j (hn j hj')] at b c
            exact ⟨hj', b, c⟩
    · intro i d hd
      cases hd
      refine ⟨hcur.symm, ?_⟩
      dsimp only
      rw [hq_set, if_pos rfl, hN]
      exact ⟨(hlive _).mpr (Or.inl rfl), rfl, rfl, rfl⟩
  · rw [if_neg hr]
    exact ⟨iv1, ab1, fun i d hd => by cases hd⟩

theorem lookup_spec {h : HQ} (o : Ok h) (k : Nat) :
    (h.find k = none ∧ h.lookup k = (none, h)) ∨
    (∃ i, h.find k = some i ∧ (h.lookup k).1 = some i ∧ Reord h (h.lookup k).2) := by
  unfold HQ.lookup
  cases hx : h.find k with
  | none => exact Or.inl ⟨rfl, rfl⟩
  | some i =>
    obtain ⟨a, b, c⟩ := (find_some o).mp hx
    have e : ({ h with crash := h.crash || !(h.heap i).mapped } : HQ) = h := by rw [b]; simp
    refine Or.inr ⟨i, rfl, rfl, ?_⟩
    dsimp only
    rw [e]
    exact reord_promote false o a

theorem stage_spec {w : World} (iv : Inv w) (v : Bool) (k size : Nat) (b : Bool) (fails : Nat) :
    Inv (w.stage v k size b fails).2 ∧ (w.stage v k size b fails).2.abs = w.abs ∧
    ∀ i d, (w.stage v k size b fails).1 = some (i, d) → d = w.abs.cur v k ∧
      ((w.stage v k size b fails).2.hq v).live i = true ∧
      (((w.stage v k size b fails).2.hq v).heap i).key = k ∧
      (((w.stage v k size b fails).2.hq v).heap i).mapped = true ∧
      (((w.stage v k size b fails).2.hq v).heap i).data = d := by
  have o := iv.ok v
  rcases lookup_spec o k with ⟨hf, hl⟩ | ⟨i, hf, hl, r⟩
  · have e : w.stage v k size b fails = (w.setHq v (w.hq v)).load v k size b fails := by
      unfold World.stage; rw [hl]
    have e2 : w.setHq v (w.hq v) = w := by cases v <;> rfl
    rw [e, e2]
    exact load_spec iv v k size b fails hf
  · obtain ⟨a, bm, c⟩ := (find_some o).mp hf
    have hfg : (((w.hq v).lookup k).2.heap i).forgot = false := by
      rw [(r.heap i).forgot]
      cases hx : ((w.hq v).heap i).forgot with
      | false => rfl
      | true => have := o.fm i a hx; rw [bm] at this; cases this
    have m := r.maint o
    have e : w.stage v k size b fails =
        (some (i, (((w.hq v).lookup k).2.heap i).data), w.setHq v ((w.hq v).lookup k).2) := by
      unfold World.stage
      rw [hl]
      dsimp only
      rw [if_neg (by rw [hfg]; exact fun hc => by cases hc.1)]
    rw [e]
    refine ⟨inv_set iv v m.ok (m.vkind.trans (iv.kind v)) (clean_maint m (iv.clean v)),
      set_same v (cur_maint o m (iv.clean v)), ?_⟩
    intro j d hd
    cases hd
    rw [hq_set, if_pos rfl, r.live, (r.heap i).key, (r.heap i).mapped, (r.heap i).data, abs_cur,
      cur_some o _ a bm c]
    exact ⟨rfl, a, c, bm, rfl⟩

/-! ### Write, save, forget -/

theorem write_spec {w : World} (iv : Inv w) (v : Bool) (i d : Nat) (owner : Option Nat)
    (hL : w.Legal (.write v i d owner)) :
    Inv (w.step (.write v i d owner)).2 ∧
    (w.step (.write v i d owner)).2.abs = w.abs.step (.write v ((w.hq v).heap i).key d) := by
  obtain ⟨hl, hm, hw⟩ := hL
  have o := iv.ok v
  have o1 : Ok ((w.hq v).upd i fun e => { e with data := d }) :=
    ok_upd o i _ rfl rfl rfl rfl (fun h => o.fm i hl h) rfl (fun _ => rfl)
  have hi1 : ((w.hq v).upd i fun e => { e with data := d }).heap i = { (w.hq v).heap i with data := d } := if_pos rfl
  have hj1 : ∀ j, j ≠ i → ((w.hq v).upd i fun e => { e with data := d }).heap j = (w.hq v).heap j :=
    fun j hj => if_neg hj
  have hin : ∀ x, (((w.hq v).upd i fun e => { e with data := d }).heap x).isInode = ((w.hq v).heap x).isInode := by
    intro x
    by_cases hx : x = i
    · rw [hx, hi1]
    · rw [hj1 x hx]
  have o2 : Ok (((w.hq v).upd i fun e => { e with data := d }).dirtify i owner) := by
    refine ok_dirtify o1 owner hl (by rw [hi1]; exact hm) ?_
    cases owner with
    | none => intro x hx; rw [hi1] at hx; rw [hin]; exact hw x hx
    | some x => show _ ∧ _; rw [hin]; exact hw.2
  have D := fun j => dirtify_heap ((w.hq v).upd i fun e => { e with data := d }) i j owner
  generalize hH : ((w.hq v).upd i fun e => { e with data := d }).dirtify i owner = H at o2 D
  have hstep : (w.step (.write v i d owner)).2 = w.setHq v H := by rw [← hH]; rfl
  rw [hstep]
  have dk : ∀ j, (H.heap j).key = ((w.hq v).heap j).key := by
    intro j; rw [(D j).1]
    by_cases hj : j = i
    · rw [hj, hi1]
    · rw [hj1 j hj]
  have dm : ∀ j, (H.heap j).mapped = ((w.hq v).heap j).mapped := by
    intro j; rw [(D j).2.2.2.2.2.2.2.1]
    by_cases hj : j = i
    · rw [hj, hi1]
    · rw [hj1 j hj]
  have ddi : (H.heap i).data = d := by rw [(D i).2.2.2.1, hi1]
  have ddj : ∀ j, j ≠ i → (H.heap j).data = ((w.hq v).heap j).data := by
    intro j hj; rw [(D j).2.2.2.1, hj1 j hj]
  have dq' : ∀ j, (H.heap j).inq = false → j ≠ i ∧ ((w.hq v).heap j).inq = false := by
    intro j hq
    rw [(D j).2.2.2.2.2.2.2.2.1] at hq
    by_cases hj : j = i
    · rw [if_pos hj] at hq; cases hq
    · rw [if_neg hj, hj1 j hj] at hq; exact ⟨hj, hq⟩
  have dl : H.live = (w.hq v).live := (D i).2.2.2.2.2.2.2.2.2.1
  have dv : H.vkind = (w.hq v).vkind := (D i).2.2.2.2.2.2.2.2.2.2
  refine ⟨inv_set iv v o2 (dv.trans (iv.kind v)) ?_, ?_⟩
  · intro j hj hmj hqj
    obtain ⟨hne, hq0⟩ := dq' j hqj
    rw [dl] at hj; rw [dm] at hmj
    rw [ddj j hne, dk]
    exact iv.clean v j hj hmj hq0
  · apply Mem.ext'
    · intro v' k
      show _ = put w.abs.cur v ((w.hq v).heap i).key d v' k
      unfold put
      rw [abs_cur, hq_set, store_set]
      by_cases hv : v' = v
      · rw [if_pos hv, hv]
        by_cases hk : k = ((w.hq v).heap i).key
        · rw [if_pos ⟨rfl, hk⟩, cur_some o2 _ (i := i) (by rw [dl]; exact hl) (by rw [dm]; exact hm) (by rw [dk, hk]), ddi]
        · rw [if_neg (fun h => hk h.2), abs_cur]
          refine cur_at o o2 _ k ?_ ?_
          · intro j a b c
            rw [dl, dm, dk, ddj j (fun h => hk (by rw [← c, h]))]
            exact ⟨a, b, c, rfl⟩
          · intro j a b c
            rw [dl] at a; rw [dm] at b; rw [dk] at c
            exact ⟨a, b, c⟩
      · rw [if_neg hv, if_neg (fun h => hv h.1), abs_cur]
    · intro v' k
      show (w.setHq v H).store v' k = w.store v' k
      rw [store_set]

theorem redirtify_spec {w : World} (iv : Inv w) (i : Nat) (hL : w.Legal (.redirtify i)) :
    Inv (w.step (.redirtify i)).2 ∧ (w.step (.redirtify i)).2.abs = w.abs := by
  obtain ⟨hl, hm⟩ := hL
  have o := iv.ok true
  have o1 := ok_undirtify o hl
  have e1 := undirtify_rest (w.hq true) i
  have hheap := undirtify_heap (w.hq true) i
  have hq1 : ((w.hq true).undirtify i).heap i = { (w.hq true).heap i with inq := false } := by
    rw [hheap, if_pos rfl]
  generalize hcl : (w.hq true).classOf ((w.hq true).heap i).isInode = c
  have hcno : ∀ x, c ≠ .own x := by
    intro x; rw [← hcl]; unfold HQ.classOf; split
    · split <;> (intro h; cases h)
    · intro h; cases h
  have o2 : Ok (((w.hq true).undirtify i).setDq i c) := by
    have o3 := ok_upd o1 i (fun e => { e with dq := c }) rfl rfl rfl rfl
      (o1.fm i (by rw [e1.1]; exact hl)) rfl (fun hc => by rw [hq1] at hc; cases hc)
    unfold HQ.setDq
    have hc : (((w.hq true).undirtify i).crash || (((w.hq true).undirtify i).heap i).inq) =
        (((w.hq true).undirtify i).upd i fun e => { e with dq := c }).crash := by
      rw [hq1, Bool.or_false]; rfl
    rw [hc]; exact o3
  have hi2 : (((w.hq true).undirtify i).setDq i c).heap i = { (w.hq true).heap i with inq := false, dq := c } := by
    show (if i = i then { ((w.hq true).undirtify i).heap i with dq := c } else _) = _
    rw [if_pos rfl, hq1]
  have hj2 : ∀ j, j ≠ i → (((w.hq true).undirtify i).setDq i c).heap j = (w.hq true).heap j := by
    intro j hj
    show (if j = i then _ else ((w.hq true).undirtify i).heap j) = _
    rw [if_neg hj, hheap, if_neg hj]
  have hl2 : (((w.hq true).undirtify i).setDq i c).live = (w.hq true).live := e1.1
  have o3 : Ok ((((w.hq true).undirtify i).setDq i c).dirtify i none) := by
    refine ok_dirtify o2 none (by rw [hl2]; exact hl) (by rw [hi2]; exact hm) ?_
    intro x hx; rw [hi2] at hx; exact absurd hx (hcno x)
  have D := fun j => dirtify_heap (((w.hq true).undirtify i).setDq i c) i j none
  generalize hH : (((w.hq true).undirtify i).setDq i c).dirtify i none = H at o3 D
  have hstep : (w.step (.redirtify i)).2 = w.setHq true H := by
    rw [← hH, ← hcl]; rfl
  rw [hstep]
  have dk : ∀ j, (H.heap j).key = ((w.hq true).heap j).key := by
    intro j; rw [(D j).1]
    by_cases hj : j = i
    · rw [hj, hi2]
    · rw [hj2 j hj]
  have dm : ∀ j, (H.heap j).mapped = ((w.hq true).heap j).mapped := by
    intro j; rw [(D j).2.2.2.2.2.2.2.1]
    by_cases hj : j = i
    · rw [hj, hi2]
    · rw [hj2 j hj]
  have dd : ∀ j, (H.heap j).data = ((w.hq true).heap j).data := by
    intro j; rw [(D j).2.2.2.1]
    by_cases hj : j = i
    · rw [hj, hi2]
    · rw [hj2 j hj]
  have dq' : ∀ j, (H.heap j).inq = false → ((w.hq true).heap j).inq = false := by
    intro j hq
    rw [(D j).2.2.2.2.2.2.2.2.1] at hq
    by_cases hj : j = i
    · rw [if_pos hj] at hq; cases hq
    · rw [if_neg hj, hj2 j hj] at hq; exact hq
  have dl : H.live = (w.hq true).live := (D i).2.2.2.2.2.2.2.2.2.1.trans hl2
  have dv : H.vkind = (w.hq true).vkind := (D i).2.2.2.2.2.2.2.2.2.2.trans e1.2.2.2.2.2.1
  refine ⟨inv_set iv true o3 (dv.trans (iv.kind true)) ?_, set_same true fun k => cur_at o o3 _ k ?_ ?_⟩
  · intro j hj hmj hqj
    rw [dl] at hj; rw [dm] at hmj
    rw [dd, dk]
    exact iv.clean true j hj hmj (dq' j hqj)
  · intro j a b c
    rw [dl, dm, dk, dd]; exact ⟨a, b, c, rfl⟩
  · intro j a b c
    rw [dl] at a; rw [dm] at b; rw [dk] at c
    exact ⟨a, b, c⟩

theorem save_spec {w : World} (iv : Inv w) (v : Bool) (i : Nat) (hL : w.Legal (.save v i)) :
    Inv (w.step (.save v i)).2 ∧
    (w.step (.save v i)).2.abs = w.abs.step (.save v ((w.hq v).heap i).key) := by
  obtain ⟨hl, hq⟩ := hL
  have o := iv.ok v
  have hm := o.dm i hl hq
  have o1 := ok_undirtify o hl
  have hheap := undirtify_heap (w.hq v) i
  obtain ⟨e1, _, _, _, _, e6, _, _⟩ := undirtify_rest (w.hq v) i
  have hcur : w.abs.cur v ((w.hq v).heap i).key = ((w.hq v).heap i).data := by
    rw [abs_cur]; exact cur_some o _ hl hm rfl
  have dk : ∀ j, (((w.hq v).undirtify i).heap j).key = ((w.hq v).heap j).key := by
    intro j; rw [hheap]; split <;> rfl
  have dm : ∀ j, (((w.hq v).undirtify i).heap j).mapped = ((w.hq v).heap j).mapped := by
    intro j; rw [hheap]; split <;> rfl
  have dd : ∀ j, (((w.hq v).undirtify i).heap j).data = ((w.hq v).heap j).data := by
    intro j; rw [hheap]; split <;> rfl
  have hq' : ∀ v', ((w.step (.save v i)).2).hq v' = if v' = v then (w.hq v).undirtify i else w.hq v' := by
    intro v'
    show ({ w.setHq v ((w.hq v).undirtify i) with store := _ } : World).hq v' = _
    rw [hq_store, hq_set]
  have hst : ∀ v' k', ((w.step (.save v i)).2).store v' k' =
      if v' = v ∧ k' = ((w.hq v).heap i).key then ((w.hq v).heap i).data else w.store v' k' := fun _ _ => rfl
  refine ⟨⟨fun v' => ?_, fun v' => ?_, fun v' => ?_⟩, ?_⟩
  · rw [hq']; split
    · exact o1
    · exact iv.ok v'
  · rw [hq']; split
    · rename_i hv; rw [hv, e6]; exact iv.kind v
    · exact iv.kind v'
  · by_cases hv : v' = v
    · intro j
      rw [hq', if_pos hv, hst, dk, dm, dd, e1]
      intro a b c
      by_cases hj : j = i
      · rw [if_pos ⟨hv, by rw [hj]⟩, hj]
      · rw [if_neg (fun h => hj (o.uniq j i a hl b hm h.2)), hv]
        rw [hheap, if_neg hj] at c
        exact iv.clean v j a b c
    · intro j
      rw [hq', if_neg hv, hst, if_neg (fun h => hv h.1)]
      exact iv.clean v' j
  · apply Mem.ext'
    · intro v' k
      show _ = w.abs.cur v' k
      rw [abs_cur, abs_cur, hq']
      by_cases hv : v' = v
      · rw [if_pos hv, hv]
        by_cases hk : k = ((w.hq v).heap i).key
        · rw [hk, cur_some o1 _ (i := i) (by rw [e1]; exact hl) (by rw [dm]; exact hm) (by rw [dk]), dd,
            cur_some o _ hl hm rfl]
        · have : curOf ((w.hq v).undirtify i) ((w.step (.save v i)).2.store v) k =
              curOf ((w.hq v).undirtify i) (w.store v) k := by
            unfold curOf
            cases ((w.hq v).undirtify i).find k with
            | some x => rfl
            | none => show ((w.step (.save v i)).2).store v k = _; rw [hst, if_neg (fun h => hk h.2)]
          rw [this]
          refine cur_at o o1 _ k ?_ ?_
          · intro j a b c
            rw [e1, dm, dk, dd]; exact ⟨a, b, c, rfl⟩
          · intro j a b c
            rw [e1] at a; rw [dm] at b; rw [dk] at c
            exact ⟨a, b, c⟩
      · rw [if_neg hv]
        unfold curOf
        cases (w.hq v').find k with
        | some x => rfl
        | none => show ((w.step (.save v i)).2).store v' k = _; rw [hst, if_neg (fun h => hv h.1)]
    · intro v' k
      show ((w.step (.save v i)).2).store v' k = put w.store v ((w.hq v).heap i).key (w.abs.cur v ((w.hq v).heap i).key) v' k
      rw [hst, hcur]
      rfl

/-- Forget, in one map: the element is no more mapped; all others are as they were. -/
theorem forget_hq {h : HQ} (o : Ok h) {i : Nat} (hl : h.live i = true)
    (hr : h.vkind = false → (h.heap i).refcnt = 0) (hown : h.dq (.own i) = []) :
    Ok (h.forget i) ∧ (h.forget i).vkind = h.vkind ∧
    (∀ j, j ≠ i → (h.forget i).live j = h.live j ∧ (h.forget i).heap j = h.heap j) ∧
    ((h.forget i).live i = true → ((h.forget i).heap i).mapped = false ∧ h.vkind = true ∧ (h.heap i).refcnt > 0 ∧
      ((h.forget i).heap i).key = (h.heap i).key ∧ ((h.forget i).heap i).refcnt = (h.heap i).refcnt ∧
      ((h.forget i).heap i).data = (h.heap i).data) ∧
    ((h.forget i).live i = false → (h.heap i).refcnt = 0) := by
  have o1 := ok_undirtify o hl
  have hheap := undirtify_heap h i
  obtain ⟨e1, _, _, _, _, e6, _, _⟩ := undirtify_rest h i
  have hi1 : (h.undirtify i).heap i = { h.heap i with inq := false } := by rw [hheap, if_pos rfl]
  have hl1 : (h.undirtify i).live i = true := by rw [e1]; exact hl
  have hown1 : (h.undirtify i).dq (.own i) = [] := by
    apply List.eq_nil_iff_forall_not_mem.mpr
    intro j hj
    rw [undirtify_dq o hl, hown] at hj
    cases hj.1
  unfold HQ.forget
  by_cases hv : h.vkind = true
  · rw [if_pos hv]
    by_cases hc : ((h.undirtify i).heap i).refcnt > 0
    · rw [if_pos hc]
      have o2 := ok_unmap o1 hl1 (by rw [hi1])
      obtain ⟨u1, _, _, _, _, u6, _, _, _⟩ := unmap_rest (h.undirtify i) i
      have hm2 : (((h.undirtify i).unmap i).heap i).mapped = false := by rw [unmap_heap, if_pos rfl]
      have o3 := ok_upd o2 i (fun e => { e with forgot := true }) rfl rfl rfl rfl (fun _ => hm2) rfl (fun _ => rfl)
      have hi3 : ((((h.undirtify i).unmap i).upd i fun e => { e with forgot := true }).heap i) =
          { ((h.undirtify i).unmap i).heap i with forgot := true } := if_pos rfl
      refine ⟨o3, u6.trans e6, ?_, ?_, ?_⟩
      · intro j hj
        refine ⟨?_, ?_⟩
        · show ((h.undirtify i).unmap i).live j = _
          rw [u1, e1]
        · show (if j = i then _ else ((h.undirtify i).unmap i).heap j) = _
          rw [if_neg hj, unmap_heap, if_neg hj, hheap, if_neg hj]
      · intro _
        rw [hi3]
        refine ⟨hm2, hv, by rw [hi1] at hc; exact hc, ?_⟩
        rw [unmap_heap, if_pos rfl, hi1]
        exact ⟨rfl, rfl, rfl⟩
      · intro hlf
        have : ((h.undirtify i).unmap i).live i = false := hlf
        rw [u1, e1, hl] at this; cases this
    · rw [if_neg hc]
      have hr0 : ((h.undirtify i).heap i).refcnt = 0 := by omega
      obtain ⟨g1, g2, g3, g4, g5, g6, g7, _⟩ := evict_spec o1 hl1 (by rw [hi1]) hr0 hown1
      refine ⟨g1, g2.trans e6, ?_, ?_, ?_⟩
      · intro j hj
        rw [g6, if_neg hj, g7 j hj, hheap, if_neg hj, e1]; exact ⟨rfl, rfl⟩
      · intro hlf; rw [g6, if_pos rfl] at hlf; cases hlf
      · intro _; rw [hi1] at hr0; exact hr0
  · rw [if_neg hv]
    have hv' : h.vkind = false := by simpa using hv
    have e : h.evict i = ((h.undirtify i).remove i).free i := by unfold HQ.evict; rw [if_neg hv]
    have hr0 : ((h.undirtify i).heap i).refcnt = 0 := by rw [hi1]; exact hr hv'
    have o2 := ok_removeFree o1 hl1 (by rw [hi1]) hr0 hown1
    obtain ⟨f1, f2, f3, f4, f5, f6⟩ := removeFree_facts (h.undirtify i) i
    rw [e]
    refine ⟨o2, f1.trans e6, ?_, ?_, fun _ => hr hv'⟩
    · intro j hj
      rw [f5, if_neg hj, f6 j hj, hheap, if_neg hj, e1]; exact ⟨rfl, rfl⟩
    · intro hlf; rw [f5, if_pos rfl] at hlf; cases hlf

theorem forget_spec {w : World} (iv : Inv w) (v : Bool) (i : Nat) (hL : w.Legal (.forget v i)) :
    Inv (w.step (.forget v i)).2 ∧
    (w.step (.forget v i)).2.abs = w.abs.step (w.absOp (.forget v i)) := by
  obtain ⟨hl, hr, hown⟩ := hL
  have o := iv.ok v
  obtain ⟨o1, g2, g3, g4, g5⟩ := forget_hq o hl (fun h => hr ((iv.kind v).symm.trans h)) hown
  have hstep : (w.step (.forget v i)).2 = w.setHq v ((w.hq v).forget i) := rfl
  rw [hstep]
  refine ⟨inv_set iv v o1 (g2.trans (iv.kind v)) ?_, ?_⟩
  · intro j a b c
    by_cases hj : j = i
    · rw [hj] at a b; rw [(g4 a).1] at b; cases b
    · rw [(g3 j hj).1] at a; rw [(g3 j hj).2] at b c ⊢
      exact iv.clean v j a b c
  · have hother : ∀ k, ((w.hq v).heap i).mapped = false ∨ k ≠ ((w.hq v).heap i).key →
        curOf ((w.hq v).forget i) (w.store v) k = curOf (w.hq v) (w.store v) k := by
      intro k hk
      refine cur_at o o1 _ k ?_ ?_
      · intro j a b c
        have hj : j ≠ i := by
          intro hj; rw [hj] at b c
          rcases hk with hk | hk
          · rw [hk] at b; cases b
          · exact hk c.symm
        rw [(g3 j hj).1, (g3 j hj).2]; exact ⟨a, b, c, rfl⟩
      · intro j a b c
        by_cases hj : j = i
        · rw [hj] at a b; rw [(g4 a).1] at b; cases b
        · rw [(g3 j hj).1] at a; rw [(g3 j hj).2] at b c; exact ⟨a, b, c⟩
    by_cases hm : ((w.hq v).heap i).mapped = true
    · have ea : w.absOp (.forget v i) = .discard v ((w.hq v).heap i).key := if_pos hm
      rw [ea]
      apply Mem.ext'
      · intro v' k
        show _ = put w.abs.cur v ((w.hq v).heap i).key (w.store v ((w.hq v).heap i).key) v' k
        unfold put
        rw [abs_cur, hq_set, store_set]
        by_cases hv : v' = v
        · rw [if_pos hv, hv]
          by_cases hk : k = ((w.hq v).heap i).key
          · rw [if_pos ⟨rfl, hk⟩, cur_none o1, hk]
            intro j a b c
            by_cases hj : j = i
            · rw [hj] at a b; rw [(g4 a).1] at b; cases b
            · rw [(g3 j hj).1] at a; rw [(g3 j hj).2] at b c
              exact hj (o.uniq j i a hl b hm (c.trans hk))
          · rw [if_neg (fun h => hk h.2), abs_cur]
            exact hother k (Or.inr hk)
        · rw [if_neg hv, if_neg (fun h => hv h.1), abs_cur]
      · intro v' k
        show (w.setHq v _).store v' k = w.store v' k
        rw [store_set]
    · have ea : w.absOp (.forget v i) = .none := if_neg hm
      rw [ea]
      exact set_same v fun k => hother k (Or.inl (by simpa using hm))

/-! ### Every request -/

theorem step_spec {w : World} (iv : Inv w) (op : Op) (hL : w.Legal op) :
    Inv (w.step op).2 ∧ (w.step op).2.abs = w.abs.step (w.absOp op) ∧
    w.abs.Answer (w.absOp op) ((w.step op).1.map (·.2)) := by
  cases op with
  | stage v k size b fails =>
    obtain ⟨a, c, d⟩ := stage_spec iv v k size b fails
    refine ⟨a, c, ?_⟩
    show (w.stage v k size b fails).1.map (·.2) = none ∨ (w.stage v k size b fails).1.map (·.2) = some (w.abs.cur v k)
    cases hx : (w.stage v k size b fails).1 with
    | none => exact Or.inl rfl
    | some p => obtain ⟨i, e⟩ := p; right; rw [← (d i e hx).1]; rfl
  | incref v i =>
    have := upd_plain iv v i (fun e => { e with refcnt := e.refcnt + 1 }) ⟨rfl, rfl, rfl, rfl, rfl, rfl, rfl, rfl⟩ hL
    exact ⟨this.1, this.2, rfl⟩
  | decref v i =>
    have := upd_plain iv v i (fun e => { e with refcnt := e.refcnt - 1 }) ⟨rfl, rfl, rfl, rfl, rfl, rfl, rfl, rfl⟩ hL.1
    exact ⟨this.1, this.2, rfl⟩
  | write v i d owner => have := write_spec iv v i d owner hL; exact ⟨this.1, this.2, rfl⟩
  | redirtify i => have := redirtify_spec iv i hL; exact ⟨this.1, this.2, rfl⟩
  | save v i => have := save_spec iv v i hL; exact ⟨this.1, this.2, rfl⟩
  | forget v i =>
    have := forget_spec iv v i hL
    refine ⟨this.1, this.2, ?_⟩
    by_cases hm : ((w.hq v).heap i).mapped = true
    · rw [show w.absOp (.forget v i) = .discard v ((w.hq v).heap i).key from if_pos hm]; rfl
    · rw [show w.absOp (.forget v i) = .none from if_neg hm]; rfl
  | opened i =>
    have := upd_plain iv true i (fun e => { e with nopen := e.nopen + 1 }) ⟨rfl, rfl, rfl, rfl, rfl, rfl, rfl, rfl⟩ hL.1
    exact ⟨this.1, this.2, rfl⟩
  | closed i =>
    have := upd_plain iv true i (fun e => { e with nopen := e.nopen - 1 }) ⟨rfl, rfl, rfl, rfl, rfl, rfl, rfl, rfl⟩ hL.1
    exact ⟨this.1, this.2, rfl⟩
  | pin i =>
    have := upd_plain iv true i (fun e => { e with pinned := true }) ⟨rfl, rfl, rfl, rfl, rfl, rfl, rfl, rfl⟩ hL
    exact ⟨this.1, this.2, rfl⟩
  | unpin i =>
    have := upd_plain iv true i (fun e => { e with pinned := false }) ⟨rfl, rfl, rfl, rfl, rfl, rfl, rfl, rfl⟩ hL
    exact ⟨this.1, this.2, rfl⟩
  | relax pct f => have := maintS_inv iv (maint_relax (okS iv) pct f); exact ⟨this.1, this.2, rfl⟩
  | drop => have := maintS_inv iv (maint_drop (okS iv)); exact ⟨this.1, this.2, rfl⟩

theorem inv_init (hv hu : Nat → Nat) (nv nu : Nat) (store : Bool → Nat → Nat) : Inv (World.init hv hu nv nu store) := by
  have key : ∀ k f n, Ok (HQ.init k f n) := by
    intro k f n
    refine ⟨List.nodup_nil, ?_, ?_, fun _ => List.nodup_nil, ?_, ?_, rfl, fun _ => List.nodup_nil, ?_, fun _ => rfl, ?_, ?_, ?_, rfl⟩
    · intro i; constructor
      · intro h; cases h
      · intro h; cases h
    · intro i h; cases h
    · intro s i; constructor
      · intro h; cases h
      · intro h; cases h.1
    · intro i j h; cases h
    · intro q i; constructor
      · intro h; cases h
      · intro h; cases h.1
    · intro i h; cases h
    · intro i h; cases h
    · intro i o h; cases h
  refine ⟨fun v => ?_, fun v => ?_, fun v => ?_⟩
  · cases v <;> exact key _ _ _
  · cases v <;> rfl
  · cases v <;> (intro i h; cases h)

/-- C55. Whatever is asked of the cache, in any order, with any shortage of memory: what a reader gets
is the current content of the object, a write changes that object and no other, making room shows
nowhere. -/
theorem C55_cache_transparent : ∀ (ops : List Op) (w : World), Inv w → w.LegalAll ops →
    Inv (w.run ops).2 ∧ w.abs.Runs w ops (w.run ops).1
  | [], w, iv, _ => ⟨iv, rfl⟩
  | op :: ops, w, iv, hL => by
    obtain ⟨h1, h2, h3⟩ := step_spec iv op hL.1
    have ih := C55_cache_transparent ops (w.step op).2 h1 hL.2
    refine ⟨ih.1, _, _, rfl, h3, ?_⟩
    rw [← h2]; exact ih.2

end Silofs.Lcache
