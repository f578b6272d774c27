import Verif.Props.Super
set_option linter.unusedSimpArgs false
set_option linter.unusedVariables false
/-
C81: what a super block shows after any life of its volume, and that it is accepted when loaded.
-/
namespace Silofs.Super
open Silofs Silofs.Addr Spec

theorem reset_len : uaddr64Reset.length = 64 := by decide

/-- The record just after format, before the super block itself is counted. -/
theorem spawned_inv (r : Rnd) (now : Int) (birth : List Nat) (self : Uaddr) (cap : Nat)
    (h : FormatOk r birth self cap) :
    Inv (setupSpawned r now self fun _ => 0)
      ⟨self, none, r.uuid, fun _ => none, r.ivs, fun _ => none, fun _ _ => 0, fun _ _ => 0, 0, 0, 0⟩ := by
  have l8 : ∀ n, (leBytes 8 n).length = 8 := fun n => leBytes_length _ _
  have l4 : ∀ n, (leBytes 4 n).length = 4 := fun n => leBytes_length _ _
  unfold setupSpawned sbInit spstInit setFlags
  simp only
  generalize e4 : wr (wr (wr (wr (fun _ => 0) 16 (leBytes 8 MAGIC)) 24 (leBytes 8 VERSION)) 32 (leBytes 4 0)) 128 r.uuid = b4
  have p4 : PHdr b4 0 r.uuid := by
    subst e4
    refine ⟨?_, ?_, ?_, rd_wr _ _ _ _ h.uuid, by omega⟩
    · rw [rd_wr_ne _ _ 16 _ h.uuid _ _ (by omega), rd_wr_ne _ _ 4 _ (l4 _) _ _ (by omega),
        rd_wr_ne _ _ 8 _ (l8 _) _ _ (by omega), rd_wr _ _ _ _ (l8 _)]
    · rw [rd_wr_ne _ _ 16 _ h.uuid _ _ (by omega), rd_wr_ne _ _ 4 _ (l4 _) _ _ (by omega), rd_wr _ _ _ _ (l8 _)]
    · rw [rd_wr_ne _ _ 16 _ h.uuid _ _ (by omega), rd_wr _ _ _ _ (l4 _)]
  have z4 : ∀ i, 5120 ≤ i → b4 i = 0 := by
    intro i hi
    have := h.uuid
    subst e4
    rw [wr_out _ _ _ _ (by omega), wr_out _ _ _ _ (by rw [l4]; omega), wr_out _ _ _ _ (by rw [l8]; omega),
      wr_out _ _ _ _ (by rw [l8]; omega)]
  generalize e5 : resetRoots b4 = b5
  have p5 : PRoots b5 fun _ => none := by subst e5; exact PRoots.reset b4
  have q5 : ∀ lo hi, hi ≤ 1088 ∨ 1600 ≤ lo → Eqv lo hi b4 b5 := by subst e5; exact resetRoots_eqv b4
  generalize e6 : genIvs r.ivs b5 = b6
  have p6 : PIvs b6 r.ivs := by subst e6; exact PIvs.gen b5 _ h.ivs
  have q6 : ∀ lo hi, hi ≤ 3088 ∨ 3216 ≤ lo → Eqv lo hi b5 b6 := by subst e6; exact genIvs_eqv _ h.ivs b5
  generalize e7 : resetMains b6 = b7
  have p7 : PMains b7 fun _ => none := by subst e7; exact PMains.reset b6
  have q7 : ∀ lo hi, hi ≤ 2048 ∨ 2304 ≤ lo → Eqv lo hi b6 b7 := by subst e7; exact resetMains_eqv b6
  generalize e9 : wr (wr b7 640 uaddr64Reset) 704 uaddr64Reset = b9
  have p9 : POrig b9 none := by
    subst e9
    exact ⟨rd_wr _ _ _ _ reset_len, fun a ha => absurd ha (by simp)⟩
  have q9 : ∀ lo hi, hi ≤ 640 ∨ 768 ≤ lo → Eqv lo hi b7 b9 := by
    intro lo hi hx
    subst e9
    exact (wr_eqv _ _ 64 _ reset_len _ _ (by omega)).trans (wr_eqv _ _ 64 _ reset_len _ _ (by omega))
  generalize e10 : setSelf b9 self = b10
  have p10 : PSelf b10 self := by subst e10; exact PSelf.set b9 self h.place h.super
  have q10 : ∀ lo hi, (hi ≤ 640 ∨ 704 ≤ lo) ∧ (hi ≤ 768 ∨ 784 ≤ lo) → Eqv lo hi b9 b10 := by
    subst e10; exact setSelf_eqv b9 self h.place
  generalize e11 : wr (wr (wr (wr (wr b10 4096 (leBytes 8 (toU64 now))) (4096 + 8) (leBytes 8 (toU64 now))) (4096 + 16)
    (leBytes 8 0)) (4096 + 24) (leBytes 8 288230376151711744)) (4096 + 32) (leBytes 8 0) = b11
  have p11 : PNums b11 0 0 := by
    subst e11
    refine ⟨?_, ?_, rd_wr _ _ _ _ (l8 _)⟩
    · rw [rd_wr_ne _ _ 8 _ (l8 _) _ _ (by omega), rd_wr_ne _ _ 8 _ (l8 _) _ _ (by omega), rd_wr _ _ _ _ (l8 _)]
    · rw [rd_wr_ne _ _ 8 _ (l8 _) _ _ (by omega), rd_wr _ _ _ _ (l8 _)]
  have q11 : ∀ lo hi, hi ≤ 4096 ∨ 4352 ≤ lo → Eqv lo hi b10 b11 := by
    intro lo hi hx
    subst e11
    exact ((((wr_eqv _ _ 8 _ (l8 _) _ _ (by omega)).trans (wr_eqv _ _ 8 _ (l8 _) _ _ (by omega))).trans
      (wr_eqv _ _ 8 _ (l8 _) _ _ (by omega))).trans (wr_eqv _ _ 8 _ (l8 _) _ _ (by omega))).trans
      (wr_eqv _ _ 8 _ (l8 _) _ _ (by omega))
  generalize e12 : renew b11 4096 = b12
  have p12 : PGauge b12 4096 fun _ _ => 0 := by
    subst e12; exact PGauge.zero fun i h1 h2 => renew_zero _ _ _ h1 h2
  have q12 : ∀ lo hi, hi ≤ 4352 ∨ 5120 ≤ lo → Eqv lo hi b11 b12 := by
    intro lo hi hx
    subst e12
    exact renew_eqv _ _ _ _ (by omega)
  have q13 : ∀ lo hi, hi ≤ 784 ∨ 800 ≤ lo → Eqv lo hi b12 (wr b12 784 (vrange128Htox (Vrange.ofSpmap 7 0))) :=
    fun lo hi hx => wr_eqv _ _ 16 _ vr_len _ _ (by omega)
  have t7 : ∀ lo hi, hi ≤ 512 ∨ (800 ≤ lo ∧ (hi ≤ 4096 ∨ 5120 ≤ lo)) → Eqv lo hi b7 (wr b12 784 (vrange128Htox (Vrange.ofSpmap 7 0))) :=
    fun lo hi hx => ((((q9 lo hi (by omega)).trans (q10 lo hi (by omega))).trans (q11 lo hi (by omega))).trans
      (q12 lo hi (by omega))).trans (q13 lo hi (by omega))
  have z : ∀ i, 5120 ≤ i → i < 6144 → (wr b12 784 (vrange128Htox (Vrange.ofSpmap 7 0))) i = 0 := by
    intro i h1 h2
    have a := ((((q5 5120 6144 (by omega)).trans (q6 5120 6144 (by omega))).trans (q7 5120 6144 (by omega))).trans
      (t7 5120 6144 (by omega))) i h1 h2
    rw [a, z4 i h1]
  exact {
    hdr := p4.frame (((q5 _ _ (by omega)).trans (q6 _ _ (by omega))).trans ((q7 _ _ (by omega)).trans (t7 _ _ (by omega))))
    self := p10.frame (((q11 _ _ (by omega)).trans (q12 _ _ (by omega))).trans (q13 _ _ (by omega)))
      (((q11 _ _ (by omega)).trans (q12 _ _ (by omega))).trans (q13 _ _ (by omega)))
    orig := p9.frame (((q10 _ _ (by omega)).trans (q11 _ _ (by omega))).trans ((q12 _ _ (by omega)).trans (q13 _ _ (by omega))))
    vr := rd_wr _ _ _ _ vr_len
    roots := p5.frame (((q6 _ _ (by omega)).trans (q7 _ _ (by omega))).trans (t7 _ _ (by omega)))
    mains := p7.frame (t7 _ _ (by omega))
    ivs := p6.frame ((q7 _ _ (by omega)).trans (t7 _ _ (by omega)))
    ivlen := h.ivs
    curr := p12.frame (q13 _ _ (by omega))
    base := PGauge.zero fun i h1 h2 => z i (by omega) (by omega)
    nums := p11.frame ((q12 _ _ (by omega)).trans (q13 _ _ (by omega)))
    bnum := by
      refine ⟨?_, ?_⟩
      · unfold capacity
        rw [rd_zero _ _ _ fun i h1 h2 => z i (by omega) (by omega)]
        decide
      · unfold vspacesize
        rw [rd_zero _ _ _ fun i h1 h2 => z i (by omega) (by omega)]
        decide
    sane := ⟨by show 0 < _; omega, fun w t => ⟨by simp, by simp⟩⟩
    cap := by show 0 ≤ _; omega }

theorem Inv.setCapacity {b v} (h : Inv b v) (n : Nat) (hn : n ≤ 4611686018427387903) :
    Inv (setCapacity b n) { v with cap := n } := by
  have l8 : ∀ n, (leBytes 8 n).length = 8 := fun n => leBytes_length _ _
  have eq := fun lo hi => wr_eqv b 4112 8 (leBytes 8 n) (l8 _) lo hi
  exact {
    hdr := h.hdr.frame (eq _ _ (by omega))
    self := h.self.frame (eq _ _ (by omega)) (eq _ _ (by omega))
    orig := h.orig.frame (eq _ _ (by omega))
    vr := h.vr.frame (eq _ _ (by omega))
    roots := h.roots.frame (eq _ _ (by omega))
    mains := h.mains.frame (eq _ _ (by omega))
    ivs := h.ivs.frame (eq _ _ (by omega))
    ivlen := h.ivlen
    curr := h.curr.frame (eq _ _ (by omega))
    base := h.base.frame (eq _ _ (by omega))
    nums := ⟨rd_wr _ _ _ _ (l8 _), (rd_wr_ne _ _ 8 _ (l8 _) _ _ (by omega)).trans h.nums.vsz,
      (rd_wr_ne _ _ 8 _ (l8 _) _ _ (by omega)).trans h.nums.gen⟩
    bnum := h.bnum.frame (eq _ _ (by omega))
    sane := h.sane
    cap := hn }

theorem Inv.fsBirth {b v} (h : Inv b v) (l : List Nat) (hl : l.length = 64) : Inv (wr b 512 l) v := by
  have eq := fun lo hi => wr_eqv b 512 64 l hl lo hi
  exact {
    hdr := h.hdr.frame (eq _ _ (by omega))
    self := h.self.frame (eq _ _ (by omega)) (eq _ _ (by omega))
    orig := h.orig.frame (eq _ _ (by omega))
    vr := h.vr.frame (eq _ _ (by omega))
    roots := h.roots.frame (eq _ _ (by omega))
    mains := h.mains.frame (eq _ _ (by omega))
    ivs := h.ivs.frame (eq _ _ (by omega))
    ivlen := h.ivlen
    curr := h.curr.frame (eq _ _ (by omega))
    base := h.base.frame (eq _ _ (by omega))
    nums := h.nums.frame (eq _ _ (by omega))
    bnum := h.bnum.frame (eq _ _ (by omega))
    sane := h.sane
    cap := h.cap }

theorem format_inv (r : Rnd) (now : Int) (birth : List Nat) (self : Uaddr) (cap : Nat)
    (h : FormatOk r birth self cap) : Inv (formatSuper r now birth self cap) (Spec.format r self cap) := by
  have h1 := ((((spawned_inv r now birth self cap h).fsBirth birth h.birth).birth birth h.birth).setCapacity cap h.cap)
  refine h1.account ⟨by show 0 < _; omega, fun w t => ⟨?_, by simp⟩⟩
  simp only [countSuper]
  split <;> omega

/-! ### What the record shows -/

theorem reset_null : uaddrNull (uaddr64Xtoh uaddr64Reset) = true := by decide +kernel
theorem none_null : uaddrNull (uaddr64Xtoh (uaddr64Htox uaddrNone)) = true := by decide +kernel
theorem lsid_reset_null : (lsid32Xtoh lsid32Reset).isNull = true := by decide +kernel

theorem Inv.root {b v} (h : Inv b v) (t : Nat) (ht : Space.isVnode t = true) :
    getRoot b t = (v.roots t).getD (uaddr64Xtoh (uaddr64Htox uaddrNone)) := by
  obtain ⟨o, ho⟩ := rootOff_vnode ht
  unfold getRoot
  rw [ho]
  simp only
  rw [h.roots.bytes t o ho]
  cases e : v.roots t with
  | none => rfl
  | some u => exact good_round (h.roots.good t u e).1

theorem Inv.resolve {b v} (h : Inv b v) (t : Nat) (ht : Space.isVnode t = true) :
    resolveChild b t = (v.roots t).map fun u => (u, v.ivs t) := by
  obtain ⟨o, ho⟩ := ivOff_vnode ht
  have hi : getIv b t = v.ivs t := by unfold getIv; rw [ho]; exact h.ivs.bytes t o ho
  unfold resolveChild
  rw [h.root t ht, hi]
  cases e : v.roots t with
  | none => simp only [Option.getD_none, none_null, if_true, Option.map_none]
  | some u => simp only [Option.getD_some, (h.roots.good t u e).1.null, Option.map_some]; rfl

theorem Inv.main {b v} (h : Inv b v) (t : Nat) (ht : Space.isVnode t = true) : mainLseg b t = v.mains t := by
  obtain ⟨o, ho⟩ := mainOff_vnode ht
  unfold mainLseg getMain
  rw [ho]
  simp only
  rw [h.mains.bytes t o ho]
  cases e : v.mains t with
  | none => simp only [Option.map_none, Option.getD_none, lsid_reset_null, if_true]
  | some l =>
    simp only [Option.map_some, Option.getD_some]
    rw [C27_lsid_roundtrip l (h.mains.good t l e).1, (h.mains.good t l e).2]
    rfl

theorem Inv.gauges {b v} (h : Inv b v) (w : Grp) (t : Nat) (h1 : 2 ≤ t) (h2 : t ≤ 12) :
    gauge b 4096 w t = v.curr w t ∧ gauge b 5120 w t = v.base w t :=
  ⟨gauge_val h.curr w t ⟨h1, h2⟩ (by have := (h.sane.2 w t).1; omega) (by have := (h.sane.2 w t).1; omega),
   gauge_val h.base w t ⟨h1, h2⟩ (by have := (h.sane.2 w t).2; omega) (by have := (h.sane.2 w t).2; omega)⟩

/-- **C81**: whatever is done to a volume after it was formatted — roots and main segments bound,
objects counted in and out, generations drawn, flags set, forks taken — the super block shows the
volume just as it is: each root with its own vector under the kind it was bound for, each main
segment, each counter, the identity, and the origin. -/
theorem C81_shows (r : Rnd) (now : Int) (birth : List Nat) (self : Uaddr) (cap : Nat)
    (h : FormatOk r birth self cap) (ops : List Op) (v : Vol) (l : Life (Spec.format r self cap) ops v) :
    let b := run (formatSuper r now birth self cap) ops
    checkVersion b = true ∧ selfOf b = v.self ∧ lvidOf b = v.self.laddr.lsid.lvid ∧ fsUuid b = v.uuid ∧
    flags b = v.fossil ∧
    (if uaddrNull (originOf b) then none else some (originOf b)) = v.origin ∧
    (∀ t, Space.isVnode t = true → resolveChild b t = (v.roots t).map fun u => (u, v.ivs t)) ∧
    (∀ t, Space.isVnode t = true → mainLseg b t = v.mains t) ∧
    (∀ t, Space.isVnode t = false → resolveChild b t = none ∧ mainLseg b t = none) ∧
    (∀ w t, 2 ≤ t → t ≤ 12 → gauge b 4096 w t = v.curr w t ∧ gauge b 5120 w t = v.base w t) ∧
    capacity b 4096 = v.cap ∧ generation b 4096 = v.gen := by
  have i := (format_inv r now birth self cap h).run l
  intro b
  have hb : Inv b v := i
  refine ⟨?_, ?_, hb.self.lvid, hb.hdr.uuid, ?_, ?_, hb.resolve, hb.main, ?_, hb.gauges, ?_, ?_⟩
  · unfold checkVersion
    rw [hb.hdr.magic, hb.hdr.version]
    decide
  · unfold selfOf
    rw [hb.self.self, good_round hb.self.good]
  · unfold flags
    rw [hb.hdr.flags, leVal_leBytes4 _ hb.hdr.small]
  · unfold originOf
    rw [hb.orig.orig]
    cases e : v.origin with
    | none => simp only [Option.map_none, Option.getD_none, reset_null, if_true]
    | some u =>
      have g := (hb.orig.good u e).1
      simp only [Option.map_some, Option.getD_some]
      rw [good_round g, g.null]
      rfl
  · intro t ht
    constructor
    · unfold resolveChild getRoot
      cases e : rootOff t with
      | none => rfl
      | some o => rw [(rootOff_some e).1] at ht; exact absurd ht (by simp)
    · unfold mainLseg getMain
      cases e : mainOff t with
      | none => simp only [lsid_reset_null, if_true]
      | some o => rw [(mainOff_some e).1] at ht; exact absurd ht (by simp)
  · show leVal (rd b 4112 8) = _
    rw [hb.nums.cap, leVal_leBytes8 _ (by have := hb.cap; omega)]
  · show leVal (rd b 4128 8) = _
    rw [hb.nums.gen, leVal_leBytes8 _ hb.sane.1]

theorem Inv.verifyGrp {b v} (h : Inv b v) (w : Grp) : verifyGrp b 4096 w = true ∧ verifyGrp b 5120 w = true := by
  unfold Super.verifyGrp
  simp only [List.all_eq_true]
  have key : ∀ t ∈ kinds, verifyGauge (gauge b 4096 w t) = true ∧ verifyGauge (gauge b 5120 w t) = true := by
    intro t ht
    unfold kinds at ht
    rw [List.mem_range'_1] at ht
    by_cases h1 : 2 ≤ t
    · have g := h.gauges w t h1 (by omega)
      have s := h.sane.2 w t
      rw [g.1, g.2]
      unfold verifyGauge
      simp only [Bool.and_eq_true, decide_eq_true_eq]
      exact s
    · have e : t = 1 := by omega
      subst e
      exact ⟨rfl, rfl⟩
  exact ⟨fun t ht => (key t ht).1, fun t ht => (key t ht).2⟩

/-- **C81**: the super block of any volume that was formatted and used is accepted when loaded, at
every moment of its life. -/
theorem C81_accepted (r : Rnd) (now : Int) (birth : List Nat) (self : Uaddr) (cap : Nat)
    (h : FormatOk r birth self cap) (ops : List Op) (v : Vol) (l : Life (Spec.format r self cap) ops v) :
    verify (run (formatSuper r now birth self cap) ops) = true := by
  have i := (format_inv r now birth self cap h).run l
  generalize run (formatSuper r now birth self cap) ops = b at i
  have s : selfOf b = v.self := by unfold selfOf; rw [i.self.self, good_round i.self.good]
  have hcap : capacity b 4096 = v.cap := by
    show leVal (rd b 4112 8) = _
    rw [i.nums.cap, leVal_leBytes8 _ (by have := i.cap; omega)]
  have hvsz : vspacesize b 4096 = 288230376151711744 := by
    show leVal (rd b 4120 8) = _
    rw [i.nums.vsz, leVal_leBytes8 _ (by omega)]
  have c1 := i.cap
  have c2 := i.bnum.cap
  have c3 := i.bnum.vsz
  unfold verify
  simp only [Bool.and_eq_true]
  refine ⟨⟨⟨⟨⟨?_, ?_⟩, ?_⟩, ?_⟩, ?_⟩, ?_⟩
  · unfold verifyHeight
    have hv : rd b 784 16 = _ := i.vr
    rw [hv]
    decide +kernel
  · unfold verifySelf
    rw [s, i.self.super, i.self.good.null]
    rfl
  · unfold verifyOrigin originOf
    rw [i.orig.orig]
    cases e : v.origin with
    | none => simp only [Option.map_none, Option.getD_none, reset_null]; rfl
    | some u =>
      simp only [Option.map_some, Option.getD_some]
      rw [good_round (i.orig.good u e).1, (i.orig.good u e).2]
      simp
  · unfold verifyRoots
    rw [List.all_eq_true]
    intro t ht
    rw [i.root t (List.mem_filter.1 ht).2]
    unfold verifyRoot
    cases e : v.roots t with
    | none => simp only [Option.getD_none, none_null, Bool.true_or]
    | some u => simp only [Option.getD_some, (i.roots.good t u e).2.1, (i.roots.good t u e).2.2, beq_self_eq_true,
        Bool.and_self, Bool.or_true]
  · unfold verifyStats verifySize
    rw [hcap, hvsz]
    simp only [Bool.and_eq_true, decide_eq_true_eq]
    exact ⟨⟨⟨⟨c1, by omega⟩, (i.verifyGrp _).1⟩, (i.verifyGrp _).1⟩, (i.verifyGrp _).1⟩
  · unfold verifyStats verifySize
    simp only [Bool.and_eq_true, decide_eq_true_eq]
    exact ⟨⟨⟨⟨c2, c3⟩, (i.verifyGrp _).2⟩, (i.verifyGrp _).2⟩, (i.verifyGrp _).2⟩

/-- **C81**: of any bytes that are accepted, every root handed out names a node of the highest level
of the space maps, the block's own address and its origin's (if any) are super blocks', and the
numbers reported from it are in range. -/
theorem C81_gate (b : Blk) (h : verify b = true) :
    (∀ t x, resolveChild b t = some x → x.1.laddr.lsid.ltype = LTYPE_SPNODE ∧ x.1.laddr.lsid.height = 6) ∧
    (selfOf b).laddr.lsid.ltype = LTYPE_SUPER ∧ uaddrNull (selfOf b) = false ∧
    (uaddrNull (originOf b) = false → (originOf b).laddr.lsid.ltype = LTYPE_SUPER) ∧
    (∀ w t, gauge b 4096 w t + gauge b 5120 w t ≤ 9223372036854775807 ∧
      -9223372036854775807 ≤ gauge b 4096 w t + gauge b 5120 w t) ∧
    capacity b 4096 ≤ 4611686018427387903 := by
  unfold verify at h
  simp only [Bool.and_eq_true] at h
  obtain ⟨⟨⟨⟨⟨h1, h2⟩, h3⟩, h4⟩, h5⟩, h6⟩ := h
  unfold verifySelf at h2
  simp only [Bool.and_eq_true, beq_iff_eq, Bool.not_eq_true'] at h2
  unfold verifyStats at h5 h6
  simp only [Bool.and_eq_true] at h5 h6
  refine ⟨?_, h2.1, h2.2, ?_, ?_, ?_⟩
  · intro t x hx
    unfold resolveChild at hx
    split at hx
    · exact absurd hx (by simp)
    · rename_i hn
      cases hx
      have hv : Space.isVnode t = true := by
        cases e : rootOff t with
        | none => unfold getRoot at hn; rw [e] at hn; exact absurd rfl hn
        | some o => exact (rootOff_some e).1
      unfold verifyRoots at h4
      have := List.all_eq_true.1 h4 t (mem_vnodes hv)
      unfold verifyRoot at this
      rw [Bool.or_eq_true] at this
      rcases this with a | a
      · exact absurd a hn
      · simpa using a
  · intro hn
    unfold verifyOrigin at h3
    rw [hn] at h3
    simpa using h3
  · intro w t
    have key : ∀ o, verifyGrp b o w = true → verifyGauge (gauge b o w t) = true := by
      intro o ho
      cases e : Rep.gaugeOff t with
      | none => unfold gauge gaugeAt; rw [e]; rfl
      | some k =>
        have := gaugeOff_some e
        exact List.all_eq_true.1 ho t (by unfold kinds; rw [List.mem_range'_1]; omega)
    have hw : verifyGrp b 4096 w = true ∧ verifyGrp b 5120 w = true := by
      cases w
      · exact ⟨h5.2, h6.2⟩
      · exact ⟨h5.1.2, h6.1.2⟩
      · exact ⟨h5.1.1.2, h6.1.1.2⟩
    have a := key _ hw.1
    have c := key _ hw.2
    unfold verifyGauge at a c
    simp only [Bool.and_eq_true, decide_eq_true_eq] at a c
    omega
  · have := h5.1.1.1.1
    unfold verifySize at this
    simpa using this

/-- **C81**: a fork of a volume shows the same tree of maps under the same vectors, keeps the
file-system's identity, takes the new volume's identity as its own, names the old one as origin, has
no main segment of the old volume, and accounts for all that the old one did and for one super block. -/
theorem C81_fork (r : Rnd) (now : Int) (birth : List Nat) (self : Uaddr) (cap : Nat)
    (h : FormatOk r birth self cap) (ops : List Op) (v : Vol) (self' : Uaddr) (birth' : List Nat)
    (l : Life (Spec.format r self cap) ops v) (ho : Ok (.fork self' birth'))
    (hs : Sane (Spec.step v (.fork self' birth'))) :
    let b := run (formatSuper r now birth self cap) ops
    let n := step b (.fork self' birth')
    (∀ t, Space.isVnode t = true → resolveChild n t = resolveChild b t ∧ mainLseg n t = none) ∧
    fsUuid n = fsUuid b ∧ lvidOf n = self'.laddr.lsid.lvid ∧ selfOf n = self' ∧ originOf n = selfOf b ∧
    (∀ w t, 2 ≤ t → t ≤ 12 → gauge n 4096 w t + gauge n 5120 w t =
      gauge b 4096 w t + gauge b 5120 w t + if t = LTYPE_SUPER then 1 else 0) := by
  intro b n
  have hb : Inv b v := (format_inv r now birth self cap h).run l
  have hn : Inv n (Spec.step v (.fork self' birth')) := hb.step _ ho hs
  have sb : selfOf b = v.self := by unfold selfOf; rw [hb.self.self, good_round hb.self.good]
  refine ⟨fun t ht => ⟨?_, hn.main t ht⟩, ?_, hn.self.lvid, ?_, ?_, ?_⟩
  · rw [hn.resolve t ht, hb.resolve t ht]; rfl
  · exact hn.hdr.uuid.trans hb.hdr.uuid.symm
  · unfold selfOf; rw [hn.self.self, good_round hn.self.good]; rfl
  · unfold originOf
    rw [hn.orig.orig, sb]
    exact good_round hb.self.good
  · intro w t h1 h2
    have g := hb.gauges w t h1 h2
    have k := hn.gauges w t h1 h2
    rw [g.1, g.2, k.1, k.2]
    simp only [Spec.step, countSuper]
    omega

/-- **C81**: after a fork into a volume of another id, the two volumes have no segment both may write to:
what the fork may write to the old volume may not, and the other way round; and each may write to the
segment its own super block is in. -/
theorem C81_fork_apart (r : Rnd) (now : Int) (birth : List Nat) (self : Uaddr) (cap : Nat)
    (h : FormatOk r birth self cap) (ops : List Op) (v : Vol) (self' : Uaddr) (birth' : List Nat)
    (l : Life (Spec.format r self cap) ops v) (ho : Ok (.fork self' birth'))
    (hs : Sane (Spec.step v (.fork self' birth')))
    (hne : self'.laddr.lsid.lvid ≠ v.self.laddr.lsid.lvid) :
    let b := run (formatSuper r now birth self cap) ops
    let n := step b (.fork self' birth')
    (∀ x, ¬ (isMutable b x = true ∧ isMutable n x = true)) ∧
    isMutable b (selfOf b).laddr.lsid = true ∧ isMutable n (selfOf n).laddr.lsid = true := by
  intro b n
  have hb : Inv b v := (format_inv r now birth self cap h).run l
  have hn : Inv n (Spec.step v (.fork self' birth')) := hb.step _ ho hs
  have sb : selfOf b = v.self := by unfold selfOf; rw [hb.self.self, good_round hb.self.good]
  have sn : selfOf n = self' := by unfold selfOf; rw [hn.self.self, good_round hn.self.good]; rfl
  have lb : lvidOf b = v.self.laddr.lsid.lvid := hb.self.lvid
  have ln : lvidOf n = self'.laddr.lsid.lvid := hn.self.lvid
  unfold isMutable
  rw [sb, sn, lb, ln]
  simp only [beq_iff_eq]
  exact ⟨fun x hx => hne (hx.2.symm.trans hx.1), trivial, trivial⟩

/-- **C81**: the walk from the super block (export, deletion) sees exactly the roots that were bound. -/
theorem C81_walk (r : Rnd) (now : Int) (birth : List Nat) (self : Uaddr) (cap : Nat)
    (h : FormatOk r birth self cap) (ops : List Op) (v : Vol) (l : Life (Spec.format r self cap) ops v) (a : Laddr) :
    a ∈ lmap (run (formatSuper r now birth self cap) ops) ↔
      ∃ t u, Space.isVnode t = true ∧ v.roots t = some u ∧ u.laddr = a := by
  have i := (format_inv r now birth self cap h).run l
  generalize run (formatSuper r now birth self cap) ops = b at i
  unfold lmap
  simp only [List.mem_map, List.mem_filter, Bool.not_eq_true']
  constructor
  · rintro ⟨t, ⟨hk, hn⟩, e⟩
    have hv : Space.isVnode t = true := by
      cases x : rootOff t with
      | none => unfold getRoot at hn; rw [x] at hn; exact absurd (show true = false from hn) (by simp)
      | some o => exact (rootOff_some x).1
    rw [i.root t hv] at hn e
    cases x : v.roots t with
    | none => rw [x] at hn; simp only [Option.getD_none, none_null] at hn; exact absurd hn (by simp)
    | some u => rw [x] at e; exact ⟨t, u, hv, x, e⟩
  · rintro ⟨t, u, hv, x, e⟩
    have g := (i.roots.good t u x).1
    have q := i.root t hv
    rw [x] at q
    refine ⟨t, ⟨mem_kinds hv, ?_⟩, ?_⟩
    · rw [q]; exact g.null
    · rw [q]; exact e

end Silofs.Super
