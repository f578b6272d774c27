import Verif.Props.Alloc
/-
C19 (no assertion fails), C20, C21, C22 over all histories of the allocator.
-/
set_option linter.unusedSimpArgs false
set_option linter.unusedVariables false
namespace Silofs.Space
open Silofs.Addr Silofs.FreeCache

/-! ### C19: the allocator's assertions hold -/

/-- Memory for a cache node is available whenever the operation asks for it. -/
def MemOk : Op → Prop
  | .claim _ o | .addref _ _ o | .reclaim _ _ o | .remount _ o =>
    o.newI = true ∧ o.last.newI = true ∧ ∀ i, (o.req i).newI = true
  | _ => True

theorem add_def (c : Cache) (off len : Nat) (m : Bool) : ∃ rc c', add c off len m true = .done rc c' := by
  have := C23_defined_partial c (.add off len m true) (by
    intro _ _ _ _ h; simp only [FreeCache.Op.add.injEq] at h; exact h.2.2.2.symm)
  simp only [FreeCache.step] at this
  split at this
  · rename_i rc c' h; exact ⟨rc, c', h⟩
  · simp at this

theorem require_def (s : Sys) (t k : Nat) (o : ReqO) (hm : o.newI = true) :
    ∃ s' e, require s t k o = some (s', e) := by
  obtain ⟨rc, c', h⟩ := add_def (s.vs t).cache (k * SPAN) SPAN o.newM
  unfold require
  simp only []
  split
  · exact ⟨_, _, rfl⟩
  · split
    · exact ⟨_, _, rfl⟩
    · rw [hm, h]; exact ⟨_, _, rfl⟩

theorem recache_def (v : VSpace) (t off : Nat) (m : Bool) : ∃ v', recache v t off m true = some v' := by
  unfold recache
  split
  · exact ⟨_, rfl⟩
  · obtain ⟨rc, c', ha⟩ := add_def v.cache off (ltypeSize t) m
    rw [ha]; exact ⟨_, rfl⟩

theorem slow_def (t : Nat) (req : Nat → ReqO) (hm : ∀ i, (req i).newI = true) (fuel : Nat) :
    ∀ i s voff, ∃ s' r, slow t req fuel i s voff = some (s', r) := by
  induction fuel with
  | zero => intro i s voff; exact ⟨_, _, rfl⟩
  | succ fuel ih =>
    intro i s voff
    unfold slow
    split
    · obtain ⟨s1, e, h⟩ := require_def s t (leafOf voff) (req i) (hm i)
      rw [h]
      cases e with
      | none =>
        simp only []
        split
        · split
          · exact ⟨_, _, rfl⟩
          · exact ih _ _ _
        · exact ih _ _ _
      | some e =>
        cases e
        · exact ih _ _ _
        · exact ⟨_, _, rfl⟩
        · exact ⟨_, _, rfl⟩
    · exact ⟨_, _, rfl⟩

/-- A leaf holding a used unit has at least the unit's bytes in use. -/
theorem VInv.nused_ge {vend t off : Nat} {v : VSpace} {r : Nat → Nat} (hk : isVnode t = true)
    (h : VInv vend t v r) (h1 : 0 < r off) (hb : isBk t = true) :
    65536 ≤ v.nused (leafOf off) ∧ v.nused (leafOf off) ≤ SPAN := by
  have ha := (h.used off h1).1
  obtain ⟨hfit, hoff, hleaf, hn0, _⟩ := unit_fit hk ha
  obtain ⟨_, _, hnb⟩ := kind_cases t hk
  have hn : nkbs t = 64 := by
    apply Classical.byContradiction; intro hne; rw [hnb hne] at hb; exact absurd hb (by simp)
  have hset : ∀ i, i < 64 → (v.bk (lbaOf off)).alloc.getLsbD i = true := by
    intro i hi
    have : unitOff t (lbaOf off) i = off := (unit_eq hk ha hi).mpr ⟨rfl, by omega, by omega⟩
    rw [h.bit _ _ hi, this]; exact h1
  have hu : (v.bk (lbaOf off)).usecnt = 64 := by
    unfold Bkr.usecnt popcount
    have : (List.range 64).countP (fun i => (v.bk (lbaOf off)).alloc.getLsbD i) = (List.range 64).length := by
      rw [List.countP_eq_length]
      intro i hi; exact hset i (List.mem_range.mp hi)
    rw [this]; rfl
  have hlu := (leafUsecnt_upd v.bk (lbaOf off) Bkr.init (leafOf off)).1 (by
    unfold leafOf lbaOf SPAN LBK; omega)
  rw [usecnt_init, hu] at hlu
  have hbd := leafUsecnt_bound v.bk (leafOf off) (lbaOf off) 0 (by
    unfold leafOf lbaOf SPAN LBK; omega) (by omega)
  rw [h.nu]; unfold KB SPAN
  omega

theorem C19_defined_partial {cap vend cm sp : Nat} {s : Sys} {b : Book} {op : Op}
    (h : Reach (initSys cap vend cm sp) s b) (hl : Legal b op) (hm : MemOk op) :
    (exec s b op).isSome := by
  obtain ⟨hi, hv, _⟩ := reach_inv h
  cases op with
  | claim t o =>
    obtain ⟨m1, m2, m3⟩ := hm
    have hk : isVnode t = true := hl
    have : ∃ s' res, claim s t o = some (s', res) := by
      unfold claim
      split
      · exact ⟨_, _, rfl⟩
      · have hf : ∃ s1 res, findUnalloc s t o = some (s1, res) := by
          unfold findUnalloc
          split
          · exact ⟨_, _, rfl⟩
          · obtain ⟨s1, r, hs⟩ := slow_def t o.req m3 (s.vend + 1) 0 s ((s.vs t).cache.hint)
            rw [hs]
            cases r with
            | error e => exact ⟨_, _, rfl⟩
            | ok off =>
              simp only []
              split
              · exact ⟨_, _, rfl⟩
              · exact ⟨_, _, rfl⟩
        obtain ⟨s1, res, hf⟩ := hf
        obtain ⟨p1, p2, p3, p4⟩ := findUnalloc_inv hk hi hf
        rw [hf]
        cases res with
        | error e => exact ⟨_, _, rfl⟩
        | ok off =>
          obtain ⟨f1, f2, f3, f4⟩ := p4 off rfl
          simp only []
          split
          · exact ⟨_, _, rfl⟩
          · rename_i hend
            obtain ⟨s2, e, hr⟩ := require_def s1 t (leafOf off) o.last m2
            obtain ⟨r1, r2, r3, r4, r5, _⟩ := require_inv hk p1 hr
            rw [hr]
            cases e with
            | some e => exact ⟨_, _, rfl⟩
            | none =>
              simp only []
              cases o.resolve with
              | some e => exact ⟨_, _, rfl⟩
              | none =>
                have hvs := r5 f3
                obtain ⟨v', hv1, _⟩ := markV_inv hk (r1.v t hk) f1 f2 (r4 rfl) (by rw [r2]; omega)
                  (by rw [hvs]; exact f4)
                simp only [mark, hv1]
                exact ⟨_, _, rfl⟩
    obtain ⟨s', res, hc⟩ := this
    simp only [exec, hc]
    cases res <;> rfl
  | addref t off o =>
    obtain ⟨m1, m2, m3⟩ := hm
    obtain ⟨hk, hb, hu⟩ := hl
    have : ∃ s' e, addref s t off o = some (s', e) := by
      unfold addref
      obtain ⟨s2, e, hr⟩ := require_def s t (leafOf off) o.last m2
      obtain ⟨r1, r2, r3, r4, r5, _⟩ := require_inv hk hi hr
      rw [hr]
      cases e with
      | some e => exact ⟨_, _, rfl⟩
      | none =>
        simp only []
        cases o.resolve with
        | some e => exact ⟨_, _, rfl⟩
        | none =>
          simp only []
          have := (r1.v t hk).nused_ge hk hu hb
          rw [if_neg]
          · exact ⟨_, _, rfl⟩
          · simp only [hb, true_and, Classical.not_not]; unfold LBK; omega
    obtain ⟨s', e, hc⟩ := this
    simp only [exec, hc]
    cases e <;> rfl
  | reclaim t off o =>
    obtain ⟨m1, m2, m3⟩ := hm
    obtain ⟨hk, hu⟩ := hl
    have : ∃ s' e, reclaim s t off o = some (s', e) := by
      unfold reclaim
      obtain ⟨s2, e, hr⟩ := require_def s t (leafOf off) o.last m2
      obtain ⟨r1, r2, r3, r4, r5, _⟩ := require_inv hk hi hr
      rw [hr]
      cases e with
      | some e => exact ⟨_, _, rfl⟩
      | none =>
        simp only []
        cases o.resolve with
        | some e => exact ⟨_, _, rfl⟩
        | none =>
          simp only []
          obtain ⟨v1, hv1, _⟩ := unrefAt_inv hk (r1.v t hk) hu (fun hb => by
            have := r1.one t off hk hb; omega)
          rw [hv1]
          obtain ⟨v2, hv2⟩ := recache_def v1 t off o.newM
          rw [m1]
          simp only [hv2]
          exact ⟨_, _, rfl⟩
    obtain ⟨s', e, hc⟩ := this
    simp only [exec, hc]
    cases e <;> rfl
  | remount t o =>
    obtain ⟨m1, m2, m3⟩ := hm
    have : ∃ s', remount s t o = some s' := by
      unfold remount
      simp only []
      split
      · exact ⟨_, rfl⟩
      · rename_i s1 off _
        obtain ⟨v2, hv2⟩ := recache_def (s1.vs t) t off o.newM
        rw [m1, hv2]
        exact ⟨_, rfl⟩
    obtain ⟨s', hc⟩ := this
    simp only [exec, hc]
    rfl
  | _ => rfl

/-! ### C20 -/

/-- C20: the stored reference count of a 64K data block is the number of its users
(claims and shares minus releases). -/
theorem C20_refcount {cap vend cm sp : Nat} {s : Sys} {b : Book}
    (h : Reach (initSys cap vend cm sp) s b) (t off : Nat) (hk : isVnode t = true)
    (hb : isBk t = true) (ha : ltypeSize t ∣ off) : dbkrefAt (s.vs t) t off = b.r t off := by
  obtain ⟨hi, _⟩ := reach_inv h
  rw [dbkrefAt_eq hk (hi.v t hk) ha, if_pos hb]

/-- C20: a unit of any kind is marked allocated in the maps exactly while it has users. -/
theorem C20_allocated_iff {cap vend cm sp : Nat} {s : Sys} {b : Book}
    (h : Reach (initSys cap vend cm sp) s b) (t off : Nat) (hk : isVnode t = true)
    (ha : ltypeSize t ∣ off) :
    ((s.vs t).bk (lbaOf off)).isAllocated t (kbnOf off) = true ↔ 0 < b.r t off := by
  obtain ⟨hi, _⟩ := reach_inv h
  have hv := hi.v t hk
  unfold Bkr.isAllocated
  cases hb : isBk t
  · simp only [Bool.false_eq_true, if_false]
    obtain ⟨hfit, hoff, hleaf, hn0, _⟩ := unit_fit hk ha
    unfold Bkr.testAlloc
    rw [hasMask_iff]
    constructor
    · intro hh
      have := hh (kbnOf off) (by omega) (by omega) (by omega)
      rw [hv.bit _ _ (by omega), (unit_eq hk ha (by omega)).mpr ⟨rfl, by omega, by omega⟩] at this
      exact this
    · intro hh i hi1 hi2 hi3
      rw [hv.bit _ _ (by omega), (unit_eq hk ha (by omega)).mpr ⟨rfl, by omega, by omega⟩]
      exact hh
  · simp only [if_true, decide_eq_true_eq]
    have := dbkrefAt_eq hk hv ha
    unfold dbkrefAt at this
    rw [hb, if_pos rfl, if_pos rfl] at this
    omega

/-- C20: a successful release makes the object count drop exactly when the released
user was the last one. -/
theorem C20_release {cap vend cm sp : Nat} {s s' : Sys} {b : Book} {t off : Nat} {o : Oracle}
    (h : Reach (initSys cap vend cm sp) s b) (hk : isVnode t = true) (hu : 0 < b.r t off)
    (hc : reclaim s t off o = some (s', none)) :
    s'.objsBase t + s'.objs t =
      (s.objsBase t + s.objs t) - (if b.r t off = 1 then 1 else 0) := by
  obtain ⟨hi, _⟩ := reach_inv h
  obtain ⟨_, _, _, h2⟩ := reclaim_inv hk hu hi hc
  have h3 := (h2 rfl).cnt t hk
  have h4 := hi.cnt t hk
  rw [h3, h4]
  simp only [Book.released]
  split
  · have hm := (hi.mem t off hk).mpr hu
    rw [upd_same, List.length_erase_of_mem hm]
    have := List.length_pos_of_mem hm
    omega
  · omega

/-- A free unit of a leaf is found by the search of that leaf. -/
theorem sliFindFree_complete {vend t k off : Nat} {v : VSpace} {r : Nat → Nat}
    (hk : isVnode t = true) (h : VInv vend t v r) (ha : ltypeSize t ∣ off) (hl : leafOf off = k)
    (h0 : r off = 0) : (sliFindFree v t k (k * SPAN)).isSome := by
  obtain ⟨hfit, hoff, hleaf, hn0, hmod⟩ := unit_fit hk ha
  obtain ⟨hsz, hcase, hnb⟩ := kind_cases t hk
  have hclr : ∀ i, i < 64 → kbnOf off ≤ i → i < kbnOf off + nkbs t →
      (v.bk (lbaOf off)).alloc.getLsbD i = false := by
    intro i hi h1 h2
    have hu : unitOff t (lbaOf off) i = off := (unit_eq hk ha hi).mpr ⟨rfl, h1, h2⟩
    have := h.bit (lbaOf off) i hi
    rw [hu, h0] at this
    simpa using this
  have hfree := freecnt_ge (v.bk (lbaOf off)) (kbnOf off) (nkbs t) hfit hclr
  have huse : (v.bk (lbaOf off)).usecnt ≤ 64 := usecnt_le _
  have hlba : k = lbaOf off / 256 := by rw [← hl]; unfold leafOf lbaOf SPAN LBK; omega
  have hbd := leafUsecnt_bound v.bk k (lbaOf off) (nkbs t) hlba hfree
  have hnu := h.nu k
  unfold sliFindFree
  rw [if_pos (by rw [hnu]; unfold KB SPAN; omega)]
  simp only [Nat.max_self]
  rw [if_neg (by unfold SPAN; omega)]
  unfold leafFindFree
  rw [List.isSome_findSome?, List.any_eq_true]
  refine ⟨lbaOf off % 256, ?_, ?_⟩
  · rw [List.mem_range'_1]; unfold NBK; simp; omega
  · have e1 : k * NBK + lbaOf off % 256 = lbaOf off := by unfold NBK; omega
    simp only [e1]
    have hm : (v.bk (lbaOf off)).mayAlloc (nkbs t) = true := by
      unfold Bkr.mayAlloc
      simp only [Bool.and_eq_true, Bool.not_eq_true', decide_eq_true_eq]
      refine ⟨?_, by unfold Bkr.freecnt; omega⟩
      cases hf : (v.bk (lbaOf off)).isFull
      · rfl
      · unfold Bkr.isFull Bkr.testAlloc at hf
        rw [hasMask_iff] at hf
        have := hf (kbnOf off) (by omega) (by omega) (by omega)
        rw [hclr _ (by omega) (by omega) (by omega)] at this
        exact absurd this (by simp)
    rw [if_pos hm, Option.isSome_map]
    unfold Bkr.findFree
    rw [Option.isSome_map, List.find?_isSome]
    obtain ⟨j, hj⟩ : nkbs t ∣ kbnOf off := Nat.dvd_of_mod_eq_zero hmod
    refine ⟨j, ?_, ?_⟩
    · rw [List.mem_range]
      rcases hcase with h | h | h | ⟨h, _⟩ <;> rw [h] at hj hfit ⊢ <;> omega
    · rw [hasNone_iff]
      intro i h1 h2 h3
      have : j * nkbs t = kbnOf off := by rw [hj, Nat.mul_comm]
      exact hclr i (by omega) (by omega) (by omega)

/-- C20: right after the last user released it, the unit's leaf has allocatable space
again; while it has users no claim returns it (`C19_claim_disjoint`). -/
theorem C20_freed_allocatable {cap vend cm sp : Nat} {s s' : Sys} {b : Book} {t off : Nat}
    {o : Oracle} (h : Reach (initSys cap vend cm sp) s b) (hk : isVnode t = true)
    (hu : b.r t off = 1) (hc : reclaim s t off o = some (s', none)) :
    (sliFindFree (s'.vs t) t (leafOf off) (leafOf off * SPAN)).isSome := by
  obtain ⟨hi, _⟩ := reach_inv h
  obtain ⟨_, _, _, h2⟩ := reclaim_inv hk (by omega) hi hc
  have ha := ((hi.v t hk).used off (by omega)).1
  refine sliFindFree_complete hk ((h2 rfl).v t hk) ha rfl ?_
  simp [Book.released, upd, hu]

/-! ### C21 -/

/-- C21: the object counter of each kind equals the number of units in use. -/
theorem C21_objects {cap vend cm sp : Nat} {s : Sys} {b : Book}
    (h : Reach (initSys cap vend cm sp) s b) (t : Nat) (hk : isVnode t = true) :
    s.objsBase t + s.objs t = ((b.live t).length : Int) :=
  (reach_inv h).1.cnt t hk

/-- Bytes in use by objects of all vnode kinds. -/
def vnodeBytes (b : Book) : Nat :=
  ((List.range' 5 8).map fun t => (b.live t).length * ltypeSize t).sum

/-- Bytes of space maps and super-blocks. -/
def unodeBytes (s : Sys) : Int :=
  ((List.range' 2 3).map fun t => (s.objsBase t + s.objs t) * (ltypeSize t : Int)).sum

theorem SysInv.used {s : Sys} {b : Book} (hi : SysInv s b) :
    usedBytes s = (vnodeBytes b : Int) + unodeBytes s ∧ 0 ≤ unodeBytes s := by
  have hc := fun t h => hi.cnt t h
  have hu := fun t h => hi.unode t h
  have c5 := hc 5 rfl; have c6 := hc 6 rfl; have c7 := hc 7 rfl; have c8 := hc 8 rfl
  have c9 := hc 9 rfl; have c10 := hc 10 rfl; have c11 := hc 11 rfl; have c12 := hc 12 rfl
  have u2 := hu 2 rfl; have u3 := hu 3 rfl; have u4 := hu 4 rfl
  simp [usedBytes, vnodeBytes, unodeBytes, List.range, List.range.loop, List.range', ltypeSize,
    LTYPE_NONE, LTYPE_BOOTREC, c5, c6, c7, c8, c9, c10, c11, c12]
  omega

/-- C21: the reported number of used bytes is exactly the bytes of the units in use
plus the bytes of the space maps. -/
theorem C21_bytes {cap vend cm sp : Nat} {s : Sys} {b : Book}
    (h : Reach (initSys cap vend cm sp) s b) :
    usedBytes s = (vnodeBytes b : Int) + unodeBytes s ∧ 0 ≤ unodeBytes s :=
  (reach_inv h).1.used

/-- C21: taking a snapshot (re-basing the statistics) changes no total. -/
theorem C21_snapshot (s : Sys) : usedBytes (renewStats s) = usedBytes s := by
  unfold usedBytes renewStats
  simp

/-- C21: gauges survive being stored. -/
theorem C21_gauge (k : Int) (h1 : -9223372036854775808 < k) (h2 : k < 9223372036854775808) :
    gaugeDec (gaugeEnc k) = k ∧ gaugeEnc k < 18446744073709551616 := by
  unfold gaugeDec gaugeEnc
  constructor
  · split <;> split <;> omega
  · split <;> omega

/-! ### C22 -/

theorem usedU_eq {s : Sys} {b : Book} (hi : SysInv s b)
    (hb : (vnodeBytes b : Int) + unodeBytes s < 18446744073709551616) :
    (usedU s : Int) = usedBytes s := by
  have := hi.used
  unfold usedU toU64
  omega

/-- C22: an allocation succeeds only if the used space including the new unit stays a
64K margin below the capacity; a data allocation in addition keeps 1/32 of the
capacity free, and the number of inodes stays below one per 4K of capacity. -/
theorem C22_claim {cap vend cm sp : Nat} {s s' : Sys} {b : Book} {t off : Nat} {o : Oracle}
    (h : Reach (initSys cap vend cm sp) s b) (hk : isVnode t = true)
    (hcap : cap < 288230376151711744)
    (hused : usedBytes s < 9223372036854775808)
    (hc : claim s t o = some (s', .ok off)) :
    usedBytes s + ltypeSize t + 65536 < cap ∧
    (isData t = true → 32 * (usedBytes s + ltypeSize t) ≤ 31 * cap) ∧
    (t = LTYPE_INODE → ((b.live t).length : Int) < cap / 1024 / 4) := by
  obtain ⟨hi, _, hcp⟩ := reach_inv h
  obtain ⟨_, _, _, c4⟩ := claim_inv hk hi hc
  obtain ⟨_, _, _, _, hav⟩ := c4 off rfl
  have hu := hi.used
  have hU := usedU_eq hi (by omega)
  have hsz : ltypeSize t ≤ 65536 := by
    obtain ⟨h1, h2, _⟩ := kind_cases t hk
    omega
  unfold checkAvail at hav
  rw [Bool.and_eq_true] at hav
  obtain ⟨h1, h2⟩ := hav
  unfold mayallocSome LBK at h1
  rw [hcp] at h1
  simp only [decide_eq_true_eq] at h1
  have hnn : 0 ≤ usedBytes s := by omega
  refine ⟨by omega, ?_, ?_⟩
  · intro hd
    rw [hd, if_pos rfl] at h2
    unfold mayallocData at h2
    rw [hcp] at h2
    simp only [decide_eq_true_eq] at h2
    omega
  · intro ht
    subst ht
    rw [if_neg (by decide)] at h2
    unfold mayallocMeta at h2
    rw [hcp] at h2
    split at h2
    · simp at h2
    · rw [if_pos (by decide)] at h2
      simp only [decide_eq_true_eq] at h2
      have hcnt := hi.cnt LTYPE_INODE hk
      have hle : ((b.live LTYPE_INODE).length : Int) ≤ vnodeBytes b := by
        simp [vnodeBytes, List.range', ltypeSize, LTYPE_INODE]
        omega
      rw [hcnt] at h2
      unfold toU64 at h2
      omega

/-! ### C21: byte counters of the space leaves -/

theorem sum_map_add (n : Nat) (f g : Nat → Nat) :
    ((List.range n).map fun i => f i + g i).sum =
      ((List.range n).map f).sum + ((List.range n).map g).sum := by
  induction n with
  | zero => rfl
  | succ n ih => simp [List.range_succ, ih]; omega

theorem sum_range_congr (n : Nat) (f g : Nat → Nat) (h : ∀ i, i < n → f i = g i) :
    ((List.range n).map f).sum = ((List.range n).map g).sum := by
  rw [List.map_congr_left]
  intro i hi; exact h i (List.mem_range.mp hi)

theorem sum_map_single (n j c : Nat) :
    ((List.range n).map fun i => if i = j then c else 0).sum = if j < n then c else 0 := by
  induction n with
  | zero => rfl
  | succ n ih =>
    rw [List.range_succ, List.map_append, List.sum_append, ih]
    simp only [List.map_cons, List.map_nil, List.sum_cons, List.sum_nil]
    by_cases h1 : j < n
    · rw [if_pos h1, if_neg (by omega), if_pos (by omega)]; omega
    · by_cases h2 : n = j
      · rw [if_neg h1, if_pos h2, if_pos (by omega)]; omega
      · rw [if_neg h1, if_neg h2, if_neg (by omega)]; omega

/-- KBs of leaf `k` covered by the units in `l`. -/
def kbsIn (t k : Nat) (l : List Nat) : Nat :=
  ((List.range NBK).map fun bn =>
    (List.range 64).countP fun i => decide (unitOff t (k * NBK + bn) i ∈ l)).sum

theorem kbsIn_eq (t k : Nat) (hk : isVnode t = true) (l : List Nat) (hnd : l.Nodup)
    (ha : ∀ o ∈ l, ltypeSize t ∣ o) :
    kbsIn t k l = l.countP (fun o => decide (leafOf o = k)) * nkbs t := by
  induction l with
  | nil =>
    unfold kbsIn
    simp only [List.not_mem_nil, decide_false, List.countP_false, List.countP_nil, Nat.zero_mul]
    exact sum_map_zero _
  | cons off l ih =>
    obtain ⟨hn1, hn2⟩ := List.nodup_cons.mp hnd
    have hal := ha off (by simp)
    have ih' := ih hn2 (fun o ho => ha o (by simp [ho]))
    obtain ⟨hfit, hoff, hleaf, hn0, hmod⟩ := unit_fit hk hal
    have e : kbsIn t k (off :: l) = kbsIn t k l +
        ((List.range NBK).map fun bn => if bn = lbaOf off - k * NBK ∧ leafOf off = k then nkbs t else 0).sum := by
      unfold kbsIn
      rw [← sum_map_add]
      apply sum_range_congr
      intro bn hbn'
      rw [countP_or_disjoint (List.range 64) (fun i => decide (unitOff t (k * NBK + bn) i ∈ l))
        (fun i => decide (unitOff t (k * NBK + bn) i = off))
        (fun i => decide (unitOff t (k * NBK + bn) i ∈ off :: l))]
      · apply congrArg
        split
        · rename_i hh
          have hlba : k * NBK + bn = lbaOf off := by unfold NBK at *; omega
          rw [hlba]
          rw [← countP_range_interval 64 (kbnOf off) (nkbs t) hfit]
          apply List.countP_congr
          intro i hi
          have := unit_eq (lba := lbaOf off) hk hal (List.mem_range.mp hi)
          simp only [decide_eq_true_eq, this, true_and]
        · rename_i hh
          rw [List.countP_eq_zero]
          intro i hi
          have := unit_eq (lba := k * NBK + bn) hk hal (List.mem_range.mp hi)
          simp only [decide_eq_true_eq, this]
          intro hc
          apply hh
          unfold NBK at *; omega
      · intro x _
        simp only [List.mem_cons, Bool.decide_or, Bool.or_comm]
      · intro x _ hc
        simp only [decide_eq_true_eq] at hc
        exact hn1 (hc.2 ▸ hc.1)
    rw [e, ih', List.countP_cons]
    by_cases hl : leafOf off = k
    · simp only [hl, and_true, decide_true, if_true]
      rw [sum_map_single, if_pos (by unfold NBK; omega)]
      rw [Nat.add_mul, Nat.one_mul]
    · simp only [hl, and_false, if_false, decide_false]
      rw [sum_map_zero]
      simp

/-- C21: the used-bytes counter of a space leaf is the size of the units in use
inside that leaf. -/
theorem C21_leaf_bytes {cap vend cm sp : Nat} {s : Sys} {b : Book}
    (h : Reach (initSys cap vend cm sp) s b) (t k : Nat) (hk : isVnode t = true) :
    (s.vs t).nused k = (b.live t).countP (fun o => decide (leafOf o = k)) * ltypeSize t := by
  obtain ⟨hi, _⟩ := reach_inv h
  have hv := hi.v t hk
  have hal : ∀ o ∈ b.live t, ltypeSize t ∣ o := fun o ho =>
    (hv.used o ((hi.mem t o hk).mp ho)).1
  have hkb := kbsIn_eq t k hk (b.live t) (hi.nd t hk) hal
  have e : leafUsecnt (s.vs t).bk k = kbsIn t k (b.live t) := by
    unfold leafUsecnt kbsIn Bkr.usecnt popcount
    apply sum_range_congr
    intro bn _
    apply List.countP_congr
    intro i hi'
    rw [hv.bit _ _ (List.mem_range.mp hi'), decide_eq_true_eq, hi.mem t _ hk]
  rw [hv.nu, e, hkb, (kind_cases t hk).1, Nat.mul_assoc]
  rfl

/-! ### C22: bound over all histories -/

def UMono (s s' : Sys) : Prop :=
  ∀ t, isVnode t = false → s.objsBase t + s.objs t ≤ s'.objsBase t + s'.objs t

theorem UMono.rfl' (s : Sys) : UMono s s := fun _ _ => Int.le_refl _
theorem UMono.trans {a b c : Sys} (h1 : UMono a b) (h2 : UMono b c) : UMono a c :=
  fun t ht => Int.le_trans (h1 t ht) (h2 t ht)

theorem require_mono {s s' : Sys} {t k : Nat} {o : ReqO} {e : Option Err}
    (hr : require s t k o = some (s', e)) : UMono s s' := by
  have h0 : ∀ n : Nat, n = LTYPE_SPNODE ∨ n ≠ LTYPE_SPNODE := fun n => by omega
  unfold require at hr
  simp only [] at hr
  intro u hu
  split at hr
  · simp only [Option.some.injEq, Prod.mk.injEq] at hr; obtain ⟨rfl, rfl⟩ := hr
    simp only [upd]; split <;> (try subst_vars) <;> omega
  · split at hr
    · simp only [Option.some.injEq, Prod.mk.injEq] at hr; obtain ⟨rfl, rfl⟩ := hr
      simp only [upd]; split <;> (try subst_vars) <;> omega
    · split at hr
      · exact absurd hr (by simp)
      · simp only [Option.some.injEq, Prod.mk.injEq] at hr; obtain ⟨rfl, rfl⟩ := hr
        simp only [upd, LTYPE_SPNODE, LTYPE_SPLEAF]
        by_cases h3 : u = 3
        · subst h3; simp; omega
        · by_cases h4 : u = 4
          · subst h4; simp; omega
          · simp [h3, h4]

theorem slow_mono {t : Nat} {req : Nat → ReqO} (fuel : Nat) :
    ∀ {i s voff s' r}, slow t req fuel i s voff = some (s', r) → UMono s s' := by
  induction fuel with
  | zero =>
    intro i s voff s' r h
    simp only [slow, Option.some.injEq, Prod.mk.injEq] at h; obtain ⟨rfl, rfl⟩ := h
    exact UMono.rfl' _
  | succ fuel ih =>
    intro i s voff s' r h
    unfold slow at h
    split at h
    · split at h
      · exact absurd h (by simp)
      · rename_i hr; exact (require_mono hr).trans (ih h)
      · rename_i hr
        simp only [Option.some.injEq, Prod.mk.injEq] at h; obtain ⟨rfl, rfl⟩ := h
        exact require_mono hr
      · rename_i hr
        split at h
        · split at h
          · simp only [Option.some.injEq, Prod.mk.injEq] at h; obtain ⟨rfl, rfl⟩ := h
            exact require_mono hr
          · exact (require_mono hr).trans (ih h)
        · exact (require_mono hr).trans (ih h)
    · simp only [Option.some.injEq, Prod.mk.injEq] at h; obtain ⟨rfl, rfl⟩ := h
      exact UMono.rfl' _

theorem popCache_mono {s s' : Sys} {t off : Nat} (h : popCache s t = some (off, s')) : UMono s s' := by
  unfold popCache at h
  split at h
  · exact absurd h (by simp)
  · simp only [Option.some.injEq, Prod.mk.injEq] at h; obtain ⟨rfl, rfl⟩ := h
    exact fun _ _ => Int.le_refl _

theorem findUnalloc_mono {s s' : Sys} {t : Nat} {o : Oracle} {r : Except Err Nat}
    (h : findUnalloc s t o = some (s', r)) : UMono s s' := by
  unfold findUnalloc at h
  split at h
  · rename_i hp
    simp only [Option.some.injEq, Prod.mk.injEq] at h; obtain ⟨rfl, rfl⟩ := h
    exact popCache_mono hp
  · split at h
    · exact absurd h (by simp)
    · rename_i hs
      simp only [Option.some.injEq, Prod.mk.injEq] at h; obtain ⟨rfl, rfl⟩ := h
      exact slow_mono _ hs
    · rename_i hs
      split at h
      · rename_i hp
        simp only [Option.some.injEq, Prod.mk.injEq] at h; obtain ⟨rfl, rfl⟩ := h
        exact (slow_mono _ hs).trans (popCache_mono hp)
      · simp only [Option.some.injEq, Prod.mk.injEq] at h; obtain ⟨rfl, rfl⟩ := h
        exact slow_mono _ hs

theorem updObjs_mono {s : Sys} {vs : Nat → VSpace} {bks : Nat → Int} {t : Nat} {n : Int}
    (hk : isVnode t = true) : UMono s { s with vs := vs, bks := bks, objs := upd s.objs t n } := by
  intro u hu
  have : u ≠ t := fun h => by subst h; rw [hk] at hu; exact absurd hu (by simp)
  simp only [upd_ne _ _ this]
  exact Int.le_refl _

theorem claim_mono {s s' : Sys} {t : Nat} {o : Oracle} {r : Except Err Nat} (hk : isVnode t = true)
    (h : claim s t o = some (s', r)) : UMono s s' := by
  unfold claim at h
  split at h
  · simp only [Option.some.injEq, Prod.mk.injEq] at h; obtain ⟨rfl, rfl⟩ := h
    exact UMono.rfl' _
  · split at h
    · exact absurd h (by simp)
    · rename_i hf
      simp only [Option.some.injEq, Prod.mk.injEq] at h; obtain ⟨rfl, rfl⟩ := h
      exact findUnalloc_mono hf
    · rename_i hf
      have m1 := findUnalloc_mono hf
      split at h
      · simp only [Option.some.injEq, Prod.mk.injEq] at h; obtain ⟨rfl, rfl⟩ := h
        exact m1
      · split at h
        · exact absurd h (by simp)
        · rename_i hr
          simp only [Option.some.injEq, Prod.mk.injEq] at h; obtain ⟨rfl, rfl⟩ := h
          exact m1.trans (require_mono hr)
        · rename_i hr
          have m2 := m1.trans (require_mono hr)
          split at h
          · simp only [Option.some.injEq, Prod.mk.injEq] at h; obtain ⟨rfl, rfl⟩ := h
            exact m2
          · split at h
            · exact absurd h (by simp)
            · rename_i hm
              simp only [Option.some.injEq, Prod.mk.injEq] at h; obtain ⟨rfl, rfl⟩ := h
              refine m2.trans ?_
              unfold mark at hm
              split at hm
              · exact absurd hm (by simp)
              · simp only [Option.some.injEq] at hm; subst hm
                exact updObjs_mono hk

theorem reclaim_mono {s s' : Sys} {t off : Nat} {o : Oracle} {r : Option Err} (hk : isVnode t = true)
    (h : reclaim s t off o = some (s', r)) : UMono s s' := by
  unfold reclaim at h
  split at h
  · exact absurd h (by simp)
  · rename_i hr
    simp only [Option.some.injEq, Prod.mk.injEq] at h; obtain ⟨rfl, rfl⟩ := h
    exact require_mono hr
  · rename_i hr
    split at h
    · simp only [Option.some.injEq, Prod.mk.injEq] at h; obtain ⟨rfl, rfl⟩ := h
      exact require_mono hr
    · split at h
      · exact absurd h (by simp)
      · simp only [] at h
        split at h
        · exact absurd h (by simp)
        · simp only [Option.some.injEq, Prod.mk.injEq] at h; obtain ⟨rfl, rfl⟩ := h
          refine (require_mono hr).trans ?_
          intro u hu
          have : u ≠ t := fun h => by subst h; rw [hk] at hu; exact absurd hu (by simp)
          simp only []
          split
          · exact Int.le_refl _
          · rw [upd_ne _ _ this]; exact Int.le_refl _

theorem addref_mono {s s' : Sys} {t off : Nat} {o : Oracle} {r : Option Err}
    (h : addref s t off o = some (s', r)) : UMono s s' := by
  unfold addref at h
  split at h
  · exact absurd h (by simp)
  · rename_i hr
    simp only [Option.some.injEq, Prod.mk.injEq] at h; obtain ⟨rfl, rfl⟩ := h
    exact require_mono hr
  · rename_i hr
    split at h
    · simp only [Option.some.injEq, Prod.mk.injEq] at h; obtain ⟨rfl, rfl⟩ := h
      exact require_mono hr
    · simp only [] at h
      split at h
      · exact absurd h (by simp)
      · simp only [Option.some.injEq, Prod.mk.injEq] at h; obtain ⟨rfl, rfl⟩ := h
        exact (require_mono hr).trans fun _ _ => Int.le_refl _

theorem rescan_mono {t : Nat} {req : Nat → ReqO} (fuel : Nat) :
    ∀ {i s voff s' r}, rescanLoop t req fuel i s voff = (s', r) → UMono s s' := by
  induction fuel with
  | zero =>
    intro i s voff s' r h
    simp only [rescanLoop, Prod.mk.injEq] at h; obtain ⟨rfl, rfl⟩ := h
    exact UMono.rfl' _
  | succ fuel ih =>
    intro i s voff s' r h
    unfold rescanLoop at h
    split at h
    · split at h
      · simp only [Prod.mk.injEq] at h; obtain ⟨rfl, rfl⟩ := h
        exact UMono.rfl' _
      · split at h
        · simp only [] at h
          split at h
          · split at h
            · simp only [Prod.mk.injEq] at h; obtain ⟨rfl, rfl⟩ := h
              exact fun _ _ => Int.le_refl _
            · exact fun u hu => ih h u hu
          · exact fun u hu => ih h u hu
        · simp only [Prod.mk.injEq] at h; obtain ⟨rfl, rfl⟩ := h
          exact UMono.rfl' _
    · simp only [Prod.mk.injEq] at h; obtain ⟨rfl, rfl⟩ := h
      exact UMono.rfl' _

theorem exec_mono {s s' : Sys} {b b' : Book} {op : Op} {out : Option (Nat × Nat)}
    (hl : Legal b op) (he : exec s b op = some (s', b', out)) : UMono s s' := by
  cases op with
  | claim t o =>
    simp only [exec] at he
    split at he
    · exact absurd he (by simp)
    all_goals
      rename_i hc
      simp only [Option.some.injEq, Prod.mk.injEq] at he; obtain ⟨rfl, rfl, _⟩ := he
      exact claim_mono hl hc
  | addref t off o =>
    simp only [exec] at he
    split at he
    · exact absurd he (by simp)
    all_goals
      rename_i hc
      simp only [Option.some.injEq, Prod.mk.injEq] at he; obtain ⟨rfl, rfl, _⟩ := he
      exact addref_mono hc
  | reclaim t off o =>
    simp only [exec] at he
    split at he
    · exact absurd he (by simp)
    all_goals
      rename_i hc
      simp only [Option.some.injEq, Prod.mk.injEq] at he; obtain ⟨rfl, rfl, _⟩ := he
      exact reclaim_mono hl.1 hc
  | remount t o =>
    simp only [exec, Option.map_eq_some_iff, Prod.mk.injEq] at he
    obtain ⟨s1, hc, rfl, rfl, _⟩ := he
    unfold remount at hc
    simp only [] at hc
    split at hc
    · rename_i hr
      simp only [Option.some.injEq] at hc; subst hc
      exact fun u hu => rescan_mono _ hr u hu
    · rename_i hr
      split at hc
      · exact absurd hc (by simp)
      · simp only [Option.some.injEq] at hc; subst hc
        exact fun u hu => rescan_mono _ hr u hu
  | setUnwritten t off =>
    simp only [exec, Option.some.injEq, Prod.mk.injEq] at he; obtain ⟨rfl, rfl, _⟩ := he
    unfold markUnwritten; simp only []; split <;> exact fun _ _ => Int.le_refl _
  | clearUnwritten t off =>
    simp only [exec, Option.some.injEq, Prod.mk.injEq] at he; obtain ⟨rfl, rfl, _⟩ := he
    unfold clearUnwritten; simp only []; split <;> exact fun _ _ => Int.le_refl _
  | reload t k =>
    simp only [exec, Option.some.injEq, Prod.mk.injEq] at he; obtain ⟨rfl, rfl, _⟩ := he
    exact fun _ _ => Int.le_refl _
  | renewStats =>
    simp only [exec, Option.some.injEq, Prod.mk.injEq] at he; obtain ⟨rfl, rfl, _⟩ := he
    intro t _; simp only [renewStats]; omega

theorem UMono.bytes {s s' : Sys} (h : UMono s s') : unodeBytes s ≤ unodeBytes s' := by
  have h2 := h 2 rfl; have h3 := h 3 rfl; have h4 := h 4 rfl
  simp [unodeBytes, List.range', ltypeSize, LTYPE_SUPER, LTYPE_SPNODE, LTYPE_SPLEAF]
  omega

theorem vnodeBytes_claimed (b : Book) (t off : Nat) (hk : isVnode t = true) :
    vnodeBytes (b.claimed t off) = vnodeBytes b + ltypeSize t := by
  unfold isVnode at hk
  simp at hk
  have : t = 5 ∨ t = 6 ∨ t = 7 ∨ t = 8 ∨ t = 9 ∨ t = 10 ∨ t = 11 ∨ t = 12 := by omega
  rcases this with h | h | h | h | h | h | h | h <;> subst h <;>
    simp [vnodeBytes, Book.claimed, upd, List.range', Nat.add_mul] <;> omega

theorem vnodeBytes_released (b : Book) (t off : Nat) :
    vnodeBytes (b.released t off) ≤ vnodeBytes b := by
  have : ∀ u, ((b.released t off).live u).length * ltypeSize u ≤ (b.live u).length * ltypeSize u := by
    intro u
    apply Nat.mul_le_mul_right
    simp only [Book.released]
    split
    · simp only [upd]; split
      · rename_i h; subst h; rw [List.length_erase]; split <;> omega
      · exact Nat.le_refl _
    · exact Nat.le_refl _
  unfold vnodeBytes
  simp only [List.range', List.map_cons, List.map_nil, List.sum_cons, List.sum_nil, Nat.reduceAdd]
  have a5 := this 5; have a6 := this 6; have a7 := this 7; have a8 := this 8
  have a9 := this 9; have a10 := this 10; have a11 := this 11; have a12 := this 12
  omega

/-- C22: in every reachable state the objects in use leave the 64K margin below the
configured capacity. The capacity is at most 2^58 (the code allows 2^46) and the
space maps are assumed to take less than 2^62 bytes. -/
theorem C22_capacity_partial {cap vend cm sp : Nat} {s : Sys} {b : Book}
    (h : Reach (initSys cap vend cm sp) s b) (hcap : cap < 288230376151711744)
    (hun : unodeBytes s < 4611686018427387904) :
    vnodeBytes b = 0 ∨ vnodeBytes b + 65536 < cap := by
  induction h with
  | init => left; rfl
  | @step s b op s' b' out hr hl he ih =>
    have hm := (exec_mono hl he).bytes
    have ih' := ih (by omega)
    have hu := (reach_inv hr).1.used
    cases op with
    | claim t o =>
      simp only [exec] at he
      split at he
      · exact absurd he (by simp)
      · rename_i s1 off hc
        simp only [Option.some.injEq, Prod.mk.injEq] at he; obtain ⟨rfl, rfl, _⟩ := he
        have := (C22_claim hr hl hcap (by omega) hc).1
        rw [vnodeBytes_claimed _ _ _ hl]
        right; omega
      · simp only [Option.some.injEq, Prod.mk.injEq] at he; obtain ⟨rfl, rfl, _⟩ := he
        exact ih'
    | addref t off o =>
      simp only [exec] at he
      split at he
      · exact absurd he (by simp)
      all_goals
        simp only [Option.some.injEq, Prod.mk.injEq] at he; obtain ⟨rfl, rfl, _⟩ := he
        exact ih'
    | reclaim t off o =>
      simp only [exec] at he
      split at he
      · exact absurd he (by simp)
      · simp only [Option.some.injEq, Prod.mk.injEq] at he; obtain ⟨rfl, rfl, _⟩ := he
        have := vnodeBytes_released b t off
        omega
      · simp only [Option.some.injEq, Prod.mk.injEq] at he; obtain ⟨rfl, rfl, _⟩ := he
        exact ih'
    | remount t o =>
      simp only [exec, Option.map_eq_some_iff, Prod.mk.injEq] at he
      obtain ⟨s1, hc, rfl, rfl, _⟩ := he
      exact ih'
    | _ =>
      simp only [exec, Option.some.injEq, Prod.mk.injEq] at he; obtain ⟨rfl, rfl, _⟩ := he
      exact ih'

/-- Creating the maps of a fresh 16M range adds 32K per created map node, whatever the
amount already used. -/
theorem C22_maps_unchecked {s s' : Sys} {t k : Nat} {o : ReqO} (hs : (s.vs t).spawned k = false)
    (hr : require s t k o = some (s', none)) :
    usedBytes s' = usedBytes s + 32768 * (o.spn + 1) := by
  unfold require at hr
  simp only [] at hr
  split at hr
  · simp at hr
  · simp only [hs, Bool.false_eq_true, if_false] at hr
    split at hr
    · exact absurd hr (by simp)
    · simp only [Option.some.injEq, Prod.mk.injEq, and_true] at hr; subst hr
      simp [usedBytes, List.range, List.range.loop, ltypeSize, upd, LTYPE_SPNODE, LTYPE_SPLEAF,
        LTYPE_NONE, LTYPE_BOOTREC]
      omega

/-! ### C02: freshly allocated data units read as zeros -/

theorem testUnwr_set (b : Bkr) (kbn nkb : Nat) : (b.setUnwr kbn nkb).testUnwr kbn nkb = true := by
  unfold Bkr.testUnwr
  rw [hasMask_iff]
  intro i hi h1 h2
  simp only [Bkr.setUnwr, BitVec.getLsbD_or, getLsbD_maskOf _ _ _ hi]
  simp [h1, h2]

/-- C02 (allocator side): a data unit handed out by the allocator is marked
"unwritten", whatever the history of that space. -/
theorem C02_fresh_unwritten {s s' : Sys} {t off : Nat} {o : Oracle} (hd : isData t = true)
    (hc : claim s t o = some (s', .ok off)) :
    ((s'.vs t).bk (lbaOf off)).testUnwr (kbnOf off) (nkbs t) = true := by
  unfold claim at hc
  split at hc
  · simp at hc
  · split at hc
    · exact absurd hc (by simp)
    · simp at hc
    · split at hc
      · simp at hc
      · split at hc
        · exact absurd hc (by simp)
        · simp at hc
        · split at hc
          · simp at hc
          · split at hc
            · exact absurd hc (by simp)
            · rename_i hm
              simp only [Option.some.injEq, Prod.mk.injEq, Except.ok.injEq] at hc
              obtain ⟨rfl, rfl⟩ := hc
              unfold mark at hm
              split at hm
              · exact absurd hm (by simp)
              · rename_i hv
                simp only [Option.some.injEq] at hm; subst hm
                unfold markV at hv
                simp only [] at hv
                split at hv
                · exact absurd hv (by simp)
                · simp only [Option.some.injEq] at hv; subst hv
                  simp only [upd_same, hd, if_true]
                  exact testUnwr_set _ _ _

/-- C02 (allocator side): allocating a unit leaves the "unwritten" marks of all other
KBs as they were. -/
theorem C02_mark_frame {v v' : VSpace} {t off lba i : Nat} (hi : i < 64)
    (hm : markV v t off = some v')
    (hne : ¬ (lba = lbaOf off ∧ kbnOf off ≤ i ∧ i < kbnOf off + nkbs t)) :
    (v'.bk lba).unwr.getLsbD i = (v.bk lba).unwr.getLsbD i := by
  unfold markV at hm
  simp only [] at hm
  split at hm
  · exact absurd hm (by simp)
  · simp only [Option.some.injEq] at hm; subst hm
    simp only [upd]
    split
    · rename_i hl
      subst hl
      have hn : decide (kbnOf off ≤ i ∧ i < kbnOf off + nkbs t) = false := by
        simpa using hne
      have hr : ((v.bk (lbaOf off)).ref t (kbnOf off)).unwr = (v.bk (lbaOf off)).unwr := by
        unfold Bkr.ref; simp only []; split <;> rfl
      split
      · simp only [Bkr.setUnwr, BitVec.getLsbD_or, getLsbD_maskOf _ _ _ hi, hr, hn, Bool.or_false]
      · rw [hr]
    · rfl

/-- Oracle used in the examples: everything succeeds, the first leaf tried also needs
four new space nodes. -/
def okOracle : Oracle :=
  ⟨fun _ => ⟨none, 4, true, true⟩, ⟨none, 0, true, true⟩, none, true, true⟩

/-- Used and free space after one inode was allocated. -/
def afterOne (cap : Nat) : Option (Int × Nat) :=
  (claim (initSys cap 33554432 4194304 48) LTYPE_INODE okOracle).map
    fun r => (usedBytes r.1, statvfsFree r.1)

/-- C21/C22 do not hold for the total: space maps are created without a capacity
check, so one allowed allocation can push the used bytes beyond the capacity; the
free space reported by statvfs then wraps around to a huge number. -/
theorem C22_total_violated : afterOne 131072 = some (164864, 4503599627370487) := by
  decide +kernel

/-- A history meeting the hypotheses of the theorems above: claim, share, release twice. -/
example : ∃ s b, Reach (initSys 2147483648 33554432 4194304 48) s b ∧
    b.live LTYPE_DATABK = [0] ∧ b.r LTYPE_DATABK 0 = 2 := by
  have h1 : (exec (initSys 2147483648 33554432 4194304 48) Book.empty (.claim LTYPE_DATABK okOracle)).map
      (fun r => r.2.2) = some (some (0, 65536)) := by decide +kernel
  rw [Option.map_eq_some_iff] at h1
  obtain ⟨⟨s1, b1, out⟩, h1, h1'⟩ := h1
  have r1 := Reach.step (Reach.init (s0 := initSys 2147483648 33554432 4194304 48))
    (op := .claim LTYPE_DATABK okOracle) rfl h1
  have hb1 : b1 = Book.empty.claimed LTYPE_DATABK 0 := by
    simp only [exec] at h1
    split at h1
    · exact absurd h1 (by simp)
    · simp only [Option.some.injEq, Prod.mk.injEq] at h1
      simp only at h1'
      rw [← h1.2.2] at h1'
      simp at h1'
      rw [← h1.2.1, h1'.1]
    · simp only [Option.some.injEq, Prod.mk.injEq] at h1
      simp only at h1'
      rw [← h1.2.2] at h1'
      simp at h1'
  have hl2 : Legal b1 (.addref LTYPE_DATABK 0 okOracle) := by
    subst hb1; exact ⟨rfl, rfl, by decide⟩
  have h2 := C19_defined_partial r1 hl2 ⟨rfl, rfl, fun _ => rfl⟩
  have h3 : ∀ s b, exec s b (.addref LTYPE_DATABK 0 okOracle) = none ∨
      ∃ s', exec s b (.addref LTYPE_DATABK 0 okOracle) = some (s', b.shared LTYPE_DATABK 0, none) := by
    intro s b
    simp only [exec]
    split
    · left; rfl
    · right; exact ⟨_, rfl⟩
    · rename_i hc
      exfalso
      unfold addref require okOracle at hc
      simp only [] at hc
      split at hc <;> simp_all
      all_goals (repeat split at * <;> simp_all)
  rcases h3 s1 b1 with h | ⟨s', h⟩
  · rw [h] at h2; simp at h2
  · refine ⟨s', _, Reach.step r1 hl2 h, ?_, ?_⟩
    · subst hb1; rfl
    · subst hb1; rfl

end Silofs.Space
