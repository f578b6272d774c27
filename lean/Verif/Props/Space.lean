import Verif.Props.SpaceBits
/-
C19-C22: the space allocator never hands out space twice, reference counts are
exact, accounting is exact, and the capacity limit is enforced.
-/
set_option linter.unusedSimpArgs false
set_option linter.unusedVariables false
namespace Silofs.Space
open Silofs.Addr Silofs.FreeCache

@[simp] theorem upd_same {α : Type} (f : Nat → α) (i : Nat) (v : α) : upd f i v i = v := by
  simp [upd]
theorem upd_ne {α : Type} (f : Nat → α) {i j : Nat} (v : α) (h : j ≠ i) : upd f i v j = f j := by
  simp [upd, h]

/-! ### Alignment of the free cache -/

/-- Everything in the cache is made of units of `sz` bytes. -/
structure CAl (sz : Nat) (c : Cache) : Prop where
  ulen : c.ulen = sz
  lifo : ∀ o ∈ c.lifo, sz ∣ o
  avl : ∀ e ∈ c.avl, sz ∣ e.1 ∧ sz ∣ e.2 ∧ 0 < e.2

theorem pop_al {sz : Nat} (hsz : 0 < sz) {c c' : Cache} {off : Nat} (h : pop c sz = some (off, c'))
    (ha : CAl sz c) : sz ∣ off ∧ CAl sz c' ∧ c'.hint = c.hint := by
  unfold pop at h
  split at h
  · rename_i o rest hl hu
    simp only [Option.some.injEq, Prod.mk.injEq] at h
    obtain ⟨rfl, rfl⟩ := h
    refine ⟨ha.lifo _ (by simp [hl]), ⟨ha.ulen, fun o ho => ha.lifo _ (by simp [hl, ho]), ha.avl⟩, rfl⟩
  · split at h
    · exact absurd h (by simp)
    · rename_i o l tl hav
      have he := ha.avl (o, l) (by simp [hav])
      have htl : ∀ e ∈ tl, sz ∣ e.1 ∧ sz ∣ e.2 ∧ 0 < e.2 := fun e h => ha.avl e (by simp [hav, h])
      split at h
      · exact absurd h (by simp)
      · split at h
        · simp only [Option.some.injEq, Prod.mk.injEq] at h
          obtain ⟨rfl, rfl⟩ := h
          refine ⟨he.1, ⟨ha.ulen, ha.lifo, ?_⟩, rfl⟩
          intro e hmem
          rcases List.mem_cons.mp hmem with rfl | hm
          · refine ⟨Nat.dvd_add he.1 (Nat.dvd_refl _), Nat.dvd_sub he.2.1 (Nat.dvd_refl _), ?_⟩
            simp only; omega
          · exact htl e hm
        · simp only [Option.some.injEq, Prod.mk.injEq] at h
          obtain ⟨rfl, rfl⟩ := h
          exact ⟨he.1, ⟨ha.ulen, ha.lifo, htl⟩, rfl⟩

theorem pop_none {sz : Nat} {c : Cache} (h : pop c sz = none) (ha : CAl sz c) (x : Nat) :
    cov c x = 0 := by
  have hu := ha.ulen
  unfold pop at h
  split at h
  · exact absurd h (by simp)
  · rename_i hne
    split at h
    · rename_i hav
      cases hl : c.lifo with
      | nil => simp [cov, hl, hav]
      | cons o r => exact absurd (hne o r hl (by simp [hu])) (by simp)
    · rename_i o l tl hav
      have he := ha.avl (o, l) (by simp [hav])
      split at h
      · rename_i hlt
        exact absurd (Nat.le_of_dvd he.2.2 he.2.1) (by simp only; omega)
      · split at h <;> exact absurd h (by simp)

theorem mem_insertNode {a : List (Nat × Nat)} {o l : Nat} {e : Nat × Nat}
    (h : e ∈ insertNode a o l) : e ∈ a ∨ e = (o, l) := by
  unfold insertNode at h
  rcases List.mem_append.mp h with h | h
  · exact .inl (List.takeWhile_subset _ h)
  · rcases List.mem_cons.mp h with h | h
    · exact .inr h
    · exact .inl (List.dropWhile_subset _ h)

theorem merge_al {sz : Nat} {a a' : List (Nat × Nat)} {off len : Nat} {m : Bool} {rc : Rc}
    (h : merge a off len m = (rc, a')) (ho : sz ∣ off) (hl : sz ∣ len) (hl0 : 0 < len)
    (ha : ∀ e ∈ a, sz ∣ e.1 ∧ sz ∣ e.2 ∧ 0 < e.2) : ∀ e ∈ a', sz ∣ e.1 ∧ sz ∣ e.2 ∧ 0 < e.2 := by
  have hlo : ∀ e ∈ below a off, e ∈ a := fun e he => List.takeWhile_subset _ he
  have hhi : ∀ e ∈ above a off, e ∈ a := fun e he => List.dropWhile_subset _ he
  have hdl : ∀ e ∈ (below a off).dropLast, e ∈ a := fun e he => hlo e (List.dropLast_subset _ he)
  unfold merge at h
  simp only [] at h
  split at h
  · rename_i po pl h1 h2
    have hp := ha _ (hlo _ (List.mem_of_getLast? h1))
    split at h <;> simp only [Prod.mk.injEq] at h <;> obtain ⟨rfl, rfl⟩ := h
    · intro e he
      rcases List.mem_append.mp he with he | he
      · exact ha e (hdl e he)
      · rw [List.mem_singleton] at he; subst he
        exact ⟨hp.1, Nat.dvd_add hp.2.1 hl, by simp only; omega⟩
    · exact ha
  · rename_i po pl no nl tl h1 h2
    have hp := ha _ (hlo _ (List.mem_of_getLast? h1))
    have hn := ha _ (hhi (no, nl) (by rw [h2]; simp))
    have htl : ∀ e ∈ tl, e ∈ a := fun e he => hhi e (by rw [h2]; simp [he])
    split at h
    · split at h <;> simp only [Prod.mk.injEq] at h <;> obtain ⟨rfl, rfl⟩ := h
      · intro e he
        rcases List.mem_append.mp he with he | he
        · exact ha e (hdl e he)
        · rcases List.mem_cons.mp he with he | he
          · subst he
            exact ⟨hp.1, Nat.dvd_add (Nat.dvd_add hp.2.1 hl) hn.2.1, by simp only; omega⟩
          · exact ha e (htl e he)
      · intro e he
        rcases List.mem_append.mp he with he | he
        · exact ha e (hdl e he)
        · rcases List.mem_cons.mp he with he | he
          · subst he
            exact ⟨hp.1, Nat.dvd_add hp.2.1 hl, by simp only; omega⟩
          · rcases List.mem_cons.mp he with he | he
            · subst he; exact hn
            · exact ha e (htl e he)
    · split at h
      · split at h <;> simp only [Prod.mk.injEq] at h <;> obtain ⟨rfl, rfl⟩ := h
        · intro e he
          rcases mem_insertNode he with he | he
          · rcases List.mem_append.mp he with he | he
            · exact ha e (hlo e he)
            · exact ha e (htl e he)
          · subst he; exact ⟨ho, Nat.dvd_add hl hn.2.1, by simp only; omega⟩
        · intro e he
          rcases List.mem_append.mp he with he | he
          · exact ha e (hlo e he)
          · exact ha e (htl e he)
      · simp only [Prod.mk.injEq] at h; obtain ⟨rfl, rfl⟩ := h; exact ha
  · simp only [Prod.mk.injEq] at h; obtain ⟨rfl, rfl⟩ := h; exact ha
  · rename_i no nl tl h1 h2
    have hn := ha _ (hhi (no, nl) (by rw [h2]; simp))
    have htl : ∀ e ∈ tl, e ∈ a := fun e he => hhi e (by rw [h2]; simp [he])
    split at h
    · split at h <;> simp only [Prod.mk.injEq] at h <;> obtain ⟨rfl, rfl⟩ := h
      · intro e he
        rcases mem_insertNode he with he | he
        · exact ha e (htl e he)
        · subst he; exact ⟨ho, Nat.dvd_add hl hn.2.1, by simp only; omega⟩
      · intro e he; exact ha e (htl e he)
    · simp only [Prod.mk.injEq] at h; obtain ⟨rfl, rfl⟩ := h; exact ha

theorem add_al {sz : Nat} {c c' : Cache} {off len : Nat} {m i : Bool} {rc : Rc}
    (h : add c off len m i = .done rc c') (ho : sz ∣ off) (hl : sz ∣ len) (hl0 : 0 < len)
    (ha : CAl sz c) : CAl sz c' := by
  unfold add at h
  split at h
  · rename_i c1 hla
    simp only [AddRes.done.injEq] at h; obtain ⟨rfl, rfl⟩ := h
    unfold lifoAdd at hla
    split at hla
    · exact absurd hla (by simp)
    · simp only [Option.some.injEq] at hla; subst hla
      refine ⟨ha.ulen, ?_, ha.avl⟩
      intro o hmem
      rcases List.mem_cons.mp hmem with rfl | hm
      · exact ho
      · exact ha.lifo o hm
  · split at h
    · split at h
      · unfold insertVspace at h
        split at h
        · simp only [AddRes.done.injEq] at h; obtain ⟨rfl, rfl⟩ := h
          refine ⟨ha.ulen, ha.lifo, ?_⟩
          intro e he
          rcases mem_insertNode he with he | he
          · exact ha.avl e he
          · subst he; exact ⟨ho, hl, hl0⟩
        · split at h
          · simp only [AddRes.done.injEq] at h; obtain ⟨rfl, rfl⟩ := h; exact ha
          · split at h
            · simp only [AddRes.done.injEq] at h; obtain ⟨rfl, rfl⟩ := h; exact ha
            · exact absurd h (by simp)
      · simp only [AddRes.done.injEq] at h; obtain ⟨rfl, rfl⟩ := h; exact ha
    · rename_i rc' a hne hm
      simp only [AddRes.done.injEq] at h; obtain ⟨rfl, rfl⟩ := h
      exact ⟨ha.ulen, ha.lifo, merge_al hm ho hl hl0 ha.avl⟩

/-! ### Unit arithmetic -/

/-- Offset of the unit of kind `t` that contains KB `i` of block `lba`. -/
def unitOff (t lba i : Nat) : Nat := lba * 65536 + i / nkbs t * nkbs t * 1024

theorem unit_eq {t off lba i : Nat} (hk : isVnode t = true) (ha : ltypeSize t ∣ off) (hi : i < 64) :
    unitOff t lba i = off ↔ lba = lbaOf off ∧ kbnOf off ≤ i ∧ i < kbnOf off + nkbs t := by
  obtain ⟨h1, h2, h3⟩ := kind_cases t hk
  unfold unitOff lbaOf kbnOf LBK KB
  rw [h1] at ha
  rcases h2 with h | h | h | ⟨h, _⟩ <;> rw [h] at ha ⊢ <;> obtain ⟨q, rfl⟩ := ha <;>
    (try simp only [Nat.div_one]) <;> omega

theorem unit_lba {t lba i : Nat} (hk : isVnode t = true) (hi : i < 64) :
    ltypeSize t ∣ unitOff t lba i ∧ unitOff t lba i / 65536 = lba := by
  obtain ⟨h1, h2, h3⟩ := kind_cases t hk
  unfold unitOff
  rw [h1]
  rcases h2 with h | h | h | ⟨h, _⟩ <;> rw [h] at * <;> omega

theorem unit_fit {t off : Nat} (hk : isVnode t = true) (ha : ltypeSize t ∣ off) :
    kbnOf off + nkbs t ≤ 64 ∧ off = lbaOf off * 65536 + kbnOf off * 1024 ∧
    leafOf off = lbaOf off / 256 ∧ 0 < nkbs t ∧ kbnOf off % nkbs t = 0 := by
  obtain ⟨h1, h2, h3⟩ := kind_cases t hk
  unfold lbaOf kbnOf leafOf LBK KB SPAN
  rw [h1] at ha
  rcases h2 with h | h | h | ⟨h, _⟩ <;> rw [h] at ha ⊢ <;> obtain ⟨q, rfl⟩ := ha <;>
    (try simp only [Nat.div_one]) <;> omega

theorem unit_of_byte {t off x : Nat} (hk : isVnode t = true) (ha : ltypeSize t ∣ off) :
    x / ltypeSize t * ltypeSize t = off ↔ off ≤ x ∧ x < off + ltypeSize t := by
  obtain ⟨h1, h2, h3⟩ := kind_cases t hk
  rw [h1] at ha ⊢
  rcases h2 with h | h | h | ⟨h, _⟩ <;> rw [h] at ha ⊢ <;> obtain ⟨q, rfl⟩ := ha <;>
    (try simp only [Nat.div_one]) <;> omega

theorem unit_base {t x : Nat} (hk : isVnode t = true) :
    ltypeSize t ∣ x / ltypeSize t * ltypeSize t ∧
    leafOf (x / ltypeSize t * ltypeSize t) = leafOf x ∧ ltypeSize t ∣ SPAN ∧ 0 < ltypeSize t := by
  obtain ⟨h1, h2, h3⟩ := kind_cases t hk
  unfold leafOf SPAN
  rw [h1] at *
  rcases h2 with h | h | h | ⟨h, _⟩ <;> rw [h] at * <;> omega

/-! ### The invariant of one virtual space -/

/-- Cache invariant: aligned, nothing cached twice, only free units of existing
leaves are cached. -/
structure CInv (t : Nat) (spawned : Nat → Bool) (r : Nat → Nat) (c : Cache) : Prop where
  al : CAl (ltypeSize t) c
  once : ∀ x, cov c x ≤ 1
  free : ∀ x, 0 < cov c x → r (x / ltypeSize t * ltypeSize t) = 0 ∧ spawned (leafOf x) = true

/-- `r off` is the number of users of unit `off`. -/
structure VInv (vend t : Nat) (v : VSpace) (r : Nat → Nat) : Prop where
  used : ∀ off, 0 < r off → ltypeSize t ∣ off ∧ v.spawned (leafOf off) = true ∧
    off + ltypeSize t ≤ vend
  bit : ∀ lba i, i < 64 → ((v.bk lba).alloc.getLsbD i = true ↔ 0 < r (unitOff t lba i))
  db : ∀ lba, (v.bk lba).dbkref = if isBk t then r (lba * 65536) else 0
  nu : ∀ k, v.nused k = leafUsecnt v.bk k * KB
  cache : CInv t v.spawned r v.cache

theorem cov_hint (c : Cache) (h x : Nat) : cov { c with hint := h } x = cov c x := rfl

theorem CInv.hint {t : Nat} {sp : Nat → Bool} {r : Nat → Nat} {c : Cache} (h : CInv t sp r c)
    (n : Nat) : CInv t sp r { c with hint := n } :=
  ⟨⟨h.al.ulen, h.al.lifo, h.al.avl⟩, h.once, h.free⟩

theorem CInv.pop {t : Nat} (hk : isVnode t = true) {sp : Nat → Bool} {r : Nat → Nat} {c c' : Cache}
    {off : Nat} (h : CInv t sp r c) (hp : pop c (ltypeSize t) = some (off, c')) :
    CInv t sp r c' ∧ ltypeSize t ∣ off ∧ r off = 0 ∧ sp (leafOf off) = true ∧
    ∀ x, off ≤ x → x < off + ltypeSize t → cov c' x = 0 := by
  have hb := unit_base (x := off) hk
  obtain ⟨h1, h2, _⟩ := pop_al hb.2.2.2 hp h.al
  have hc := fun x => C23_pop c c' _ off hp x
  have hin : 0 < cov c off := by
    have := hc off
    have : covers off (ltypeSize t) off = 1 := by
      unfold covers; rw [if_pos]; have := hb.2.2.2; omega
    omega
  have hfr := h.free off hin
  have hself : off / ltypeSize t * ltypeSize t = off := (unit_of_byte hk h1).mpr (by omega)
  rw [hself] at hfr
  refine ⟨⟨h2, fun x => ?_, fun x hx => ?_⟩, h1, hfr.1, hfr.2, fun x hx1 hx2 => ?_⟩
  · have := hc x; have := h.once x; omega
  · exact h.free x (by have := hc x; omega)
  · have := hc x
    have := h.once x
    have : covers off (ltypeSize t) x = 1 := by unfold covers; rw [if_pos]; omega
    omega

theorem CInv.add {t : Nat} {sp : Nat → Bool} {r : Nat → Nat} {c c' : Cache}
    {off len : Nat} {m i : Bool} {rc : Rc} (h : CInv t sp r c)
    (ha : add c off len m i = .done rc c') (ho : ltypeSize t ∣ off) (hl : ltypeSize t ∣ len)
    (hl0 : 0 < len)
    (hf : ∀ x, off ≤ x → x < off + len → cov c x = 0 ∧ r (x / ltypeSize t * ltypeSize t) = 0 ∧
      sp (leafOf x) = true) : CInv t sp r c' := by
  have hc := fun x => (C23_add c c' _ _ _ _ _ ha x).1
  refine ⟨add_al ha ho hl hl0 h.al, fun x => ?_, fun x hx => ?_⟩
  · have h1 := hc x
    unfold covers at h1
    split at h1
    · rename_i hin
      have := (hf x hin.1 hin.2).1; omega
    · have := h.once x; omega
  · have h1 := hc x
    unfold covers at h1
    split at h1
    · rename_i hin
      exact (hf x hin.1 hin.2).2
    · exact h.free x (by omega)

/-- leafUsecnt after changing one block. -/
theorem leafUsecnt_upd (bk : Nat → Bkr) (lba : Nat) (b : Bkr) (k : Nat) :
    (k = lba / 256 → leafUsecnt (upd bk lba b) k + (bk lba).usecnt = leafUsecnt bk k + b.usecnt) ∧
    (k ≠ lba / 256 → leafUsecnt (upd bk lba b) k = leafUsecnt bk k) := by
  constructor
  · intro hk
    have := sum_map_change 256 (lba % 256) (fun bn => (bk (k * 256 + bn)).usecnt)
      (fun bn => (upd bk lba b (k * 256 + bn)).usecnt) (by omega) (by
        intro i hi hne
        rw [upd_ne]; omega)
    simp only [show k * 256 + lba % 256 = lba by omega, upd_same] at this
    unfold leafUsecnt NBK
    exact this
  · intro hk
    unfold leafUsecnt NBK
    congr 1
    apply List.map_congr_left
    intro i hi
    have := List.mem_range.mp hi
    rw [upd_ne]; omega

theorem leafUsecnt_bound (bk : Nat → Bkr) (k lba n : Nat) (hk : k = lba / 256)
    (hb : (bk lba).usecnt + n ≤ 64) : leafUsecnt bk k + n ≤ 16384 := by
  have h := leafUsecnt_upd bk lba ⟨BitVec.allOnes 64, 0, 0⟩ k
  have h1 := h.1 hk
  have h2 : (⟨BitVec.allOnes 64, 0, 0⟩ : Bkr).usecnt = 64 := by decide
  rw [h2] at h1
  have h3 : leafUsecnt (upd bk lba ⟨BitVec.allOnes 64, 0, 0⟩) k ≤ 256 * 64 := by
    unfold leafUsecnt NBK
    exact sum_map_le 256 64 _ (fun i _ => usecnt_le _)
  omega

theorem usecnt_congr {b b' : Bkr} (h : b'.alloc = b.alloc) : b'.usecnt = b.usecnt := by
  unfold Bkr.usecnt; rw [h]

theorem ref_alloc (b : Bkr) (t kbn : Nat) : (b.ref t kbn).alloc = (b.setAlloc kbn (nkbs t)).alloc := by
  unfold Bkr.ref; simp only []; split <;> rfl

/-- Marking a free, uncached unit: no assertion fails and the invariant holds with
one user of that unit. -/
theorem markV_inv {vend t off : Nat} {v : VSpace} {r : Nat → Nat} (hk : isVnode t = true)
    (h : VInv vend t v r) (ha : ltypeSize t ∣ off) (h0 : r off = 0)
    (hsp : v.spawned (leafOf off) = true) (hend : off + ltypeSize t ≤ vend)
    (hc : ∀ x, off ≤ x → x < off + ltypeSize t → cov v.cache x = 0) :
    ∃ v', markV v t off = some v' ∧ VInv vend t v' (upd r off 1) ∧ v'.cache.hint = off ∧
      v'.spawned = v.spawned := by
  obtain ⟨hfit, hoff, hleaf, hn0, _⟩ := unit_fit hk ha
  obtain ⟨hsz, hcase, hnb⟩ := kind_cases t hk
  have hclr : ∀ i, i < 64 → kbnOf off ≤ i → i < kbnOf off + nkbs t →
      (v.bk (lbaOf off)).alloc.getLsbD i = false := by
    intro i hi h1 h2
    have hu : unitOff t (lbaOf off) i = off := (unit_eq hk ha hi).mpr ⟨rfl, h1, h2⟩
    have := h.bit (lbaOf off) i hi
    rw [hu, h0] at this
    simpa using this
  have hfree := freecnt_ge _ _ _ hfit hclr
  have hbound := leafUsecnt_bound v.bk (leafOf off) (lbaOf off) (nkbs t) hleaf hfree
  have hnu := h.nu (leafOf off)
  have hnused : v.nused (leafOf off) + ltypeSize t ≤ SPAN := by
    rw [hnu, hsz]; unfold KB SPAN; omega
  unfold markV
  simp only []
  rw [if_neg (by rw [Classical.not_not]; exact ⟨by omega, hnused⟩)]
  refine ⟨_, rfl, ?_, rfl, rfl⟩
  generalize hb2 : (if isData t then ((v.bk (lbaOf off)).ref t (kbnOf off)).setUnwr (kbnOf off) (nkbs t)
    else (v.bk (lbaOf off)).ref t (kbnOf off)) = b2
  have hb2a : b2.alloc = ((v.bk (lbaOf off)).setAlloc (kbnOf off) (nkbs t)).alloc := by
    rw [← hb2]; split <;> simp [Bkr.setUnwr, ref_alloc]
  have hb2d : b2.dbkref = if isBk t then (v.bk (lbaOf off)).dbkref + 1 else (v.bk (lbaOf off)).dbkref := by
    rw [← hb2]; unfold Bkr.ref Bkr.setUnwr Bkr.setAlloc; simp only []
    split <;> split <;> rfl
  refine ⟨?_, ?_, ?_, ?_, ?_⟩
  · intro o ho
    by_cases he : o = off
    · subst he; exact ⟨ha, hsp, hend⟩
    · rw [upd_ne _ _ he] at ho; exact h.used o ho
  · intro lba i hi
    simp only []
    by_cases hl : lba = lbaOf off
    · subst hl
      rw [upd_same, hb2a, getLsbD_setAlloc _ _ _ _ hi, Bool.or_eq_true, decide_eq_true_eq, h.bit _ _ hi]
      by_cases he : unitOff t (lbaOf off) i = off
      · have := (unit_eq hk ha hi).mp he
        rw [he, upd_same]; simp [this]
      · rw [upd_ne _ _ he]
        have : ¬ (kbnOf off ≤ i ∧ i < kbnOf off + nkbs t) := fun hh => he ((unit_eq hk ha hi).mpr ⟨rfl, hh⟩)
        simp [this]
    · rw [upd_ne _ _ hl]
      have he : unitOff t lba i ≠ off := fun hh => hl ((unit_eq hk ha hi).mp hh).1
      rw [upd_ne _ _ he]; exact h.bit _ _ hi
  · intro lba
    simp only []
    by_cases hl : lba = lbaOf off
    · subst hl
      rw [upd_same, hb2d, h.db]
      by_cases hbk : isBk t = true
      · simp only [hbk, if_true]
        have hn : nkbs t = 64 := by
          apply Classical.byContradiction; intro hne; rw [hnb hne] at hbk; exact absurd hbk (by simp)
        have : lbaOf off * 65536 = off := by omega
        rw [this, upd_same, h0]
      · simp [hbk]
    · rw [upd_ne _ _ hl, h.db]
      by_cases hbk : isBk t = true
      · simp only [hbk, if_true]
        rw [upd_ne]
        intro hh; apply hl; unfold lbaOf LBK; omega
      · simp [hbk]
  · intro k
    have hu := leafUsecnt_upd v.bk (lbaOf off) b2 k
    simp only []
    by_cases hkk : k = leafOf off
    · subst hkk
      have h1 := hu.1 hleaf
      rw [usecnt_congr hb2a, popcount_set _ _ _ hfit hclr] at h1
      rw [upd_same, hnu, hsz]
      unfold KB
      omega
    · rw [upd_ne _ _ hkk, h.nu k, hu.2 (by rw [← hleaf]; exact hkk)]
  · refine CInv.hint (c := v.cache) ⟨h.cache.al, h.cache.once, fun x hx => ?_⟩ off
    have h1 := h.cache.free x hx
    refine ⟨?_, h1.2⟩
    rw [upd_ne]
    · exact h1.1
    · intro he
      have := (unit_of_byte hk ha).mp he
      have := hc x this.1 this.2
      omega

theorem unref_bit (b : Bkr) (t kbn i : Nat) (hi : i < 64) :
    (b.unref t kbn).alloc.getLsbD i =
      if (isBk t = true ∧ b.dbkref - 1 ≠ 0 ∧ ¬ nkbs t < 64) ∨
         (isBk t = false ∧ b.dbkref ≠ 0 ∧ ¬ nkbs t < 64) then b.alloc.getLsbD i
      else (b.alloc.getLsbD i && !decide (kbn ≤ i ∧ i < kbn + nkbs t)) := by
  unfold Bkr.unref
  cases hb : isBk t <;> simp only [Bool.false_eq_true, if_true, if_false]
  · split
    · rename_i hc
      rw [getLsbD_clearAlloc _ _ _ _ hi, if_neg]
      simp; omega
    · rename_i hc
      rw [if_pos]; simp; omega
  · split
    · rename_i hc
      rw [getLsbD_clearAlloc _ _ _ _ hi, if_neg]
      simp at *; omega
    · rename_i hc
      rw [if_pos]; simp at *; omega

theorem unref_db (b : Bkr) (t kbn : Nat) :
    (b.unref t kbn).dbkref = if isBk t then b.dbkref - 1 else b.dbkref := by
  unfold Bkr.unref Bkr.clearAlloc
  simp only []
  split <;> split <;> rfl

/-- Releasing one use of a live unit: no assertion fails and the invariant holds
with one user less. -/
theorem unrefAt_inv {vend t off : Nat} {v : VSpace} {r : Nat → Nat} (hk : isVnode t = true)
    (h : VInv vend t v r) (h1 : 0 < r off) (hone : isBk t = false → r off = 1) :
    ∃ v', unrefAt v t off = some v' ∧ VInv vend t v' (upd r off (r off - 1)) ∧
      v'.cache = v.cache ∧ v'.spawned = v.spawned := by
  have ha := (h.used off h1).1
  obtain ⟨hfit, hoff, hleaf, hn0, _⟩ := unit_fit hk ha
  obtain ⟨hsz, hcase, hnb⟩ := kind_cases t hk
  have hset : ∀ i, i < 64 → kbnOf off ≤ i → i < kbnOf off + nkbs t →
      (v.bk (lbaOf off)).alloc.getLsbD i = true := by
    intro i hi h2 h3
    have hu : unitOff t (lbaOf off) i = off := (unit_eq hk ha hi).mpr ⟨rfl, h2, h3⟩
    rw [h.bit (lbaOf off) i hi, hu]; exact h1
  have hdb := h.db (lbaOf off)
  have hbk64 : isBk t = true → nkbs t = 64 := by
    intro hbk; apply Classical.byContradiction; intro hne; rw [hnb hne] at hbk; exact absurd hbk (by simp)
  have hlba : isBk t = true → lbaOf off * 65536 = off := by intro hb; have := hbk64 hb; omega
  have hnbk : isBk t = false → nkbs t < 64 := by
    intro hb; rcases hcase with h | h | h | ⟨h, h'⟩
    · omega
    · omega
    · omega
    · rw [hb] at h'; exact absurd h' (by simp)
  generalize hb0 : v.bk (lbaOf off) = b0 at *
  -- the released block
  have hbits : ∀ i, i < 64 → (b0.unref t (kbnOf off)).alloc.getLsbD i =
      if r off = 1 then (b0.alloc.getLsbD i && !decide (kbnOf off ≤ i ∧ i < kbnOf off + nkbs t))
      else b0.alloc.getLsbD i := by
    intro i hi
    rw [unref_bit _ _ _ _ hi]
    cases hb : isBk t
    · have h1' := hone hb
      have := hnbk hb
      rw [if_neg (by simp [hb]; omega), if_pos h1']
    · have := hbk64 hb
      rw [hb, if_pos rfl, hlba hb] at hdb
      by_cases hr : r off = 1
      · rw [if_neg (by simp [hb]; omega), if_pos hr]
      · rw [if_pos (by simp [hb]; omega), if_neg hr]
  have hdb1 : (b0.unref t (kbnOf off)).dbkref = if isBk t then r off - 1 else 0 := by
    rw [unref_db, hdb]
    cases hb : isBk t
    · simp
    · simp [hlba hb]
  have halloc : (b0.unref t (kbnOf off)).isAllocated t (kbnOf off) = decide (1 < r off) := by
    unfold Bkr.isAllocated
    cases hb : isBk t
    · have h1' := hone hb
      simp only [Bool.false_eq_true, if_false, h1']
      rw [show decide (1 < 1) = false by decide]
      rw [Bool.eq_false_iff]
      intro hh
      have := (hasMask_iff _ _ _).mp hh (kbnOf off) (by omega) (by omega) (by omega)
      rw [hbits _ (by omega), if_pos h1'] at this
      simp at this; omega
    · rw [hb] at hdb1
      simp only [if_true, hdb1]
      rw [Bool.eq_iff_iff]; simp; omega
  have hlast : b0.isLast t (kbnOf off) = true → r off = 1 ∧
      ∀ i, i < 64 → ¬ (kbnOf off ≤ i ∧ i < kbnOf off + nkbs t) → b0.alloc.getLsbD i = false := by
    unfold Bkr.isLast
    cases hb : isBk t
    · simp only [Bool.false_eq_true, if_false, Bool.not_eq_true']
      intro hh
      refine ⟨hone hb, fun i hi hni => ?_⟩
      apply Classical.byContradiction
      intro hne
      rw [Bool.not_eq_false] at hne
      have := (testOther_iff b0 (kbnOf off) (nkbs t)).mpr ⟨i, hi, hni, hne⟩
      rw [hh] at this; exact absurd this (by simp)
    · simp only [if_true, decide_eq_true_eq]
      rw [hb, if_pos rfl, hlba hb] at hdb
      intro hh
      have := hbk64 hb
      refine ⟨by omega, fun i hi hni => ?_⟩
      omega
  have hfinal : ∀ b2, b2 = (if b0.isLast t (kbnOf off) then Bkr.init else b0.unref t (kbnOf off)) →
      (∀ i, i < 64 → b2.alloc.getLsbD i = (b0.unref t (kbnOf off)).alloc.getLsbD i) ∧
      b2.dbkref = (b0.unref t (kbnOf off)).dbkref := by
    intro b2 hb2
    split at hb2
    · rename_i hl
      obtain ⟨hr, hz⟩ := hlast hl
      subst hb2
      refine ⟨fun i hi => ?_, ?_⟩
      · rw [hbits i hi, if_pos hr]
        by_cases hin : kbnOf off ≤ i ∧ i < kbnOf off + nkbs t
        · simp [hin, Bkr.init]
        · simp [hz i hi hin, Bkr.init]
      · rw [hdb1, hr]; simp [Bkr.init]
    · subst hb2; exact ⟨fun _ _ => rfl, rfl⟩
  have husc : ∀ b2, b2 = (if b0.isLast t (kbnOf off) then Bkr.init else b0.unref t (kbnOf off)) →
      b2.usecnt + (if r off = 1 then nkbs t else 0) = b0.usecnt := by
    intro b2 hb2
    obtain ⟨hf1, _⟩ := hfinal b2 hb2
    by_cases hr : r off = 1
    · rw [if_pos hr]
      have hcl := popcount_clear b0 (kbnOf off) (nkbs t) hfit hset
      have : b2.alloc = (b0.clearAlloc (kbnOf off) (nkbs t)).alloc := by
        apply BitVec.eq_of_getLsbD_eq
        intro i hi
        rw [hf1 i hi, hbits i hi, if_pos hr, getLsbD_clearAlloc _ _ _ _ hi]
      rw [usecnt_congr this]; exact hcl
    · rw [if_neg hr]
      have : b2.alloc = b0.alloc := by
        apply BitVec.eq_of_getLsbD_eq
        intro i hi
        rw [hf1 i hi, hbits i hi, if_neg hr]
      rw [usecnt_congr this]; omega
  -- enough bytes counted
  have hge : nkbs t ≤ leafUsecnt v.bk (leafOf off) := by
    have hu := (leafUsecnt_upd v.bk (lbaOf off) Bkr.init (leafOf off)).1 hleaf
    rw [hb0] at hu
    have h0 : Bkr.init.usecnt = 0 := by decide
    rw [h0] at hu
    have hcl := popcount_clear b0 (kbnOf off) (nkbs t) hfit hset
    omega
  have hnu := h.nu (leafOf off)
  unfold unrefAt
  simp only [hb0]
  have hg1 : ¬ (isBk t = true ∧ b0.dbkref = 0) := by
    rintro ⟨hb, hz⟩
    rw [hb, if_pos rfl, hlba hb] at hdb; omega
  rw [if_neg hg1]
  have hg2 : ¬ ((!(b0.unref t (kbnOf off)).isAllocated t (kbnOf off)) = true ∧
      v.nused (leafOf off) < ltypeSize t) := by
    rintro ⟨_, hlt⟩
    rw [hnu, hsz] at hlt; unfold KB at hlt; omega
  rw [if_neg hg2]
  have hg3 : ¬ (b0.isLast t (kbnOf off) = true ∧ (!(b0.unref t (kbnOf off)).isUnused) = true) := by
    rintro ⟨hl, hun⟩
    obtain ⟨hr, hz⟩ := hlast hl
    have : (b0.unref t (kbnOf off)).isUnused = true := by
      rw [isUnused_iff]
      intro i hi
      rw [hbits i hi, if_pos hr]
      by_cases hin : kbnOf off ≤ i ∧ i < kbnOf off + nkbs t
      · simp [hin]
      · simp [hz i hi hin]
    rw [this] at hun; exact absurd hun (by simp)
  rw [if_neg hg3]
  refine ⟨_, rfl, ?_, rfl, rfl⟩
  generalize hb2 : (if b0.isLast t (kbnOf off) then Bkr.init else b0.unref t (kbnOf off)) = b2
  obtain ⟨hf1, hf2⟩ := hfinal b2 hb2.symm
  have hu2 := husc b2 hb2.symm
  rw [halloc]
  refine ⟨?_, ?_, ?_, ?_, ?_⟩
  · intro o ho
    by_cases he : o = off
    · subst he; exact h.used o h1
    · rw [upd_ne _ _ he] at ho; exact h.used o ho
  · intro lba i hi
    simp only []
    by_cases hl : lba = lbaOf off
    · subst hl
      rw [upd_same, hf1 i hi, hbits i hi]
      have hb := h.bit (lbaOf off) i hi
      rw [hb0] at hb
      by_cases he : unitOff t (lbaOf off) i = off
      · have hin := (unit_eq hk ha hi).mp he
        rw [he, upd_same]
        rw [he] at hb
        by_cases hr : r off = 1
        · rw [if_pos hr]; simp [hin]; omega
        · rw [if_neg hr, hb]; omega
      · have hin : ¬ (kbnOf off ≤ i ∧ i < kbnOf off + nkbs t) :=
          fun hh => he ((unit_eq hk ha hi).mpr ⟨rfl, hh⟩)
        rw [upd_ne _ _ he, ← hb]
        split
        · simp [hin]
        · rfl
    · rw [upd_ne _ _ hl]
      have he : unitOff t lba i ≠ off := fun hh => hl ((unit_eq hk ha hi).mp hh).1
      rw [upd_ne _ _ he]; exact h.bit _ _ hi
  · intro lba
    simp only []
    by_cases hl : lba = lbaOf off
    · subst hl
      rw [upd_same, hf2, hdb1]
      cases hb : isBk t
      · simp
      · simp [hlba hb]
    · rw [upd_ne _ _ hl, h.db]
      cases hb : isBk t
      · simp
      · simp only [if_true]
        rw [upd_ne]; intro hh; apply hl; unfold lbaOf LBK; omega
  · intro k
    have hu := leafUsecnt_upd v.bk (lbaOf off) b2 k
    simp only []
    by_cases hkk : k = leafOf off
    · subst hkk
      have hu1 := hu.1 hleaf
      rw [hb0] at hu1
      rw [upd_same, hnu, hsz]
      unfold KB
      simp only [decide_eq_true_eq]
      split at hu2 <;> split <;> omega
    · rw [upd_ne _ _ hkk, h.nu k, hu.2 (by rw [← hleaf]; exact hkk)]
  · refine ⟨h.cache.al, h.cache.once, fun x hx => ?_⟩
    have h2 := h.cache.free x hx
    refine ⟨?_, h2.2⟩
    by_cases he : x / ltypeSize t * ltypeSize t = off
    · rw [he] at h2; omega
    · rw [upd_ne _ _ he]; exact h2.1

end Silofs.Space
