import Verif.Props.QallocArith
set_option linter.unusedSimpArgs false
set_option linter.unusedVariables false
/-
The invariant which ties pool and slabs to what the client holds, and its preservation.
-/
namespace Silofs.Qalloc

/-- Pages of slabs. -/
def nslab (p : Pool) : Nat := (List.range p.max).countP (fun q => (p.pg q).sidx.isSome)

/-- Pages which a multi-page request takes. -/
def bigPgs (x : Nat × Nat) : Nat := if 32768 < x.2 then npgs x.2 else 0

/-- The invariant; `ex` may be a slab page of which nothing is used, in the midst of an operation. -/
structure Inv (ex : Option Nat) (s : St) (L : Held) : Prop where
  pi : PInv s.pool
  nodup : (L.map Prod.fst).Nodup
  big : ∀ x ∈ L, 32768 < x.2 → x.2 ≤ MAXSZ ∧ x.1 % 65536 = 0 ∧ Hd s.pool (x.1 / 65536) ∧
    (s.pool.pg (x.1 / 65536)).count = npgs x.2 ∧ (s.pool.pg (x.1 / 65536)).free = false ∧
    (s.pool.pg (x.1 / 65536)).sidx = none
  small : ∀ x ∈ L, x.2 ≤ 32768 → ∃ k, sindex x.2 = some k ∧ x.1 / 65536 < s.pool.max ∧
    (s.pool.pg (x.1 / 65536)).sidx = some k ∧ x.1 % 16 = 0 ∧ x.1 / 16 % 2 ^ k = 0
  spg : ∀ q, q < s.pool.max → ∀ k, (s.pool.pg q).sidx = some k → k < 12 ∧ (s.pool.pg q).count = 1 ∧
    (s.pool.pg q).free = false ∧ (s.pool.pg q).nelems = PGSZ / elemsz k ∧
    (s.pool.pg q).nused = L.countP (fun x => decide (x.1 / 65536 = q)) ∧ (ex ≠ some q → 0 < (s.pool.pg q).nused) ∧
    (s.pool.pg q).nused + (s.slab k).fl.countP (fun g => decide (g / 4096 = q)) = (s.pool.pg q).nelems
  own : ∀ q, Hd s.pool q → (s.pool.pg q).free = false → (s.pool.pg q).sidx = none →
    ∃ x ∈ L, 32768 < x.2 ∧ x.1 = q * 65536
  sfl : ∀ k, (s.slab k).fl.Nodup ∧ ∀ g, g ∈ (s.slab k).fl ↔ g / 4096 < s.pool.max ∧
    (s.pool.pg (g / 4096)).sidx = some k ∧ g % 2 ^ k = 0 ∧ g * 16 ∉ L.map Prod.fst
  cnt : ∀ k, (s.slab k).nfree = (s.slab k).fl.length ∧
    (s.slab k).nused = L.countP (fun x => decide (sindex x.2 = some k))
  use : s.pool.use = (L.map bigPgs).sum
  pages : fsum s.pool + s.pool.use + nslab s.pool = s.pool.max

theorem e16 (e : Nat) : e * 16 / PGSZ = e / 4096 := by unfold PGSZ; omega

/-- The pool part of the invariant speaks of runs and the list only. -/
theorem PInv.congr {p q : Pool} (h : PInv p) (hm : q.max = p.max) (hf : q.fl = p.fl)
    (hc : ∀ i, (q.pg i).count = (p.pg i).count ∧ (q.pg i).free = (p.pg i).free ∧ (q.pg i).prev = (p.pg i).prev) :
    PInv q := by
  have hd : ∀ i, Hd q i ↔ Hd p i := by intro i; unfold Hd; rw [hm, (hc i).1]
  constructor
  · exact ⟨(hd 0).mpr h.h0.1, by rw [(hc 0).2.2]; exact h.h0.2⟩
  · intro i hi; rw [hm, (hc i).1]; exact h.fit i ((hd i).mp hi)
  · intro i hi; rw [hm, (hc i).1, (hc _).1, (hc _).2.2]; exact h.nxt i ((hd i).mp hi)
  · intro i hi hne
    obtain ⟨j, a, b, c⟩ := h.prv i ((hd i).mp hi) hne
    exact ⟨j, by rw [(hc i).2.2]; exact a, (hd j).mpr b, by rw [(hc j).1]; exact c⟩
  · intro i hi j; rw [(hc i).1, (hc j).1, (hc j).2.1]; exact h.inn i ((hd i).mp hi) j
  · intro i hi; rw [hm, (hc i).1, (hc i).2.1, (hc _).2.1]; exact h.coal i ((hd i).mp hi)
  · rw [hf]; exact h.nodup
  · intro i; rw [hf, hd, (hc i).2.1]; exact h.fl i

theorem fsum_congr {p q : Pool} (hf : q.fl = p.fl) (hc : ∀ i, (q.pg i).count = (p.pg i).count) : fsum q = fsum p := by
  unfold fsum; rw [hf]; exact sum_congr (fun i _ => hc i)

/-- A change of the slab fields of one page. -/
theorem set_fields (p : Pool) (i : Nat) (a : Option Nat) (b c : Nat) (j : Nat) :
    ((p.set i { p.pg i with sidx := a, nused := b, nelems := c }).pg j).count = (p.pg j).count ∧
    ((p.set i { p.pg i with sidx := a, nused := b, nelems := c }).pg j).free = (p.pg j).free ∧
    ((p.set i { p.pg i with sidx := a, nused := b, nelems := c }).pg j).prev = (p.pg j).prev := by
  unfold Pool.set
  dsimp only
  by_cases h : j = i
  · subst h; rw [if_pos rfl]; exact ⟨rfl, rfl, rfl⟩
  · rw [if_neg h]; exact ⟨rfl, rfl, rfl⟩

theorem find_pool {p : Pool} {n x : Nat} (h : p.search n = some x) : x ∈ p.fl ∧ n ≤ (p.pg x).count ∧ p.use + n ≤ p.max := by
  unfold Pool.search at h
  by_cases h0 : p.use + n ≤ p.max
  · rw [if_pos h0] at h
    by_cases h1 : 2 ≤ n
    · rw [if_pos h1] at h
      have a := List.find?_some h
      have b := List.mem_of_find?_eq_some h
      exact ⟨b, of_decide_eq_true a, h0⟩
    · rw [if_neg h1] at h
      have a := List.find?_some h
      have b := List.mem_of_find?_eq_some h
      exact ⟨List.mem_reverse.mp b, of_decide_eq_true a, h0⟩
  · rw [if_neg h0] at h; exact nomatch h

theorem alloc_taken {p q : Pool} {n x : Nat} (h : PInv p) (hn : 0 < n) (ha : p.alloc n = some (x, q)) :
    x ∈ p.fl ∧ n ≤ (p.pg x).count ∧ Taken p q x n ∧ PInv q := by
  unfold Pool.alloc at ha
  cases hs : p.search n with
  | none => rw [hs] at ha; exact nomatch ha
  | some i =>
    rw [hs] at ha
    dsimp only at ha
    have he := Option.some.inj ha
    have h1 : i = x := congrArg Prod.fst he
    have h2 : p.take i n = q := congrArg Prod.snd he
    subst h1; subst h2
    have hf := find_pool hs
    have ht := take_taken h hf.1 hn hf.2.1
    exact ⟨hf.1, hf.2.1, ht, taken_inv h hf.1 hn hf.2.1 ht⟩

/-- What a pool operation leaves of the rest: used runs other than `x`, and slab fields. -/
theorem taken_other {p q : Pool} (h : PInv p) {x n : Nat} (hx : x ∈ p.fl) (hn : 0 < n) (t : Taken p q x n) (hc : n ≤ (p.pg x).count)
    {i : Nat} (hi : Hd p i) (hf : (p.pg i).free = false) :
    Hd q i ∧ (q.pg i).count = (p.pg i).count ∧ (q.pg i).free = false := by
  have hX := (h.fl x).mp hx
  have hne : i ≠ x := by intro e; subst e; rw [hX.2] at hf; exact nomatch hf
  have hne2 : ¬(n < (p.pg x).count ∧ i = x + n) := by
    rintro ⟨a, b⟩
    have := (h.inn x hX.1 i (by omega) (by omega)).1
    have := hi.2
    omega
  have hcnt : (q.pg i).count = (p.pg i).count := by rw [t.count, if_neg hne, if_neg hne2]
  exact ⟨⟨by rw [t.max]; exact hi.1, by rw [hcnt]; exact hi.2⟩, hcnt, by rw [t.free, if_neg hne]; exact hf⟩

/-- First pages of used runs after a run is taken. -/
theorem taken_heads {p q : Pool} (h : PInv p) {x n : Nat} (hx : x ∈ p.fl) (hn : 0 < n) (t : Taken p q x n) (hc : n ≤ (p.pg x).count)
    {i : Nat} (hi : Hd q i) (hf : (q.pg i).free = false) : i = x ∨ (Hd p i ∧ (p.pg i).free = false) := by
  have hX := (h.fl x).mp hx
  by_cases e : i = x
  · exact .inl e
  · right
    rw [t.free, if_neg e] at hf
    have hne2 : ¬(n < (p.pg x).count ∧ i = x + n) := by
      rintro ⟨a, b⟩
      have := (h.inn x hX.1 i (by omega) (by omega)).2
      rw [hf] at this
      exact nomatch this
    have := hi.2
    rw [t.count, if_neg e, if_neg hne2] at this
    exact ⟨⟨by rw [← t.max]; exact hi.1, this⟩, hf⟩

theorem nslab_same {p q : Pool} (hm : q.max = p.max) (h : ∀ i, (q.pg i).sidx = (p.pg i).sidx) : nslab q = nslab p := by
  unfold nslab
  rw [hm]
  exact countP_range_congr (fun i => by rw [h i])

theorem nslab_set {p q : Pool} (hm : q.max = p.max) {i : Nat} (hi : i < p.max) (h : ∀ j, j ≠ i → (q.pg j).sidx = (p.pg j).sidx) :
    nslab q + (if (p.pg i).sidx.isSome then 1 else 0) = nslab p + (if (q.pg i).sidx.isSome then 1 else 0) := by
  unfold nslab
  rw [hm]
  exact countP_range_set (f := fun q => (p.pg q).sidx.isSome) (g := fun j => (q.pg j).sidx.isSome) hi
    (fun j hj => by rw [h j hj])

/-- A free page is in no slab. -/
theorem Inv.free_none {ex : Option Nat} {s : St} {L : Held} (h : Inv ex s L) {q : Nat} (hq : q < s.pool.max)
    (hf : (s.pool.pg q).free = true) : (s.pool.pg q).sidx = none := by
  cases hs : (s.pool.pg q).sidx with
  | none => rfl
  | some k =>
    have := (h.spg q hq k hs).2.2.1
    rw [hf] at this; exact nomatch this

/-- Nothing held starts in a page which is no used first page. -/
theorem Inv.no_held {ex : Option Nat} {s : St} {L : Held} (h : Inv ex s L) {x : Nat × Nat} (hx : x ∈ L) :
    Hd s.pool (x.1 / 65536) ∧ (s.pool.pg (x.1 / 65536)).free = false := by
  by_cases hb : 32768 < x.2
  · have := h.big x hx hb
    exact ⟨this.2.2.1, this.2.2.2.2.1⟩
  · obtain ⟨k, a, b, c, _⟩ := h.small x hx (by omega)
    have := h.spg _ b k c
    exact ⟨⟨b, by omega⟩, this.2.2.1⟩

theorem countP_zero_of {L : Held} {q : Nat} (h : ∀ x ∈ L, x.1 / 65536 ≠ q) :
    L.countP (fun x => decide (x.1 / 65536 = q)) = 0 := by
  rw [List.countP_eq_zero]
  intro x hx
  simpa using h x hx

/-- A page is added to a slab. -/
theorem expand_inv {s : St} {L : Held} (h : Inv none s L) {k p : Nat} {q : Pool} {g : Nat → Nat} (hk : k < 12)
    (ha : s.pool.alloc 1 = some (p, q)) : Inv (some p) (({ s with pool := q } : St).expand k p g) L := by
  obtain ⟨hp, hc, t, hq⟩ := alloc_taken h.pi (by omega) ha
  have hP := (h.pi.fl p).mp hp
  have hpm := hP.1.1
  have hpn := h.free_none hpm hP.2
  have hnoheld : ∀ x ∈ L, x.1 / 65536 ≠ p := by
    intro x hx e
    have := (h.no_held hx).2
    rw [e, hP.2] at this; exact nomatch this
  have hpg : ∀ j, (({ s with pool := q } : St).expand k p g).pool.pg j =
      if j = p then { q.pg p with sidx := some k, nused := 0, nelems := PGSZ / elemsz k } else q.pg j := fun j => rfl
  have hmax : (({ s with pool := q } : St).expand k p g).pool.max = s.pool.max := t.max
  have hslab : ∀ j, (({ s with pool := q } : St).expand k p g).slab j =
      if j = k then { (s.slab k) with
        fl := (s.slab k).fl ++ segsOf k p
        nfree := (s.slab k).nfree + (segsOf k p).length } else s.slab j := fun j => rfl
  have hsx : ∀ j, ((({ s with pool := q } : St).expand k p g).pool.pg j).sidx =
      if j = p then some k else (s.pool.pg j).sidx := by
    intro j
    rw [hpg]
    by_cases e : j = p
    · rw [if_pos e, if_pos e]
    · rw [if_neg e, if_neg e]; exact (t.slab j).1
  have hnotin : ∀ k' g', g' ∈ (s.slab k').fl → g' / 4096 ≠ p := by
    intro k' g' hg e
    have := ((h.sfl k').2 g').mp hg
    rw [e, hpn] at this
    exact nomatch this.2.1
  have hflds := fun j => set_fields q p (some k) 0 (PGSZ / elemsz k) j
  have hpc : (q.pg p).count = 1 := by rw [t.count, if_pos rfl]
  have hpf : (q.pg p).free = false := by rw [t.free, if_pos rfl]
  constructor
  · exact hq.congr rfl rfl hflds
  · exact h.nodup
  · intro x hx hb
    obtain ⟨a, b, c, d, e, f⟩ := h.big x hx hb
    have ho := taken_other h.pi hp (by omega) t hc c e
    have hne := hnoheld x hx
    rw [hpg, if_neg hne]
    refine ⟨a, b, ⟨by rw [hmax]; exact c.1, ?_⟩, by rw [ho.2.1]; exact d, ho.2.2, by rw [(t.slab _).1]; exact f⟩
    rw [hpg, if_neg hne]; exact ho.1.2
  · intro x hx hb
    obtain ⟨k', a, b, c, d⟩ := h.small x hx hb
    have hne := hnoheld x hx
    exact ⟨k', a, by rw [hmax]; exact b, by rw [hsx, if_neg hne]; exact c, d⟩
  · intro j hj k' hs
    rw [hmax] at hj
    rw [hsx] at hs
    by_cases e : j = p
    · rw [if_pos e] at hs
      have hkk : k = k' := Option.some.inj hs
      subst hkk; subst e
      rw [hpg, if_pos rfl]
      refine ⟨hk, hpc, hpf, rfl, (countP_zero_of hnoheld).symm, fun hne => absurd rfl hne, ?_⟩
      rw [hslab, if_pos rfl]
      show 0 + List.countP _ ((s.slab k).fl ++ segsOf k j) = PGSZ / elemsz k
      rw [List.countP_append]
      have h1 : (s.slab k).fl.countP (fun g => decide (g / 4096 = j)) = 0 := by
        rw [List.countP_eq_zero]
        intro g' hg
        simpa using hnotin k g' hg
      have h2 : (segsOf k j).countP (fun g => decide (g / 4096 = j)) = (segsOf k j).length := by
        rw [List.countP_eq_length]
        intro g' hg
        simpa using ((mem_segsOf hk).mp hg).1
      rw [h1, h2, length_segsOf hk]
      omega
    · rw [if_neg e] at hs
      obtain ⟨a, b, c, d, f, w, u⟩ := h.spg j hj k' hs
      have ho := taken_other h.pi hp (by omega) t hc ⟨hj, by omega⟩ c
      have hsl := t.slab j
      rw [hpg, if_neg e]
      refine ⟨a, by rw [ho.2.1]; exact b, ho.2.2, by rw [hsl.2.2]; exact d, by rw [hsl.2.1]; exact f,
        fun _ => by rw [hsl.2.1]; exact w (nofun), ?_⟩
      rw [hslab, hsl.2.1, hsl.2.2]
      by_cases ek : k' = k
      · subst ek
        rw [if_pos rfl]
        show _ + List.countP _ ((s.slab k').fl ++ segsOf k' p) = _
        rw [List.countP_append]
        have h2 : (segsOf k' p).countP (fun g => decide (g / 4096 = j)) = 0 := by
          rw [List.countP_eq_zero]
          intro g' hg
          have := ((mem_segsOf hk).mp hg).1
          simp; omega
        rw [h2]; omega
      · rw [if_neg ek]; exact u
  · intro j hj hf hs
    rw [hsx] at hs
    by_cases e : j = p
    · rw [if_pos e] at hs; exact nomatch hs
    · rw [if_neg e] at hs
      rw [hpg, if_neg e] at hf
      have hjq : Hd q j := by
        refine ⟨hj.1, ?_⟩
        have := hj.2
        rw [hpg, if_neg e] at this; exact this
      rcases taken_heads h.pi hp (by omega) t hc hjq hf with e2 | e2
      · exact absurd e2 e
      · exact h.own j e2.1 e2.2 hs
  · intro k'
    rw [hslab]
    by_cases ek : k' = k
    · subst ek
      rw [if_pos rfl]
      have hold := h.sfl k'
      refine ⟨?_, ?_⟩
      · show ((s.slab k').fl ++ segsOf k' p).Nodup
        rw [List.nodup_append]
        refine ⟨hold.1, nodup_segsOf _ _, ?_⟩
        intro a ha b hb e
        subst e
        exact hnotin _ _ ha ((mem_segsOf hk).mp hb).1
      · intro g'
        show g' ∈ (s.slab k').fl ++ segsOf k' p ↔ _
        rw [List.mem_append, hold.2, mem_segsOf hk, hmax, hsx]
        by_cases e : g' / 4096 = p
        · rw [if_pos e]
          constructor
          · rintro (a | a)
            · rw [e, hpn] at a; exact nomatch a.2.1
            · refine ⟨by omega, rfl, a.2, ?_⟩
              intro hm
              obtain ⟨x, hx, hxe⟩ := List.mem_map.mp hm
              exact hnoheld x hx (by omega)
          · intro a; exact .inr ⟨e, a.2.2.1⟩
        · rw [if_neg e]
          constructor
          · rintro (a | a)
            · exact a
            · exact absurd a.1 e
          · exact .inl
    · rw [if_neg ek]
      have hold := h.sfl k'
      refine ⟨hold.1, ?_⟩
      intro g'
      rw [hold.2, hmax, hsx]
      by_cases e : g' / 4096 = p
      · rw [if_pos e, e, hpn]
        constructor
        · intro a; exact nomatch a.2.1
        · intro a; exact absurd (Option.some.inj a.2.1).symm ek
      · rw [if_neg e]
  · intro k'
    rw [hslab]
    have hold := h.cnt k'
    by_cases ek : k' = k
    · subst ek
      rw [if_pos rfl]
      refine ⟨?_, hold.2⟩
      show _ + _ = ((s.slab k').fl ++ segsOf k' p).length
      rw [List.length_append, hold.1]
    · rw [if_neg ek]; exact hold
  · show q.use = _
    rw [t.use]; exact h.use
  · have e1 : fsum (({ s with pool := q } : St).expand k p g).pool = fsum q := fsum_congr rfl (fun i => (hflds i).1)
    have e2 : (({ s with pool := q } : St).expand k p g).pool.use = s.pool.use := t.use
    have e3 := nslab_set (p := q) (q := (({ s with pool := q } : St).expand k p g).pool) rfl (i := p) (by rw [t.max]; exact hpm)
      (fun j hj => by rw [hpg, if_neg hj])
    have e4 := nslab_same t.max (fun i => (t.slab i).1)
    rw [(t.slab p).1, hpn, hsx, if_pos rfl] at e3
    have e5 := t.sum
    have e6 := h.pages
    simp at e3
    rw [e1, e2, hmax]
    omega

/-- An element is taken from a slab. -/
theorem pop_inv {ex : Option Nat} {s : St} {L : Held} (h : Inv ex s L) {k e nb : Nat} {r : List Nat} {g : Nat → Nat}
    (hk : sindex nb = some k) (hf : (s.slab k).fl = e :: r) (hex : ex = none ∨ ex = some (e / 4096)) :
    ∃ s', s.pop k g = (.ptr (e * 16), s') ∧ Inv none s' ((e * 16, nb) :: L) ∧ s'.bytes = s.bytes ∧
      s'.mem = scribble s.mem (e :: r) g ∧ s'.demask = s.demask ∧ s'.pool.max = s.pool.max := by
  have hk12 := (sindex_some hk).2.2.1
  have hm := ((h.sfl k).2 e).mp (by rw [hf]; exact List.mem_cons_self)
  have hnd := (h.sfl k).1
  rw [hf, List.nodup_cons] at hnd
  have hS := h.spg _ hm.1 k hm.2.1
  have hnf := (h.cnt k).1
  rw [hf, List.length_cons] at hnf
  have hlt : (s.pool.pg (e / 4096)).nused < (s.pool.pg (e / 4096)).nelems := by
    have := hS.2.2.2.2.2.2
    rw [hf, List.countP_cons, if_pos (by simp)] at this
    omega
  have hpop : s.pop k g = (.ptr (e * 16),
        { (({ s with
              pool := s.pool.set (e / 4096)
                { s.pool.pg (e / 4096) with nused := (s.pool.pg (e / 4096)).nused + 1 } } : St).setSlab k
            { fl := r, nfree := (s.slab k).nfree - 1, nused := (s.slab k).nused + 1 }) with
          mem := scribble s.mem (e :: r) g }) := by
    unfold St.pop
    rw [hf]
    dsimp only
    rw [e16, if_neg (by omega), if_neg (by omega)]
  refine ⟨_, hpop, ?_, rfl, rfl, rfl, rfl⟩
  generalize hs' : ({ (({ s with
              pool := s.pool.set (e / 4096)
                { s.pool.pg (e / 4096) with nused := (s.pool.pg (e / 4096)).nused + 1 } } : St).setSlab k
            { fl := r, nfree := (s.slab k).nfree - 1, nused := (s.slab k).nused + 1 }) with
          mem := scribble s.mem (e :: r) g } : St) = s'
  have hpg : ∀ j, s'.pool.pg j =
      if j = e / 4096 then { s.pool.pg (e / 4096) with nused := (s.pool.pg (e / 4096)).nused + 1 } else s.pool.pg j := by
    intro j; rw [← hs']; rfl
  have hmax : s'.pool.max = s.pool.max := by rw [← hs']; rfl
  have hfl : s'.pool.fl = s.pool.fl := by rw [← hs']; rfl
  have huse : s'.pool.use = s.pool.use := by rw [← hs']; rfl
  have hslab : ∀ j, s'.slab j = if j = k then { fl := r, nfree := (s.slab k).nfree - 1, nused := (s.slab k).nused + 1 } else s.slab j := by
    intro j; rw [← hs']; rfl
  have hfl3 : ∀ j, (s'.pool.pg j).count = (s.pool.pg j).count ∧ (s'.pool.pg j).free = (s.pool.pg j).free ∧
      (s'.pool.pg j).prev = (s.pool.pg j).prev := by
    intro j; rw [hpg]; split
    · next e' => rw [e']; exact ⟨rfl, rfl, rfl⟩
    · exact ⟨rfl, rfl, rfl⟩
  have hsx : ∀ j, (s'.pool.pg j).sidx = (s.pool.pg j).sidx ∧ (s'.pool.pg j).nelems = (s.pool.pg j).nelems := by
    intro j; rw [hpg]; split
    · next e' => rw [e']; exact ⟨rfl, rfl⟩
    · exact ⟨rfl, rfl⟩
  have hHd : ∀ j, Hd s'.pool j ↔ Hd s.pool j := by intro j; unfold Hd; rw [hmax, (hfl3 j).1]
  have hd16 : e * 16 / 65536 = e / 4096 := by omega
  have hnb := (sindex_some hk)
  constructor
  · exact h.pi.congr hmax hfl hfl3
  · rw [List.map_cons, List.nodup_cons]
    exact ⟨hm.2.2.2, h.nodup⟩
  · intro x hx hb
    rcases List.mem_cons.mp hx with hx | hx
    · subst hx; have : nb ≤ 32768 := hnb.2.1; have : 32768 < nb := hb; omega
    · rw [hHd, (hfl3 _).1, (hfl3 _).2.1, (hsx _).1]; exact h.big x hx hb
  · intro x hx hb
    rcases List.mem_cons.mp hx with hx | hx
    · subst hx
      refine ⟨k, hk, ?_, ?_, ?_, ?_⟩
      · show e * 16 / 65536 < _
        rw [hd16, hmax]; exact hm.1
      · show (s'.pool.pg (e * 16 / 65536)).sidx = _
        rw [hd16, (hsx _).1]; exact hm.2.1
      · show e * 16 % 16 = 0; omega
      · show e * 16 / 16 % 2 ^ k = 0
        rw [show e * 16 / 16 = e by omega]; exact hm.2.2.1
    · rw [hmax]
      obtain ⟨k', a, b, c, d⟩ := h.small x hx hb
      exact ⟨k', a, b, by rw [(hsx _).1]; exact c, d⟩
  · intro j hj k' hs
    rw [hmax] at hj
    rw [(hsx j).1] at hs
    obtain ⟨a, b, c, d, f, w, u⟩ := h.spg j hj k' hs
    rw [(hfl3 j).1, (hfl3 j).2.1, (hsx j).2, List.countP_cons]
    show k' < 12 ∧ _ ∧ _ ∧ _ ∧ (s'.pool.pg j).nused = _ + (if decide (e * 16 / 65536 = j) = true then 1 else 0) ∧ _
    rw [hd16, hslab]
    by_cases ej : e / 4096 = j
    · have hkk : k' = k := by rw [← ej, hm.2.1] at hs; exact (Option.some.inj hs).symm
      subst hkk
      rw [if_pos (c := decide (e / 4096 = j) = true) (by simpa using ej), if_pos rfl, hpg, if_pos ej.symm]
      rw [hf, List.countP_cons, if_pos (by simpa using ej)] at u
      rw [ej]
      refine ⟨a, b, c, d, ?_, fun _ => Nat.succ_pos _, ?_⟩
      · show (s.pool.pg j).nused + 1 = _; omega
      · show (s.pool.pg j).nused + 1 + List.countP _ r = _; omega
    · rw [if_neg (c := decide (e / 4096 = j) = true) (by simpa using ej), hpg, if_neg (fun e' => ej e'.symm)]
      refine ⟨a, b, c, d, by omega, fun _ => ?_, ?_⟩
      · apply w
        rcases hex with e1 | e1
        · rw [e1]; exact nofun
        · rw [e1]; intro e2; exact ej (Option.some.inj e2)
      · by_cases ek : k' = k
        · subst ek
          rw [if_pos rfl]
          rw [hf, List.countP_cons, if_neg (by simpa using ej)] at u
          exact u
        · rw [if_neg ek]; exact u
  · intro j hj hf' hs
    rw [(hfl3 j).2.1] at hf'
    rw [(hsx j).1] at hs
    obtain ⟨x, hx, a⟩ := h.own j ((hHd j).mp hj) hf' hs
    exact ⟨x, List.mem_cons_of_mem _ hx, a⟩
  · intro k'
    have hold := h.sfl k'
    rw [hslab]
    by_cases ek : k' = k
    · subst ek
      rw [if_pos rfl]
      refine ⟨hnd.2, ?_⟩
      intro g'
      show g' ∈ r ↔ _
      have h1 := hold.2 g'
      rw [hf, List.mem_cons] at h1
      rw [hmax, (hsx _).1, List.map_cons, List.mem_cons]
      constructor
      · intro hg
        have h2 := h1.mp (.inr hg)
        refine ⟨h2.1, h2.2.1, h2.2.2.1, ?_⟩
        rintro (e1 | e1)
        · have : g' = e := by
            have : g' * 16 = e * 16 := e1
            omega
          subst this; exact hnd.1 hg
        · exact h2.2.2.2 e1
      · rintro ⟨a, b, c, d⟩
        rcases h1.mpr ⟨a, b, c, fun e1 => d (.inr e1)⟩ with e1 | e1
        · subst e1; exact absurd (.inl rfl) d
        · exact e1
    · rw [if_neg ek]
      refine ⟨hold.1, ?_⟩
      intro g'
      rw [hold.2, hmax, (hsx _).1, List.map_cons, List.mem_cons]
      constructor
      · rintro ⟨a, b, c, d⟩
        refine ⟨a, b, c, ?_⟩
        rintro (e1 | e1)
        · have : g' = e := by
            have : g' * 16 = e * 16 := e1
            omega
          subst this
          rw [hm.2.1] at b
          exact ek (Option.some.inj b).symm
        · exact d e1
      · rintro ⟨a, b, c, d⟩
        exact ⟨a, b, c, fun e1 => d (.inr e1)⟩
  · intro k'
    have hold := h.cnt k'
    rw [hslab, List.countP_cons]
    show _ ∧ _ = _ + (if decide (sindex nb = some k') = true then 1 else 0)
    by_cases ek : k' = k
    · subst ek
      rw [if_pos rfl, if_pos (by simpa using hk)]
      refine ⟨?_, ?_⟩
      · show (s.slab k').nfree - 1 = r.length; omega
      · show (s.slab k').nused + 1 = _; omega
    · rw [if_neg ek, if_neg (by rw [hk]; simpa using fun e1 => ek e1.symm)]
      exact hold
  · rw [huse, h.use, List.map_cons, List.sum_cons]
    have : bigPgs (e * 16, nb) = 0 := by
      unfold bigPgs; rw [if_neg]; show ¬ 32768 < nb; omega
    rw [this]; omega
  · rw [fsum_congr hfl (fun i => (hfl3 i).1), huse, nslab_same hmax (fun i => (hsx i).1), hmax]
    exact h.pages

/-- A multi-page request. -/
theorem multi_inv {s : St} {L : Held} (h : Inv none s L) {nb p : Nat} {q : Pool} (hb : 32768 < nb) (hmx : nb ≤ MAXSZ)
    (ha : s.pool.alloc (npgs nb) = some (p, q)) :
    s.mallocMulti nb = (.ptr (p * 65536), { s with pool := { q with use := q.use + npgs nb } }) ∧
    Inv none { s with pool := { q with use := q.use + npgs nb } } ((p * 65536, nb) :: L) := by
  have hnp : 0 < npgs nb := by unfold npgs PGSZ; omega
  obtain ⟨hp, hc, t, hq⟩ := alloc_taken h.pi hnp ha
  have hP := (h.pi.fl p).mp hp
  have hpm := hP.1.1
  have hpn := h.free_none hpm hP.2
  have hnoheld : ∀ x ∈ L, x.1 / 65536 ≠ p := by
    intro x hx e
    have := (h.no_held hx).2
    rw [e, hP.2] at this; exact nomatch this
  have hsum := t.sum
  have hpages := h.pages
  have hd : p * 65536 / 65536 = p := by omega
  have hpc : (q.pg p).count = npgs nb := by rw [t.count, if_pos rfl]
  have hpf : (q.pg p).free = false := by rw [t.free, if_pos rfl]
  have hfit : p + npgs nb ≤ s.pool.max := by have := h.pi.fit p hP.1; omega
  refine ⟨?_, ?_⟩
  · unfold St.mallocMulti
    rw [ha]
    dsimp only
    rw [if_pos]
    · rfl
    · rw [t.use, t.max]; omega
  · constructor
    · exact hq.congr rfl rfl (fun i => ⟨rfl, rfl, rfl⟩)
    · rw [List.map_cons, List.nodup_cons]
      refine ⟨?_, h.nodup⟩
      intro hm
      obtain ⟨x, hx, hxe⟩ := List.mem_map.mp hm
      have hxe : x.1 = p * 65536 := hxe
      exact hnoheld x hx (by omega)
    · intro x hx hb'
      rcases List.mem_cons.mp hx with hx | hx
      · subst hx
        refine ⟨hmx, ?_, ?_⟩
        · show p * 65536 % 65536 = 0; omega
        · show Hd _ (p * 65536 / 65536) ∧ (q.pg (p * 65536 / 65536)).count = npgs nb ∧
            (q.pg (p * 65536 / 65536)).free = false ∧ (q.pg (p * 65536 / 65536)).sidx = none
          rw [hd]
          refine ⟨⟨?_, ?_⟩, hpc, hpf, by rw [(t.slab p).1]; exact hpn⟩
          · show p < q.max; rw [t.max]; exact hpm
          · show 0 < (q.pg p).count; rw [hpc]; exact hnp
      · obtain ⟨a, b, c, d, e, f⟩ := h.big x hx hb'
        have ho := taken_other h.pi hp hnp t hc c e
        exact ⟨a, b, ho.1, by rw [← d]; exact ho.2.1, ho.2.2, by rw [← f]; exact (t.slab _).1⟩
    · intro x hx hb'
      rcases List.mem_cons.mp hx with hx | hx
      · subst hx; have : nb ≤ 32768 := hb'; omega
      · obtain ⟨k', a, b, c, d⟩ := h.small x hx hb'
        exact ⟨k', a, by show _ < q.max; rw [t.max]; exact b, by rw [← c]; exact (t.slab _).1, d⟩
    · intro j hj k' hs
      have hj : j < q.max := hj
      rw [t.max] at hj
      have hs : (q.pg j).sidx = some k' := hs
      rw [(t.slab j).1] at hs
      have hjp : j ≠ p := by intro e; rw [e, hpn] at hs; exact nomatch hs
      obtain ⟨a, b, c, d, f, w, u⟩ := h.spg j hj k' hs
      have ho := taken_other h.pi hp hnp t hc ⟨hj, by omega⟩ c
      have hsl := t.slab j
      rw [List.countP_cons]
      show k' < 12 ∧ (q.pg j).count = 1 ∧ (q.pg j).free = false ∧ (q.pg j).nelems = _ ∧
        (q.pg j).nused = _ + (if decide (p * 65536 / 65536 = j) = true then 1 else 0) ∧ (_ → 0 < (q.pg j).nused) ∧
        (q.pg j).nused + List.countP _ (s.slab k').fl = (q.pg j).nelems
      rw [hd, if_neg (by simpa using fun e => hjp e.symm), hsl.2.1, hsl.2.2, ho.2.1]
      exact ⟨a, b, ho.2.2, d, f, w, u⟩
    · intro j hj hf hs
      have hf : (q.pg j).free = false := hf
      have hs : (q.pg j).sidx = none := hs
      rcases taken_heads h.pi hp hnp t hc hj hf with e2 | e2
      · exact ⟨_, List.mem_cons_self, hb, by rw [e2]⟩
      · rw [(t.slab j).1] at hs
        obtain ⟨x, hx, a⟩ := h.own j e2.1 e2.2 hs
        exact ⟨x, List.mem_cons_of_mem _ hx, a⟩
    · intro k'
      have hold := h.sfl k'
      refine ⟨hold.1, ?_⟩
      intro g'
      show g' ∈ (s.slab k').fl ↔ g' / 4096 < q.max ∧ (q.pg (g' / 4096)).sidx = some k' ∧ _
      rw [hold.2, t.max, (t.slab _).1, List.map_cons, List.mem_cons]
      constructor
      · rintro ⟨a, b, c, d⟩
        refine ⟨a, b, c, ?_⟩
        rintro (e1 | e1)
        · have e1 : g' * 16 = p * 65536 := e1
          have : g' / 4096 = p := by omega
          rw [this, hpn] at b; exact nomatch b
        · exact d e1
      · rintro ⟨a, b, c, d⟩
        exact ⟨a, b, c, fun e1 => d (.inr e1)⟩
    · intro k'
      rw [List.countP_cons]
      show _ ∧ _ = _ + (if decide (sindex nb = some k') = true then 1 else 0)
      rw [sindex_none_of_big hb, if_neg (by simp)]
      exact h.cnt k'
    · show q.use + npgs nb = _
      rw [t.use, h.use, List.map_cons, List.sum_cons]
      have : bigPgs (p * 65536, nb) = npgs nb := by
        unfold bigPgs; rw [if_pos]; exact hb
      rw [this]; omega
    · show fsum q + (q.use + npgs nb) + nslab q = q.max
      rw [nslab_same t.max (fun i => (t.slab i).1), t.max, t.use]
      omega

/-- An element is given back to its slab. -/
theorem push_inv {s : St} {L : Held} (h : Inv none s L) {x : Nat × Nat} (hx : x ∈ L) {k : Nat} (hk : sindex x.2 = some k)
    (g : Nat → Nat) :
    Inv (if ((s.push k (x.1 / 16) g).pool.pg (x.1 / 65536)).nused = 0 then some (x.1 / 65536) else none)
      (s.push k (x.1 / 16) g) (L.erase x) ∧
    (s.pool.pg (x.1 / 65536)).sidx = some k ∧ 0 < (s.pool.pg (x.1 / 65536)).nused ∧
    (s.pool.pg (x.1 / 65536)).nused ≤ (s.pool.pg (x.1 / 65536)).nelems ∧ 0 < (s.slab k).nused ∧ x.1 % 16 = 0 := by
  have hnb := sindex_some hk
  obtain ⟨k0, a0, hpm, hsx0, h16, hal⟩ := h.small x hx hnb.2.1
  have hkk : k0 = k := by rw [hk] at a0; exact (Option.some.inj a0).symm
  subst hkk
  have hS := h.spg _ hpm k0 hsx0
  have hpge : x.1 / 16 * 16 / PGSZ = x.1 / 65536 := by unfold PGSZ; omega
  have hx16 : x.1 / 16 * 16 = x.1 := by omega
  have hg4 : x.1 / 16 / 4096 = x.1 / 65536 := by omega
  have hpos := hS.2.2.2.2.2.1 nofun
  have hcx := countP_erase' (fun y : Nat × Nat => decide (sindex y.2 = some k0)) hx
  rw [if_pos (by simpa using hk)] at hcx
  refine ⟨?_, hsx0, hpos, ?_, ?_, h16⟩
  rotate_left
  · have := hS.2.2.2.2.2.2; omega
  · have := (h.cnt k0).2; omega
  generalize hs' : s.push k0 (x.1 / 16) g = s'
  have hpg : ∀ j, s'.pool.pg j =
      if j = x.1 / 65536 then { s.pool.pg (x.1 / 65536) with nused := (s.pool.pg (x.1 / 65536)).nused - 1 } else s.pool.pg j := by
    intro j; rw [← hs', ← hpge]; rfl
  have hmax : s'.pool.max = s.pool.max := by rw [← hs']; rfl
  have hfl : s'.pool.fl = s.pool.fl := by rw [← hs']; rfl
  have huse : s'.pool.use = s.pool.use := by rw [← hs']; rfl
  have hslab : ∀ j, s'.slab j = if j = k0 then { fl := x.1 / 16 :: (s.slab k0).fl, nfree := (s.slab k0).nfree + 1, nused := (s.slab k0).nused - 1 } else s.slab j := by
    intro j; rw [← hs']; rfl
  have hfl3 : ∀ j, (s'.pool.pg j).count = (s.pool.pg j).count ∧ (s'.pool.pg j).free = (s.pool.pg j).free ∧
      (s'.pool.pg j).prev = (s.pool.pg j).prev := by
    intro j; rw [hpg]; split
    · next e' => rw [e']; exact ⟨rfl, rfl, rfl⟩
    · exact ⟨rfl, rfl, rfl⟩
  have hsx : ∀ j, (s'.pool.pg j).sidx = (s.pool.pg j).sidx ∧ (s'.pool.pg j).nelems = (s.pool.pg j).nelems := by
    intro j; rw [hpg]; split
    · next e' => rw [e']; exact ⟨rfl, rfl⟩
    · exact ⟨rfl, rfl⟩
  have hHd : ∀ j, Hd s'.pool j ↔ Hd s.pool j := by intro j; unfold Hd; rw [hmax, (hfl3 j).1]
  have hmem : ∀ y, y ∈ L.erase x ↔ y ∈ L ∧ y ≠ x := mem_erase_held h.nodup x
  have hxfirst : x.1 ∈ L.map Prod.fst := List.mem_map_of_mem hx
  constructor
  · exact h.pi.congr hmax hfl hfl3
  · exact nodup_erase_fst h.nodup x
  · intro y hy hb
    rw [hHd, (hfl3 _).1, (hfl3 _).2.1, (hsx _).1]; exact h.big y ((hmem y).mp hy).1 hb
  · intro y hy hb
    rw [hmax]
    obtain ⟨k', a, b, c, d⟩ := h.small y ((hmem y).mp hy).1 hb
    exact ⟨k', a, b, by rw [(hsx _).1]; exact c, d⟩
  · intro j hj k' hs
    rw [hmax] at hj
    rw [(hsx j).1] at hs
    obtain ⟨a, b, c, d, f, w, u⟩ := h.spg j hj k' hs
    have hce := countP_erase' (fun y : Nat × Nat => decide (y.1 / 65536 = j)) hx
    rw [(hfl3 j).1, (hfl3 j).2.1, (hsx j).2, hslab]
    by_cases ej : j = x.1 / 65536
    · have hkk : k' = k0 := by rw [ej, hsx0] at hs; exact (Option.some.inj hs).symm
      subst hkk
      rw [if_pos (by simpa using ej.symm)] at hce
      rw [← ej] at hpos
      have hu : (s'.pool.pg j).nused = (s.pool.pg j).nused - 1 := by rw [hpg, if_pos ej, ej]
      refine ⟨a, b, c, d, by omega, ?_, ?_⟩
      · intro hne
        rw [← ej] at hne
        apply Nat.pos_of_ne_zero
        intro hz
        rw [if_pos hz] at hne
        exact hne rfl
      · rw [if_pos rfl]
        show _ + List.countP _ (x.1 / 16 :: (s.slab k').fl) = _
        rw [List.countP_cons, if_pos (by rw [hg4]; simpa using ej.symm)]
        omega
    · rw [if_neg (by simpa using fun e => ej e.symm)] at hce
      have hu : (s'.pool.pg j).nused = (s.pool.pg j).nused := by rw [hpg, if_neg ej]
      refine ⟨a, b, c, d, by omega, fun _ => by rw [hu]; exact w nofun, ?_⟩
      rw [hu]
      by_cases ek : k' = k0
      · subst ek
        rw [if_pos rfl]
        show _ + List.countP _ (x.1 / 16 :: (s.slab k').fl) = _
        rw [List.countP_cons, if_neg (by rw [hg4]; simpa using fun e => ej e.symm)]
        exact u
      · rw [if_neg ek]; exact u
  · intro j hj hf' hs
    rw [(hfl3 j).2.1] at hf'
    rw [(hsx j).1] at hs
    obtain ⟨y, hy, a⟩ := h.own j ((hHd j).mp hj) hf' hs
    refine ⟨y, (hmem y).mpr ⟨hy, ?_⟩, a⟩
    intro e
    subst e
    omega
  · intro k'
    have hold := h.sfl k'
    have hin : ∀ g', g' * 16 ∉ (L.erase x).map Prod.fst ↔ g' * 16 ∉ L.map Prod.fst ∨ g' = x.1 / 16 := by
      intro g'
      rw [mem_erase_fst h.nodup hx]
      constructor
      · intro hne
        by_cases e : g' = x.1 / 16
        · exact .inr e
        · exact .inl (fun hm => hne ⟨hm, by omega⟩)
      · rintro (e | e) hc
        · exact e hc.1
        · exact hc.2 (by omega)
    rw [hslab]
    by_cases ek : k' = k0
    · subst ek
      rw [if_pos rfl]
      refine ⟨?_, ?_⟩
      · show (x.1 / 16 :: (s.slab k').fl).Nodup
        rw [List.nodup_cons]
        refine ⟨?_, hold.1⟩
        intro hm
        have := ((hold.2 _).mp hm).2.2.2
        rw [hx16] at this
        exact this hxfirst
      · intro g'
        show g' ∈ x.1 / 16 :: (s.slab k').fl ↔ _
        rw [List.mem_cons, hold.2, hmax, (hsx _).1, hin]
        constructor
        · rintro (e | e)
          · subst e
            exact ⟨by rw [hg4]; exact hpm, by rw [hg4]; exact hsx0, hal, .inr rfl⟩
          · exact ⟨e.1, e.2.1, e.2.2.1, .inl e.2.2.2⟩
        · rintro ⟨a, b, c, d | d⟩
          · exact .inr ⟨a, b, c, d⟩
          · exact .inl d
    · rw [if_neg ek]
      refine ⟨hold.1, ?_⟩
      intro g'
      rw [hold.2, hmax, (hsx _).1, hin]
      constructor
      · rintro ⟨a, b, c, d⟩; exact ⟨a, b, c, .inl d⟩
      · rintro ⟨a, b, c, d | d⟩
        · exact ⟨a, b, c, d⟩
        · rw [d, hg4, hsx0] at b
          exact absurd (Option.some.inj b).symm ek
  · intro k'
    have hold := h.cnt k'
    have hce := countP_erase' (fun y : Nat × Nat => decide (sindex y.2 = some k')) hx
    rw [hslab]
    by_cases ek : k' = k0
    · subst ek
      rw [if_pos rfl]
      refine ⟨?_, ?_⟩
      · show (s.slab k').nfree + 1 = (x.1 / 16 :: (s.slab k').fl).length
        rw [List.length_cons]; omega
      · show (s.slab k').nused - 1 = _; omega
    · rw [if_neg ek]
      rw [if_neg (by rw [hk]; simpa using fun e1 => ek e1.symm)] at hce
      exact ⟨hold.1, by omega⟩
  · rw [huse, h.use]
    have := sum_erase' bigPgs hx
    have hz : bigPgs x = 0 := by unfold bigPgs; rw [if_neg (by omega)]
    omega
  · rw [fsum_congr hfl (fun i => (hfl3 i).1), huse, nslab_same hmax (fun i => (hsx i).1), hmax]
    exact h.pages

/-- Used runs other than the one given back. -/
theorem freed_other {p q : Pool} {x n s t : Nat} (r : Freed p q x n s t) {i : Nat} (hi : Hd p i) (hne : i ≠ x)
    (hf : (p.pg i).free = false) : Hd q i ∧ (q.pg i).count = (p.pg i).count ∧ (q.pg i).free = false := by
  have hout : ¬(s ≤ i ∧ i < s + t) := by
    rintro ⟨a, b⟩
    have := r.within i hi a b hne
    rw [hf] at this; exact nomatch this
  have hc : (q.pg i).count = (p.pg i).count := by
    rw [r.count, if_neg, if_neg]
    · rintro ⟨a, b⟩; exact hout ⟨by omega, b⟩
    · intro e; subst e
      have := r.inside
      have := r.before
      by_cases h2 : i < i + t
      · exact hout ⟨Nat.le_refl _, h2⟩
      · omega
  exact ⟨⟨by rw [r.max]; exact hi.1, by rw [hc]; exact hi.2⟩, hc, by rw [r.free, if_neg hout]; exact hf⟩

theorem freed_heads {p q : Pool} {x n s t : Nat} (hn : 0 < n) (r : Freed p q x n s t) {i : Nat} (hi : Hd q i)
    (hf : (q.pg i).free = false) : Hd p i ∧ i ≠ x ∧ (p.pg i).free = false := by
  have hin := r.inside
  have hout : ¬(s ≤ i ∧ i < s + t) := by
    intro hc; rw [r.free, if_pos hc] at hf; exact nomatch hf
  have hc := hi.2
  rw [r.count, if_neg (by omega), if_neg (by omega)] at hc
  rw [r.free, if_neg hout] at hf
  exact ⟨⟨by rw [← r.max]; exact hi.1, hc⟩, by omega, hf⟩

/-- The page of which nothing is used goes back to the pool. -/
theorem shrink_inv {s : St} {L : Held} {q k : Nat} (h : Inv (some q) s L) (hq : q < s.pool.max)
    (hk : (s.pool.pg q).sidx = some k) (hz : (s.pool.pg q).nused = 0) (f : Flags) :
    ∃ s1, s.shrink k q = some s1 ∧ s1.bytes = s.bytes ∧ s1.mem = s.mem ∧ s1.demask = s.demask ∧
      s1.pool.max = s.pool.max ∧
      Freed s1.pool (s1.pool.release q 1).1 q 1 (s1.pool.release q 1).2.1 (s1.pool.release q 1).2.2 ∧
      Inv none (s1.releasePgs q 1 f) L := by
  obtain ⟨hk12, hc1, hf0, hel, hus, _, hcnt⟩ := h.spg q hq k hk
  have hnoheld : ∀ x ∈ L, x.1 / 65536 ≠ q := by
    rw [hz] at hus
    have := List.countP_eq_zero.mp hus.symm
    intro x hx; simpa using this x hx
  have hlen : (segsOf k q).length ≤ (s.slab k).nfree := by
    rw [(h.cnt k).1, length_segsOf hk12, ← hel, ← hcnt, hz, Nat.zero_add]
    exact List.countP_le_length
  have hsh : s.shrink k q = some (({ s with pool := s.pool.set q { s.pool.pg q with sidx := none, nelems := 0 } } : St).setSlab k
        { (s.slab k) with
          fl := eraseAll (s.slab k).fl (segsOf k q)
          nfree := (s.slab k).nfree - (segsOf k q).length }) := by
    unfold St.shrink
    rw [if_neg]
    rintro (e | e | e)
    · exact e hk
    · exact e hz
    · omega
  refine ⟨_, hsh, rfl, rfl, rfl, rfl, ?_⟩
  generalize hs1 : (({ s with pool := s.pool.set q { s.pool.pg q with sidx := none, nelems := 0 } } : St).setSlab k
        { (s.slab k) with
          fl := eraseAll (s.slab k).fl (segsOf k q)
          nfree := (s.slab k).nfree - (segsOf k q).length }) = s1
  have hpg : ∀ j, s1.pool.pg j = if j = q then { s.pool.pg q with sidx := none, nelems := 0 } else s.pool.pg j := by
    intro j; rw [← hs1]; rfl
  have hmax : s1.pool.max = s.pool.max := by rw [← hs1]; rfl
  have hfl : s1.pool.fl = s.pool.fl := by rw [← hs1]; rfl
  have huse : s1.pool.use = s.pool.use := by rw [← hs1]; rfl
  have hslab : ∀ j, s1.slab j = if j = k then { (s.slab k) with
          fl := eraseAll (s.slab k).fl (segsOf k q)
          nfree := (s.slab k).nfree - (segsOf k q).length } else s.slab j := by
    intro j; rw [← hs1]; rfl
  have hfl3 : ∀ j, (s1.pool.pg j).count = (s.pool.pg j).count ∧ (s1.pool.pg j).free = (s.pool.pg j).free ∧
      (s1.pool.pg j).prev = (s.pool.pg j).prev := by
    intro j; rw [hpg]; split
    · next e' => rw [e']; exact ⟨rfl, rfl, rfl⟩
    · exact ⟨rfl, rfl, rfl⟩
  have hsx : ∀ j, (s1.pool.pg j).sidx = if j = q then none else (s.pool.pg j).sidx := by
    intro j; rw [hpg]; split <;> rfl
  have hpi : PInv s1.pool := h.pi.congr hmax hfl hfl3
  have hHd : ∀ j, Hd s1.pool j ↔ Hd s.pool j := by intro j; unfold Hd; rw [hmax, (hfl3 j).1]
  have hdq : Hd s1.pool q := (hHd q).mpr ⟨hq, by omega⟩
  have r := release_freed hpi (n := 1) hdq (by rw [(hfl3 q).1]; exact hc1) (by rw [(hfl3 q).2.1]; exact hf0)
  refine ⟨r, ?_⟩
  generalize hp2 : (s1.pool.release q 1).1 = p2 at r
  generalize (s1.pool.release q 1).2.1 = st at r
  generalize (s1.pool.release q 1).2.2 = tt at r
  generalize hs2 : s1.releasePgs q 1 f = s2
  have hpool : s2.pool = p2 := by rw [← hs2, ← hp2]; rfl
  have hslab2 : s2.slab = s1.slab := by rw [← hs2]; rfl
  have hmax2 : s2.pool.max = s.pool.max := by rw [hpool, r.max, hmax]
  have hsx2 : ∀ j, (s2.pool.pg j).sidx = if j = q then none else (s.pool.pg j).sidx := by
    intro j; rw [hpool, (r.slab j).1, hsx]
  have hoth : ∀ j, Hd s.pool j → j ≠ q → (s.pool.pg j).free = false →
      Hd s2.pool j ∧ (s2.pool.pg j).count = (s.pool.pg j).count ∧ (s2.pool.pg j).free = false := by
    intro j a b c
    have := freed_other r ((hHd j).mpr a) b (by rw [(hfl3 j).2.1]; exact c)
    rw [(hfl3 j).1] at this
    rw [hpool]; exact this
  have hsegs : eraseAll (s.slab k).fl (segsOf k q) = (s.slab k).fl.filter (fun g => decide (g / 4096 ≠ q)) := by
    rw [eraseAll_eq (h.sfl k).1]
    apply List.filter_congr
    intro g hg
    have hg2 := ((h.sfl k).2 g).mp hg
    have hm := mem_segsOf (p := q) (g := g) hk12
    by_cases e : g / 4096 = q
    · have : g ∈ segsOf k q := hm.mpr ⟨e, hg2.2.2.1⟩
      simp [e, this]
    · have : g ∉ segsOf k q := fun hc => e (hm.mp hc).1
      simp [e, this]
  constructor
  · rw [hpool]; exact freed_inv hpi (by omega) r
  · exact h.nodup
  · intro x hx hb
    obtain ⟨a, b, c, d, e, f'⟩ := h.big x hx hb
    have hne := hnoheld x hx
    have ho := hoth _ c hne e
    exact ⟨a, b, ho.1, by rw [ho.2.1]; exact d, ho.2.2, by rw [hsx2, if_neg hne]; exact f'⟩
  · intro x hx hb
    obtain ⟨k', a, b, c, d⟩ := h.small x hx hb
    have hne := hnoheld x hx
    exact ⟨k', a, by rw [hmax2]; exact b, by rw [hsx2, if_neg hne]; exact c, d⟩
  · intro j hj k' hs
    rw [hmax2] at hj
    rw [hsx2] at hs
    by_cases e : j = q
    · rw [if_pos e] at hs; exact nomatch hs
    · rw [if_neg e] at hs
      obtain ⟨a, b, c, d, f', w, u⟩ := h.spg j hj k' hs
      have ho := hoth j ⟨hj, by omega⟩ e c
      have hsl : (s2.pool.pg j).nused = (s.pool.pg j).nused ∧ (s2.pool.pg j).nelems = (s.pool.pg j).nelems := by
        have := (r.slab j).2
        rw [hpg, if_neg e] at this
        rw [hpool]; exact this
      rw [ho.2.1, hsl.1, hsl.2, hslab2, hslab]
      refine ⟨a, b, ho.2.2, d, f', fun _ => w (fun e2 => e (Option.some.inj e2).symm), ?_⟩
      by_cases ek : k' = k
      · subst ek
        rw [if_pos rfl]
        show _ + List.countP _ (eraseAll (s.slab k').fl (segsOf k' q)) = _
        rw [hsegs, List.countP_filter, ← u]
        congr 1
        apply List.countP_congr
        intro g _
        simp
        intro e3 e4; omega
      · rw [if_neg ek]; exact u
  · intro j hj hf hs
    rw [hpool] at hj hf
    have hh := freed_heads (by omega) r hj hf
    rw [hsx2, if_neg hh.2.1] at hs
    rw [(hfl3 j).2.1] at hh
    exact h.own j ((hHd j).mp hh.1) hh.2.2 hs
  · intro k'
    have hold := h.sfl k'
    rw [hslab2, hslab]
    by_cases ek : k' = k
    · subst ek
      rw [if_pos rfl]
      show (eraseAll (s.slab k').fl (segsOf k' q)).Nodup ∧ ∀ g, g ∈ eraseAll (s.slab k').fl (segsOf k' q) ↔ _
      rw [hsegs]
      refine ⟨hold.1.filter _, ?_⟩
      intro g
      rw [List.mem_filter, hold.2, hmax2, hsx2]
      by_cases e : g / 4096 = q
      · rw [if_pos e]
        constructor
        · intro a; exact absurd e (by simpa using a.2)
        · intro a; exact nomatch a.2.1
      · rw [if_neg e]
        constructor
        · exact fun a => a.1
        · exact fun a => ⟨a, by simpa using e⟩
    · rw [if_neg ek]
      refine ⟨hold.1, ?_⟩
      intro g
      rw [hold.2, hmax2, hsx2]
      by_cases e : g / 4096 = q
      · rw [if_pos e, e, hk]
        constructor
        · intro a; exact absurd (Option.some.inj a.2.1).symm ek
        · intro a; exact nomatch a.2.1
      · rw [if_neg e]
  · intro k'
    have hold := h.cnt k'
    rw [hslab2, hslab]
    by_cases ek : k' = k
    · subst ek
      rw [if_pos rfl]
      refine ⟨?_, hold.2⟩
      show (s.slab k').nfree - (segsOf k' q).length = (eraseAll (s.slab k').fl (segsOf k' q)).length
      rw [hsegs, hold.1, length_segsOf hk12, ← hel, ← hcnt, hz]
      have := List.length_eq_countP_add_countP (fun g => decide (g / 4096 = q)) (l := (s.slab k').fl)
      rw [← List.countP_eq_length_filter]
      have e2 : (s.slab k').fl.countP (fun g => decide (g / 4096 ≠ q)) =
          (s.slab k').fl.countP (fun a => decide ¬(decide (a / 4096 = q)) = true) := by
        apply List.countP_congr
        intro g _
        simp
      rw [e2]
      omega
    · rw [if_neg ek]; exact hold
  · rw [hpool, r.use, huse]; exact h.use
  · have e1 : fsum s1.pool = fsum s.pool := fsum_congr hfl (fun i => (hfl3 i).1)
    have e2 := nslab_set (p := s.pool) (q := s1.pool) hmax hq (fun j hj => by rw [hsx, if_neg hj])
    rw [hk, hsx, if_pos rfl] at e2
    have e3 := nslab_same r.max (fun i => (r.slab i).1)
    have e4 := r.sum
    have e5 := h.pages
    simp at e2
    rw [hpool, r.use, huse, r.max, hmax]
    omega

/-- A multi-page object is given back. -/
theorem multifree_inv {s : St} {L : Held} (h : Inv none s L) {x : Nat × Nat} (hx : x ∈ L) (hb : 32768 < x.2) (f : Flags) :
    s.pool.check x.1 x.2 = true ∧
    Freed s.pool (s.pool.release (x.1 / 65536) (npgs x.2)).1 (x.1 / 65536) (npgs x.2)
      (s.pool.release (x.1 / 65536) (npgs x.2)).2.1 (s.pool.release (x.1 / 65536) (npgs x.2)).2.2 ∧
    ∃ s', s.freeMulti x.1 x.2 f = some s' ∧ s'.bytes = s.bytes ∧ s'.demask = s.demask ∧ s'.pool.max = s.pool.max ∧
      s'.mem = (s.releasePgs (x.1 / 65536) (npgs x.2) f).mem ∧ Inv none s' (L.erase x) := by
  obtain ⟨hmx, hal, hd, hc, hf, hsn⟩ := h.big x hx hb
  have hnp : 0 < npgs x.2 := by unfold npgs PGSZ; omega
  have hsumx := sum_erase' bigPgs hx
  have hbx : bigPgs x = npgs x.2 := by unfold bigPgs; rw [if_pos hb]
  have huse := h.use
  have hchk : s.pool.check x.1 x.2 = true := by
    unfold Pool.check
    show (decide (npgs x.2 ≤ s.pool.use) && decide (x.1 / 65536 < s.pool.max) && !(s.pool.pg (x.1 / 65536)).free
      && decide ((s.pool.pg (x.1 / 65536)).count = npgs x.2)) = true
    rw [hf, hc, decide_eq_true (by omega), decide_eq_true hd.1, decide_eq_true rfl]
    rfl
  have r := release_freed h.pi hd hc hf
  refine ⟨hchk, r, ?_⟩
  have hfm : s.freeMulti x.1 x.2 f = some
      { (s.releasePgs (x.1 / 65536) (npgs x.2) f) with
        pool := { (s.releasePgs (x.1 / 65536) (npgs x.2) f).pool with
          use := (s.releasePgs (x.1 / 65536) (npgs x.2) f).pool.use - npgs x.2 } } := by
    unfold St.freeMulti
    rw [if_pos hchk]; rfl
  refine ⟨_, hfm, rfl, rfl, r.max, rfl, ?_⟩
  generalize hp2 : (s.pool.release (x.1 / 65536) (npgs x.2)).1 = p2 at r
  generalize (s.pool.release (x.1 / 65536) (npgs x.2)).2.1 = st at r
  generalize (s.pool.release (x.1 / 65536) (npgs x.2)).2.2 = tt at r
  generalize hs2 : ({ (s.releasePgs (x.1 / 65536) (npgs x.2) f) with
        pool := { (s.releasePgs (x.1 / 65536) (npgs x.2) f).pool with
          use := (s.releasePgs (x.1 / 65536) (npgs x.2) f).pool.use - npgs x.2 } } : St) = s2
  have hpool : s2.pool = { p2 with use := p2.use - npgs x.2 } := by rw [← hs2, ← hp2]; rfl
  have hslab2 : s2.slab = s.slab := by rw [← hs2]; rfl
  have hmax2 : s2.pool.max = s.pool.max := by rw [hpool]; exact r.max
  have hpg2 : ∀ j, s2.pool.pg j = p2.pg j := by intro j; rw [hpool]
  have hsx2 : ∀ j, (s2.pool.pg j).sidx = (s.pool.pg j).sidx := by intro j; rw [hpg2]; exact (r.slab j).1
  have hHd2 : ∀ j, Hd s2.pool j ↔ Hd p2 j := by intro j; rw [hpool]; exact Iff.rfl
  have hmem : ∀ y, y ∈ L.erase x ↔ y ∈ L ∧ y ≠ x := mem_erase_held h.nodup x
  -- others are in other runs
  have hne : ∀ y ∈ L.erase x, y.1 / 65536 ≠ x.1 / 65536 := by
    intro y hy e
    have hy := (hmem y).mp hy
    by_cases hyb : 32768 < y.2
    · have := (h.big y hy.1 hyb).2.1
      exact hy.2 (held_eq h.nodup hy.1 hx (by omega))
    · obtain ⟨k, _, _, c, _⟩ := h.small y hy.1 (by omega)
      rw [e, hsn] at c; exact nomatch c
  have hoth : ∀ j, Hd s.pool j → j ≠ x.1 / 65536 → (s.pool.pg j).free = false →
      Hd s2.pool j ∧ (s2.pool.pg j).count = (s.pool.pg j).count ∧ (s2.pool.pg j).free = false := by
    intro j a b c
    have := freed_other r a b c
    rw [hHd2, hpg2]; exact this
  constructor
  · rw [hpool]; exact (freed_inv h.pi hnp r).congr rfl rfl (fun _ => ⟨rfl, rfl, rfl⟩)
  · exact nodup_erase_fst h.nodup x
  · intro y hy hyb
    obtain ⟨a, b, c, d, e, f'⟩ := h.big y ((hmem y).mp hy).1 hyb
    have ho := hoth _ c (hne y hy) e
    exact ⟨a, b, ho.1, by rw [ho.2.1]; exact d, ho.2.2, by rw [hsx2]; exact f'⟩
  · intro y hy hyb
    obtain ⟨k', a, b, c, d⟩ := h.small y ((hmem y).mp hy).1 hyb
    exact ⟨k', a, by rw [hmax2]; exact b, by rw [hsx2]; exact c, d⟩
  · intro j hj k' hs
    rw [hmax2] at hj
    rw [hsx2] at hs
    have hjx : j ≠ x.1 / 65536 := by intro e; rw [e, hsn] at hs; exact nomatch hs
    obtain ⟨a, b, c, d, f', w, u⟩ := h.spg j hj k' hs
    have ho := hoth j ⟨hj, by omega⟩ hjx c
    have hsl : (s2.pool.pg j).nused = (s.pool.pg j).nused ∧ (s2.pool.pg j).nelems = (s.pool.pg j).nelems := by
      rw [hpg2]; exact (r.slab j).2
    have hce := countP_erase' (fun y : Nat × Nat => decide (y.1 / 65536 = j)) hx
    rw [if_neg (by simpa using fun e => hjx e.symm)] at hce
    rw [ho.2.1, hsl.1, hsl.2, hslab2]
    exact ⟨a, b, ho.2.2, d, by omega, w, u⟩
  · intro j hj hf' hs
    rw [hHd2] at hj
    rw [hpg2] at hf'
    have hh := freed_heads hnp r hj hf'
    rw [hsx2] at hs
    obtain ⟨y, hy, a, b⟩ := h.own j hh.1 hh.2.2 hs
    refine ⟨y, (hmem y).mpr ⟨hy, ?_⟩, a, b⟩
    intro e; subst e
    exact hh.2.1 (by omega)
  · intro k'
    have hold := h.sfl k'
    rw [hslab2]
    refine ⟨hold.1, ?_⟩
    intro g
    rw [hold.2, hmax2, hsx2, mem_erase_fst h.nodup hx]
    constructor
    · rintro ⟨a, b, c, d⟩; exact ⟨a, b, c, fun e => d e.1⟩
    · rintro ⟨a, b, c, d⟩
      refine ⟨a, b, c, fun e => d ⟨e, ?_⟩⟩
      intro e2
      have : g / 4096 = x.1 / 65536 := by omega
      rw [this, hsn] at b; exact nomatch b
  · intro k'
    have hold := h.cnt k'
    have hce := countP_erase' (fun y : Nat × Nat => decide (sindex y.2 = some k')) hx
    rw [sindex_none_of_big hb, if_neg (by simp)] at hce
    rw [hslab2]
    exact ⟨hold.1, by omega⟩
  · rw [hpool]
    show p2.use - npgs x.2 = _
    rw [r.use]; omega
  · have e3 := nslab_same r.max (fun i => (r.slab i).1)
    have e4 := r.sum
    have e5 := h.pages
    rw [hpool]
    show fsum p2 + (p2.use - npgs x.2) + nslab p2 = p2.max
    rw [r.max, r.use]
    omega

end Silofs.Qalloc
