import Verif.Props.QallocInv
set_option linter.unusedSimpArgs false
set_option linter.unusedVariables false
/-
C57.  The memory allocator: what is held never overlaps, nobody else writes to it, no memory is lost, and a
request fails only when there is no room.
-/
namespace Silofs.Qalloc

theorem Inv.congr {ex : Option Nat} {s s' : St} {L : Held} (h : Inv ex s L) (hp : s'.pool = s.pool) (hs : s'.slab = s.slab) :
    Inv ex s' L := by
  obtain ⟨p, sl, b, m, d⟩ := s
  obtain ⟨p', sl', b', m', d'⟩ := s'
  dsimp only at hp hs
  subst hp; subst hs
  exact ⟨h.pi, h.nodup, h.big, h.small, h.spg, h.own, h.sfl, h.cnt, h.use, h.pages⟩

/-- Two runs with a page in common are the same. -/
theorem PInv.run_unique {p : Pool} (h : PInv p) {i j q : Nat} (hi : Hd p i) (hj : Hd p j) (h1 : i ≤ q)
    (h2 : q < i + (p.pg i).count) (h3 : j ≤ q) (h4 : q < j + (p.pg j).count) : i = j := by
  rcases Nat.lt_trichotomy i j with e | e | e
  · have := h.sep hi hj e; omega
  · exact e
  · have := h.sep hj hi e; omega

/-- Bytes of an element are in its page and its cell. -/
theorem cell {k o nb a : Nat} (hk : k < 12) (h16 : o % 16 = 0) (hal : o / 16 % 2 ^ k = 0) (hnb : nb ≤ elemsz k) (h1 : o ≤ a)
    (h2 : a < o + nb) : a / 65536 = o / 65536 ∧ a / 16 / 2 ^ k = o / 16 / 2 ^ k ∧ o + nb ≤ (o / 65536 + 1) * 65536 := by
  rw [elemsz_eq] at hnb
  revert hal hnb
  refine slab_cases (P := fun k => o / 16 % 2 ^ k = 0 → nb ≤ 16 * 2 ^ k →
    a / 65536 = o / 65536 ∧ a / 16 / 2 ^ k = o / 16 / 2 ^ k ∧ o + nb ≤ (o / 65536 + 1) * 65536) hk ?_
  refine ⟨?_, ?_, ?_, ?_, ?_, ?_, ?_, ?_, ?_, ?_, ?_, ?_⟩
  all_goals
    intro h3 h4
    simp only [Nat.reducePow] at h3 h4 ⊢
    omega

theorem cell_inj {k a b : Nat} (ha : a % 2 ^ k = 0) (hb : b % 2 ^ k = 0) (h : a / 2 ^ k = b / 2 ^ k) : a = b := by
  have h1 := Nat.div_add_mod a (2 ^ k)
  have h2 := Nat.div_add_mod b (2 ^ k)
  rw [ha, h] at h1
  rw [hb] at h2
  omega

/-- The pages of a held object are those of one used run. -/
theorem Inv.run {ex : Option Nat} {s : St} {L : Held} (h : Inv ex s L) {x : Nat × Nat} (hx : x ∈ L) {a : Nat} (ha : Within a x) :
    x.1 / 65536 ≤ a / 65536 ∧ a / 65536 < x.1 / 65536 + (s.pool.pg (x.1 / 65536)).count := by
  obtain ⟨h1, h2⟩ := ha
  by_cases hb : 32768 < x.2
  · obtain ⟨_, b, c, d, _⟩ := h.big x hx hb
    rw [d]
    unfold npgs PGSZ
    omega
  · obtain ⟨k, a0, b, c, d, e⟩ := h.small x hx (by omega)
    have hs := sindex_some a0
    have := cell hs.2.2.1 d e hs.2.2.2.1 h1 h2
    have := (h.spg _ b k c).2.1
    omega

theorem Inv.pos {ex : Option Nat} {s : St} {L : Held} (h : Inv ex s L) {x : Nat × Nat} (hx : x ∈ L) : 0 < x.2 := by
  by_cases hb : 32768 < x.2
  · omega
  · obtain ⟨k, a0, _⟩ := h.small x hx (by omega)
    exact (sindex_some a0).1

/-- A byte belongs to one held object. -/
theorem Inv.owner {ex : Option Nat} {s : St} {L : Held} (h : Inv ex s L) {x y : Nat × Nat} (hx : x ∈ L) (hy : y ∈ L) {a : Nat}
    (h1 : Within a x) (h2 : Within a y) : x = y := by
  have rx := h.run hx h1
  have ry := h.run hy h2
  have hxr := h.no_held hx
  have hyr := h.no_held hy
  have hp := h.pi.run_unique hxr.1 hyr.1 rx.1 rx.2 ry.1 ry.2
  apply held_eq h.nodup hx hy
  by_cases hbx : 32768 < x.2
  · have bx := h.big x hx hbx
    by_cases hby : 32768 < y.2
    · have b2 := h.big y hy hby
      omega
    · obtain ⟨k, _, _, c, _⟩ := h.small y hy (by omega)
      rw [← hp, bx.2.2.2.2.2] at c; exact nomatch c
  · obtain ⟨k, a0, b, c, d, e⟩ := h.small x hx (by omega)
    by_cases hby : 32768 < y.2
    · have b2 := h.big y hy hby
      rw [hp, b2.2.2.2.2.2] at c; exact nomatch c
    · obtain ⟨k', a0', b', c', d', e'⟩ := h.small y hy (by omega)
      have hkk : k = k' := by rw [hp, c'] at c; exact (Option.some.inj c).symm
      subst hkk
      have s1 := sindex_some a0
      have s2 := sindex_some a0'
      have c1 := cell s1.2.2.1 d e s1.2.2.2.1 h1.1 h1.2
      have c2 := cell s2.2.2.1 d' e' s2.2.2.2.1 h2.1 h2.2
      have := cell_inj e e' (by rw [← c1.2.1, ← c2.2.1])
      omega

/-- A free element has no byte of a held object. -/
theorem Inv.seg_free {ex : Option Nat} {s : St} {L : Held} (h : Inv ex s L) {k a : Nat} (hg : a / 16 ∈ (s.slab k).fl)
    {x : Nat × Nat} (hx : x ∈ L) : ¬Within a x := by
  intro ha
  have hm := ((h.sfl k).2 _).mp hg
  have he : a / 16 / 4096 = a / 65536 := by omega
  rw [he] at hm
  have hS := h.spg _ hm.1 k hm.2.1
  have hr := h.run hx ha
  have hxr := h.no_held hx
  have hp := h.pi.run_unique hxr.1 ⟨hm.1, by omega⟩ hr.1 hr.2 (Nat.le_refl _) (by omega)
  by_cases hb : 32768 < x.2
  · have := (h.big x hx hb).2.2.2.2.2
    rw [hp, hm.2.1] at this; exact nomatch this
  · obtain ⟨k', a0, b, c, d, e⟩ := h.small x hx (by omega)
    have hkk : k' = k := by rw [hp, hm.2.1] at c; exact (Option.some.inj c).symm
    subst hkk
    have s1 := sindex_some a0
    have c1 := cell s1.2.2.1 d e s1.2.2.2.1 ha.1 ha.2
    have := cell_inj hm.2.2.1 e c1.2.1
    apply hm.2.2.2
    rw [this, show x.1 / 16 * 16 = x.1 by omega]
    exact List.mem_map_of_mem hx

/-- What one request does. -/
structure Malloced (s s' : St) (L : Held) (nb o : Nat) (f : Flags) : Prop where
  inv : Inv none s' ((o, nb) :: L)
  max : s'.pool.max = s.pool.max
  bytes : s'.bytes = s.bytes + nb
  kept : ∀ x ∈ L, ∀ a, Within a x → s'.mem a = s.mem a
  zero : f.bzero = true → ∀ a, Within a (o, nb) → s'.mem a = 0

theorem finish_malloc {s s1 : St} {L : Held} {nb o : Nat} {f : Flags} (h : Inv none s1 ((o, nb) :: L))
    (hm : s1.pool.max = s.pool.max) (hb : s1.bytes = s.bytes) (hk : ∀ x ∈ L, ∀ a, Within a x → s1.mem a = s.mem a) :
    Malloced s { s1 with bytes := s1.bytes + nb, mem := if f.bzero then fill s1.mem o nb 0 else s1.mem } L nb o f := by
  have hne : ∀ x ∈ L, x ≠ (o, nb) := by
    intro x hx e
    have := h.nodup
    rw [List.map_cons, List.nodup_cons] at this
    exact this.1 (e ▸ List.mem_map_of_mem hx)
  refine ⟨h.congr rfl rfl, hm, by show s1.bytes + nb = _; rw [hb], ?_, ?_⟩
  · intro x hx a ha
    show (if f.bzero then fill s1.mem o nb 0 else s1.mem) a = _
    rw [← hk x hx a ha]
    split
    · unfold fill
      rw [if_neg]
      intro hc
      exact hne x hx (h.owner (List.mem_cons_of_mem _ hx) List.mem_cons_self ha hc)
    · rfl
  · intro hz a ha
    show (if f.bzero then fill s1.mem o nb 0 else s1.mem) a = _
    rw [if_pos hz]
    unfold fill
    rw [if_pos (show o ≤ a ∧ a < o + nb from ha)]

theorem scribble_kept {ex : Option Nat} {s : St} {L : Held} (h : Inv ex s L) {k : Nat} {l : List Nat} (hl : ∀ g ∈ l, g ∈ (s.slab k).fl)
    (m g : Nat → Nat) {x : Nat × Nat} (hx : x ∈ L) {a : Nat} (ha : Within a x) : scribble m l g a = m a := by
  unfold scribble
  rw [if_neg]
  intro hc
  exact h.seg_free (hl _ hc) hx ha

/-- No room for `n` pages in a row. -/
def NoRun (s : St) (L : Held) (n : Nat) : Prop := ∀ q, q + n ≤ s.pool.max → ∃ i, q ≤ i ∧ i < q + n ∧ Occupied L i

/-- If the pool has no run, there is none. -/
theorem norun {s : St} {L : Held} (h : Inv none s L) {n : Nat} (hn : 0 < n) (ha : s.pool.search n = none) : NoRun s L n := by
  intro q hq
  apply Classical.byContradiction
  intro hno
  have hfree : ∀ i, q ≤ i → i < q + n → ¬Occupied L i := fun i a b c => hno ⟨i, a, b, c⟩
  -- the run of an unoccupied page is free
  have key : ∀ j, Hd s.pool j → ∀ i, j ≤ i → i < j + (s.pool.pg j).count → q ≤ i → i < q + n → (s.pool.pg j).free = true := by
    intro j hj i h1 h2 h3 h4
    cases hf : (s.pool.pg j).free with
    | true => rfl
    | false =>
      exfalso
      apply hfree i h3 h4
      cases hs : (s.pool.pg j).sidx with
      | none =>
        obtain ⟨x, hx, hb, he⟩ := h.own j hj hf hs
        have hc := (h.big x hx hb).2.2.2.1
        rw [show x.1 / 65536 = j by omega] at hc
        rw [hc] at h2
        unfold npgs PGSZ at h2
        refine ⟨x, hx, i * 65536, ⟨by omega, by omega⟩, by omega⟩
      | some k =>
        have hS := h.spg j hj.1 k hs
        have hp := hS.2.2.2.2.2.1 nofun
        rw [hS.2.2.2.2.1] at hp
        obtain ⟨x, hx, he⟩ := List.countP_pos_iff.mp hp
        have he : x.1 / 65536 = j := by simpa using he
        have := h.pos hx
        exact ⟨x, hx, x.1, ⟨by omega, by omega⟩, by omega⟩
  obtain ⟨j, hj, h1, h2⟩ := h.pi.cover q (by omega)
  have hjf := key j hj q h1 h2 (by omega) (by omega)
  have hjl : j ∈ s.pool.fl := (h.pi.fl j).mpr ⟨hj, hjf⟩
  -- it reaches to the end of the wanted run
  have hlong : q + n ≤ j + (s.pool.pg j).count := by
    apply Classical.byContradiction
    intro hc
    have hlt : j + (s.pool.pg j).count < s.pool.max := by omega
    have a := h.pi.nxt j hj hlt
    have b := h.pi.coal j hj hjf hlt
    have c := key _ ⟨hlt, a.1⟩ (j + (s.pool.pg j).count) (Nat.le_refl _) (by omega) (by omega) (by omega)
    rw [b] at c; exact nomatch c
  have hcount : n ≤ (s.pool.pg j).count := by omega
  have huse : s.pool.use + n ≤ s.pool.max := by
    have := h.pages
    have := sum_erase (fun i => (s.pool.pg i).count) hjl
    unfold fsum at *
    omega
  unfold Pool.search at ha
  rw [if_pos huse] at ha
  by_cases h2' : 2 ≤ n
  · rw [if_pos h2'] at ha
    have := List.find?_eq_none.mp ha j hjl
    simp at this; omega
  · rw [if_neg h2'] at ha
    have := List.find?_eq_none.mp ha j (List.mem_reverse.mpr hjl)
    simp at this; omega

theorem alloc_none {p : Pool} {n : Nat} (h : p.alloc n = none) : p.search n = none := by
  unfold Pool.alloc at h
  cases hs : p.search n with
  | none => rfl
  | some i => rw [hs] at h; exact nomatch h

/-- A request is answered with memory, or there is no room. -/
theorem malloc_step {s : St} {L : Held} (h : Inv none s L) (nb : Nat) (f : Flags) (g : Nat → Nat) :
    (∃ o s', s.malloc nb f g = (.ptr o, s') ∧ 0 < nb ∧ nb ≤ MAXSZ ∧ Malloced s s' L nb o f) ∨
    (s.malloc nb f g = (.null, s) ∧ (nb = 0 ∨ MAXSZ < nb ∨
      (0 < nb ∧ nb ≤ MAXSZ ∧ NoRun s L (if nb ≤ 32768 then 1 else npgs nb) ∧
        (nb ≤ 32768 → ∀ k, sindex nb = some k → (s.slab k).fl = [])))) := by
  unfold St.malloc
  by_cases h0 : nb = 0
  · rw [if_pos h0]; exact .inr ⟨rfl, .inl h0⟩
  rw [if_neg h0]
  by_cases h1 : MAXSZ < nb
  · rw [if_pos h1]; exact .inr ⟨rfl, .inr (.inl h1)⟩
  rw [if_neg h1]
  unfold St.mallocAny
  unfold SLABMAX
  by_cases hs : 0 < nb ∧ nb ≤ 32768
  · rw [if_pos hs]
    obtain ⟨k, hk⟩ := sindex_total hs.1 hs.2
    have hk12 := (sindex_some hk).2.2.1
    unfold St.mallocSub
    rw [hk]
    dsimp only
    unfold St.require
    by_cases hf : 0 < (s.slab k).nfree
    · rw [if_pos hf]
      dsimp only
      cases hfl : (s.slab k).fl with
      | nil => have := (h.cnt k).1; rw [hfl] at this; simp at this; omega
      | cons e r =>
        obtain ⟨s1, e1, e2, e3, e4, e5, e6⟩ := pop_inv h (g := g) hk hfl (.inl rfl)
        rw [e1]
        refine .inl ⟨_, _, rfl, by omega, by omega, finish_malloc e2 e6 e3 ?_⟩
        intro x hx a ha
        rw [e4]
        exact scribble_kept h (k := k) (by rw [hfl]; exact fun _ hg => hg) _ _ hx ha
    · rw [if_neg hf]
      have hnil : (s.slab k).fl = [] := by
        have := (h.cnt k).1
        exact List.length_eq_zero_iff.mp (by omega)
      cases ha : s.pool.alloc 1 with
      | none =>
        dsimp only
        refine .inr ⟨rfl, .inr (.inr ⟨hs.1, by omega, ?_, ?_⟩)⟩
        · rw [if_pos hs.2]
          exact norun h (by omega) (alloc_none ha)
        · intro _ k' hk'
          have hkk : k = k' := Option.some.inj hk'
          subst hkk; exact hnil
      | some pr =>
        obtain ⟨p, q⟩ := pr
        dsimp only
        have hx := expand_inv h (g := g) hk12 ha
        obtain ⟨r, hr⟩ := head_segsOf (p := p) hk12
        have hfl : ((({ s with pool := q } : St).expand k p g).slab k).fl = p * 4096 :: r := by
          show (if k = k then _ else _ : Slab).fl = _
          rw [if_pos rfl]
          show (s.slab k).fl ++ segsOf k p = _
          rw [hnil, hr]; rfl
        obtain ⟨s1, e1, e2, e3, e4, e5, e6⟩ := pop_inv hx (g := g) hk hfl
          (.inr (by rw [show p * 4096 / 4096 = p by omega]))
        rw [e1]
        have hmx : (({ s with pool := q } : St).expand k p g).pool.max = s.pool.max :=
          (alloc_taken h.pi (by omega) ha).2.2.1.max
        refine .inl ⟨_, _, rfl, by omega, by omega, finish_malloc e2 (e6.trans hmx) (e3.trans rfl) ?_⟩
        intro x hxL a haa
        rw [e4, scribble_kept hx (k := k) (by rw [hfl]; exact fun _ hg => hg) _ _ hxL haa]
        show scribble s.mem ((s.slab k).fl ++ segsOf k p) g a = _
        refine scribble_kept hx (k := k) ?_ _ _ hxL haa
        intro g' hg'
        rw [hfl]
        rw [hnil, hr] at hg'; exact hg'
  · rw [if_neg hs]
    have hb : 32768 < nb := by omega
    cases ha : s.pool.alloc (npgs nb) with
    | none =>
      have : s.mallocMulti nb = (.null, s) := by unfold St.mallocMulti; rw [ha]
      rw [this]
      dsimp only
      refine .inr ⟨rfl, .inr (.inr ⟨by omega, by omega, ?_, fun hc => by omega⟩)⟩
      rw [if_neg (by omega)]
      exact norun h (by unfold npgs PGSZ; omega) (alloc_none ha)
    | some pr =>
      obtain ⟨p, q⟩ := pr
      obtain ⟨e1, e2⟩ := multi_inv h hb (by omega) ha
      rw [e1]
      dsimp only
      have hmx := (alloc_taken h.pi (by unfold npgs PGSZ; omega) ha).2.2.1.max
      exact .inl ⟨_, _, rfl, by omega, by omega, finish_malloc (s1 := { s with pool := { q with use := q.use + npgs nb } }) e2 hmx rfl (fun _ _ _ _ => rfl)⟩

/-- What giving back does. -/
structure FreedObj (s s' : St) (L : Held) (x : Nat × Nat) : Prop where
  inv : Inv none s' (L.erase x)
  max : s'.pool.max = s.pool.max
  bytes : s'.bytes + x.2 = s.bytes
  kept : ∀ y ∈ L.erase x, ∀ a, Within a y → s'.mem a = s.mem a

theorem preFree_kept {s : St} {L : Held} (h : Inv none s L) {x : Nat × Nat} (hx : x ∈ L) (f : Flags) {y : Nat × Nat}
    (hy : y ∈ L.erase x) {a : Nat} (ha : Within a y) : (s.preFree x.1 x.2 f).mem a = s.mem a := by
  have hy := (mem_erase_held h.nodup x y).mp hy
  have hn : ¬Within a x := fun hc => hy.2 (h.owner hy.1 hx ha hc)
  unfold St.preFree
  dsimp only
  split
  · split
    · unfold fill
      rw [if_neg (show ¬(x.1 ≤ a ∧ a < x.1 + x.2) from hn)]
    · rfl
  · split
    · unfold fill
      rw [if_neg]
      rintro ⟨h1, h2⟩
      exact hn ⟨h1, by omega⟩
    · rfl

/-- The punched pages are those of a free run. -/
theorem punch_kept {p q : Pool} {s' : St} {L : Held} {x n st tt : Nat} (hn : 0 < n) (hp : PInv p) (r : Freed p q x n st tt) (h : Inv none s' L)
    (he : ∀ i, (s'.pool.pg i) = q.pg i) (hmx : s'.pool.max = q.max) (m : Nat → Nat) {y : Nat × Nat} (hy : y ∈ L) {a : Nat} (ha : Within a y) :
    fill m (st * PGSZ) (tt * PGSZ) 0 a = m a := by
  unfold fill PGSZ
  rw [if_neg]
  rintro ⟨h1, h2⟩
  have hr := h.run hy ha
  have hyr := h.no_held hy
  have hin := r.inside
  have hst : Hd s'.pool st := by
    refine ⟨by rw [hmx, r.max]; exact r.first.1, ?_⟩
    rw [he, r.count, if_pos rfl]; omega
  have hc : (s'.pool.pg st).count = tt := by rw [he, r.count, if_pos rfl]
  have hu := h.pi.run_unique hyr.1 hst hr.1 hr.2 (by omega) (by omega)
  have hf := hyr.2
  rw [hu, he, r.free, if_pos (by omega)] at hf
  exact nomatch hf

theorem free_step {s : St} {L : Held} (h : Inv none s L) (hbs : s.bytes = (L.map Prod.snd).sum) {x : Nat × Nat} (hx : x ∈ L) (f : Flags)
    (g : Nat → Nat) : ∃ s', s.free x.1 x.2 f g = some s' ∧ FreedObj s s' L x := by
  have hpos := h.pos hx
  have hbytes : x.2 ≤ s.bytes := by
    have := sum_erase' Prod.snd hx; omega
  have hrange : x.2 ≤ MAXSZ ∧ x.1 + x.2 ≤ s.pool.max * PGSZ := by
    by_cases hb : 32768 < x.2
    · obtain ⟨a, b, c, d, _⟩ := h.big x hx hb
      have := h.pi.fit _ c
      rw [d] at this
      unfold npgs at this
      unfold PGSZ at *
      exact ⟨a, by omega⟩
    · obtain ⟨k, a0, b, c, d, e⟩ := h.small x hx (by omega)
      have s1 := sindex_some a0
      have := (cell s1.2.2.1 d e s1.2.2.2.1 (Nat.le_refl _) (by omega)).2.2
      refine ⟨by unfold MAXSZ; omega, ?_⟩
      unfold PGSZ
      exact Nat.le_trans this (Nat.mul_le_mul_right _ b)
  have hpre : Inv none (s.preFree x.1 x.2 f) L := h.congr rfl rfl
  unfold St.free
  rw [if_neg (by omega), if_neg (by omega)]
  unfold SLABMAX
  by_cases hs : 0 < x.2 ∧ x.2 ≤ 32768
  · rw [if_pos hs]
    obtain ⟨k, hk⟩ := sindex_total hs.1 hs.2
    obtain ⟨p1, p2, p3, p4, p5, p6⟩ := push_inv hpre hx hk g
    have hsm := sindex_some hk
    have e1 : x.1 / 16 * 16 / PGSZ = x.1 / 65536 := by unfold PGSZ; omega
    have hchk : (s.preFree x.1 x.2 f).checkSeg k (x.1 / 16) x.2 = true := by
      unfold St.checkSeg
      rw [e1, decide_eq_true p5, decide_eq_true hsm.2.2.2.1, decide_eq_true p2, decide_eq_true p3]
      rfl
    have hk1 : ∀ y ∈ L.erase x, ∀ a, Within a y → ((s.preFree x.1 x.2 f).push k (x.1 / 16) g).mem a = s.mem a := by
      intro y hy a ha
      rw [← preFree_kept h hx f hy ha]
      show scribble (s.preFree x.1 x.2 f).mem _ g a = _
      refine scribble_kept p1 (k := k) ?_ _ _ hy ha
      intro g' hg'
      show g' ∈ (if k = k then _ else _ : Slab).fl
      rw [if_pos rfl]; exact hg'
    unfold St.freeSub
    rw [hk]
    dsimp only
    rw [if_pos hchk]
    unfold St.freeSeg
    rw [e1, if_neg (by omega)]
    by_cases hz : (((s.preFree x.1 x.2 f).push k (x.1 / 16) g).pool.pg (x.1 / 65536)).nused = 0
    · rw [if_pos hz]
      rw [if_pos hz] at p1
      have hsx : (((s.preFree x.1 x.2 f).push k (x.1 / 16) g).pool.pg (x.1 / 65536)).sidx = some k := by
        show (if x.1 / 65536 = x.1 / 16 * 16 / PGSZ then _ else _ : Pg).sidx = _
        rw [e1, if_pos rfl]; exact p2
      have hq : x.1 / 65536 < ((s.preFree x.1 x.2 f).push k (x.1 / 16) g).pool.max := (h.no_held hx).1.1
      obtain ⟨s1, q1, q2, q3, q4, q5, q6, q7⟩ := shrink_inv p1 hq hsx hz f
      rw [q1]
      dsimp only
      have hb2 : (s1.releasePgs (x.1 / 65536) 1 f).bytes = s.bytes := q2
      rw [if_neg (by omega)]
      refine ⟨_, rfl, q7.congr rfl rfl, ?_, ?_, ?_⟩
      · show (s1.pool.release (x.1 / 65536) 1).1.max = _
        rw [q6.max, q5]; rfl
      · show (s1.releasePgs (x.1 / 65536) 1 f).bytes - x.2 + x.2 = _; omega
      · intro y hy a ha
        rw [← hk1 y hy a ha, ← q3]
        show (if mayPunch _ _ f then fill s1.mem _ _ 0 else s1.mem) a = _
        split
        · exact punch_kept (by omega) (by
            have := p1.pi
            unfold St.shrink at q1
            split at q1
            · exact nomatch q1
            · have := Option.some.inj q1
              subst this
              exact p1.pi.congr rfl rfl (fun j => set_fields _ _ none _ 0 j)) q6 q7 (fun _ => rfl) rfl _ hy ha
        · rfl
    · rw [if_neg hz]
      rw [if_neg hz] at p1
      dsimp only
      have hb2 : ((s.preFree x.1 x.2 f).push k (x.1 / 16) g).bytes = s.bytes := rfl
      rw [if_neg (by omega)]
      refine ⟨_, rfl, p1.congr rfl rfl, rfl, ?_, hk1⟩
      show ((s.preFree x.1 x.2 f).push k (x.1 / 16) g).bytes - x.2 + x.2 = _; omega
  · rw [if_neg hs]
    have hb : 32768 < x.2 := by omega
    obtain ⟨hck, r, s1, q1, q2, q3, q4, q5, q6⟩ := multifree_inv hpre hx hb f
    have q1' : (s.preFree x.1 x.2 f).freeMulti x.1 x.2 f = some s1 := q1
    rw [q1']
    dsimp only
    have hb2 : s1.bytes = s.bytes := q2
    rw [if_neg (by omega)]
    refine ⟨_, rfl, q6.congr rfl rfl, q4, ?_, ?_⟩
    · show s1.bytes - x.2 + x.2 = _; omega
    · intro y hy a ha
      rw [← preFree_kept h hx f hy ha]
      show s1.mem a = _
      rw [q5]
      show (if mayPunch _ _ f then fill (s.preFree x.1 x.2 f).mem _ _ 0 else (s.preFree x.1 x.2 f).mem) a = _
      split
      · have hs1 : s1.pool.pg = ((s.preFree x.1 x.2 f).pool.release (x.1 / 65536) (npgs x.2)).1.pg ∧
            s1.pool.max = ((s.preFree x.1 x.2 f).pool.release (x.1 / 65536) (npgs x.2)).1.max := by
          unfold St.freeMulti at q1
          rw [if_pos hck] at q1
          have := Option.some.inj q1
          subst this
          exact ⟨rfl, rfl⟩
        exact punch_kept (by unfold npgs PGSZ; omega) h.pi r q6 (fun i => by rw [hs1.1]) hs1.2 _ hy ha
      · rfl

/-! ### Executions -/

theorem init_Inv {n : Nat} (hn : 0 < n) (d : Bool) : Inv none (St.init n d) [] := by
  obtain ⟨a, b, c, e, u, f⟩ := init_inv hn
  refine ⟨a, List.nodup_nil, nofun, nofun, ?_, ?_, ?_, fun k => ⟨rfl, rfl⟩, u, ?_⟩
  · intro q _ k hs; rw [show ((St.init n d).pool.pg q).sidx = none from (f q).1] at hs; exact nomatch hs
  · intro q _ hf; rw [show ((St.init n d).pool.pg q).free = true from (f q).2] at hf; exact nomatch hf
  · intro k
    refine ⟨List.nodup_nil, fun g => ?_⟩
    rw [show ((St.init n d).pool.pg (g / 4096)).sidx = none from (f _).1]
    constructor
    · intro h; exact nomatch h
    · intro h; exact nomatch h.2.1
  · show fsum (Pool.init n) + (Pool.init n).use + nslab (Pool.init n) = (Pool.init n).max
    have : nslab (Pool.init n) = 0 := by
      unfold nslab
      rw [List.countP_eq_zero]
      intro q _
      rw [(f q).1]; simp
    rw [this, b, e, u]; rfl

theorem reach_inv {n : Nat} (hn : 0 < n) {d : Bool} {s : St} {L : Held} (h : Reach n d s L) :
    Inv none s L ∧ s.pool.max = n ∧ s.bytes = (L.map Prod.snd).sum := by
  induction h with
  | init => exact ⟨init_Inv hn d, (init_inv hn).2.2.2.1, rfl⟩
  | @malloc s s' L nb f g o _ he ih =>
    obtain ⟨h1, h2, h3⟩ := ih
    rcases malloc_step h1 nb f g with ⟨o', s2, e1, _, _, m⟩ | ⟨e1, _⟩
    · rw [e1] at he
      have ho : o' = o := by
        have := congrArg Prod.fst he; exact Ret.ptr.inj this
      have hs : s2 = s' := congrArg Prod.snd he
      subst ho; subst hs
      exact ⟨m.inv, m.max.trans h2, by rw [m.bytes, h3, List.map_cons, List.sum_cons]; omega⟩
    · rw [e1] at he
      exact nomatch (congrArg Prod.fst he)
  | @nomem s s' L nb f g _ he ih =>
    obtain ⟨h1, h2, h3⟩ := ih
    rcases malloc_step h1 nb f g with ⟨o', s2, e1, _, _, m⟩ | ⟨e1, _⟩
    · rw [e1] at he
      exact nomatch (congrArg Prod.fst he)
    · rw [e1] at he
      have hs : s = s' := congrArg Prod.snd he
      subst hs
      exact ⟨h1, h2, h3⟩
  | @free s s' L x f g _ hx he ih =>
    obtain ⟨h1, h2, h3⟩ := ih
    obtain ⟨s2, e1, m⟩ := free_step h1 h3 hx f g
    rw [e1] at he
    have hs := Option.some.inj he
    subst hs
    refine ⟨m.inv, m.max.trans h2, ?_⟩
    have := m.bytes
    have := sum_erase' Prod.snd hx
    omega
  | @write s L a v x _ hx ha ih =>
    exact ⟨ih.1.congr rfl rfl, ih.2⟩

/-- **C57** (one owner).  Whatever the order of requests, no byte of the region is ever in two objects at once,
and every object lies within the region. -/
theorem C57_disjoint {n : Nat} (hn : 0 < n) {d : Bool} {s : St} {L : Held} (h : Reach n d s L) :
    L.Pairwise Apart ∧ ∀ x ∈ L, 0 < x.2 ∧ x.1 + x.2 ≤ n * 65536 := by
  obtain ⟨hI, hm, _⟩ := reach_inv hn h
  refine ⟨?_, ?_⟩
  · refine List.Pairwise.imp_of_mem ?_ (nodup_of_fst hI.nodup)
    intro x y hx hy hne
    have px := hI.pos hx
    have py := hI.pos hy
    unfold Apart
    apply Classical.byContradiction
    intro hc
    apply hne
    by_cases hxy : x.1 ≤ y.1
    · exact hI.owner hx hy (a := y.1) ⟨hxy, by omega⟩ ⟨by omega, by omega⟩
    · exact hI.owner hx hy (a := x.1) ⟨by omega, by omega⟩ ⟨by omega, by omega⟩
  · intro x hx
    have px := hI.pos hx
    have hr := hI.run hx (a := x.1 + x.2 - 1) ⟨by omega, by omega⟩
    have := hI.pi.fit _ (hI.no_held hx).1
    exact ⟨px, by omega⟩

/-- **C57** (alignment).  An object of up to 32K starts at a multiple of the smallest power of two, at least
16, which holds it; a larger one at a multiple of 65536. -/
theorem C57_aligned {n : Nat} (hn : 0 < n) {d : Bool} {s : St} {L : Held} (h : Reach n d s L) {x : Nat × Nat} (hx : x ∈ L) :
    (x.2 ≤ 32768 → ∃ j, 4 ≤ j ∧ x.2 ≤ 2 ^ j ∧ (4 < j → 2 ^ (j - 1) < x.2) ∧ x.1 % 2 ^ j = 0) ∧
    (32768 < x.2 → x.1 % 65536 = 0) := by
  obtain ⟨hI, _⟩ := reach_inv hn h
  refine ⟨?_, fun hb => (hI.big x hx hb).2.1⟩
  intro hb
  obtain ⟨k, a, _, _, d, e⟩ := hI.small x hx hb
  have hs := sindex_some a
  refine ⟨4 + k, by omega, hs.2.2.2.1, ?_, ?_⟩
  · intro hlt
    rcases hs.2.2.2.2 with e1 | e1
    · omega
    · have : 4 + k - 1 = 4 + (k - 1) := by omega
      rw [this]; exact e1
  · rw [Nat.pow_add]
    have : x.1 = 2 ^ 4 * (x.1 / 16) := by omega
    rw [this, Nat.mul_mod_mul_left, e]

/-- **C57** (no outside writes).  A request changes no byte of what is held; with the flag which asks for
zeroes the new object is zero. -/
theorem C57_malloc_keeps {n : Nat} (hn : 0 < n) {d : Bool} {s s' : St} {L : Held} (h : Reach n d s L) {nb o : Nat} {f : Flags}
    {g : Nat → Nat} (he : s.malloc nb f g = (.ptr o, s')) :
    (∀ x ∈ L, ∀ a, Within a x → s'.mem a = s.mem a) ∧ (f.bzero = true → ∀ a, Within a (o, nb) → s'.mem a = 0) := by
  obtain ⟨hI, _⟩ := reach_inv hn h
  rcases malloc_step hI nb f g with ⟨o', s2, e1, _, _, m⟩ | ⟨e1, _⟩
  · rw [e1] at he
    have ho : o' = o := by
      have := congrArg Prod.fst he; exact Ret.ptr.inj this
    have hs : s2 = s' := congrArg Prod.snd he
    subst ho; subst hs
    exact ⟨m.kept, m.zero⟩
  · rw [e1] at he
    exact nomatch (congrArg Prod.fst he)

/-- **C57** (giving back).  What is held can always be given back -- none of the checks and assertions stops
the process -- and this changes no byte of what is still held, also when memory is returned to the system. -/
theorem C57_free_ok {n : Nat} (hn : 0 < n) {d : Bool} {s : St} {L : Held} (h : Reach n d s L) {x : Nat × Nat} (hx : x ∈ L)
    (f : Flags) (g : Nat → Nat) :
    ∃ s', s.free x.1 x.2 f g = some s' ∧ ∀ y ∈ L.erase x, ∀ a, Within a y → s'.mem a = s.mem a := by
  obtain ⟨hI, _, hb⟩ := reach_inv hn h
  obtain ⟨s', e, m⟩ := free_step hI hb hx f g
  exact ⟨s', e, m.kept⟩

/-- **C57** (no crash).  No request stops the process. -/
theorem C57_malloc_no_panic {n : Nat} (hn : 0 < n) {d : Bool} {s : St} {L : Held} (h : Reach n d s L) (nb : Nat) (f : Flags)
    (g : Nat → Nat) : (s.malloc nb f g).1 ≠ .panic := by
  obtain ⟨hI, _⟩ := reach_inv hn h
  rcases malloc_step hI nb f g with ⟨o', s2, e1, _⟩ | ⟨e1, _⟩ <;> rw [e1] <;> exact nofun

/-- **C57** (refusal).  A request of 1 byte to 64M is refused only if the region has no room for it: there are
not as many pages in a row, without a byte of anything held, as the object needs. -/
theorem C57_null_only_if_full {n : Nat} (hn : 0 < n) {d : Bool} {s s' : St} {L : Held} (h : Reach n d s L) {nb : Nat} {f : Flags}
    {g : Nat → Nat} (h0 : 0 < nb) (h1 : nb ≤ 67108864) (he : s.malloc nb f g = (.null, s')) :
    s' = s ∧ ∀ q, q + (nb + 65535) / 65536 ≤ n → ∃ i, q ≤ i ∧ i < q + (nb + 65535) / 65536 ∧ Occupied L i := by
  obtain ⟨hI, hm, _⟩ := reach_inv hn h
  rcases malloc_step hI nb f g with ⟨o', s2, e1, _⟩ | ⟨e1, e2⟩
  · rw [e1] at he
    exact nomatch (congrArg Prod.fst he)
  · rw [e1] at he
    refine ⟨(congrArg Prod.snd he).symm, ?_⟩
    rcases e2 with e2 | e2 | ⟨_, _, e2, _⟩
    · omega
    · unfold MAXSZ at e2; omega
    · rw [← hm]
      have : (if nb ≤ 32768 then 1 else npgs nb) = (nb + 65535) / 65536 := by
        unfold npgs PGSZ
        split <;> omega
      rw [this] at e2
      exact e2

/-- **C57** (no leak).  When everything has been given back the region is one free run again, so that the
largest possible object can be had. -/
theorem C57_no_leak {n : Nat} (hn : 0 < n) {d : Bool} {s : St} (h : Reach n d s []) :
    s.pool.fl = [0] ∧ (s.pool.pg 0).count = n ∧ s.pool.use = 0 ∧ s.bytes = 0 ∧ ∀ k, (s.slab k).fl = [] := by
  obtain ⟨hI, hm, hb⟩ := reach_inv hn h
  have hfree : ∀ i, Hd s.pool i → (s.pool.pg i).free = true := by
    intro i hi
    cases hf : (s.pool.pg i).free with
    | true => rfl
    | false =>
      exfalso
      cases hs : (s.pool.pg i).sidx with
      | none =>
        obtain ⟨x, hx, _⟩ := hI.own i hi hf hs
        exact nomatch hx
      | some k =>
        have := hI.spg i hi.1 k hs
        have a := this.2.2.2.2.1
        have b := this.2.2.2.2.2.1 nofun
        rw [a] at b
        exact absurd b (Nat.lt_irrefl 0)
  have h0 := hI.pi.h0.1
  have hc : (s.pool.pg 0).count = n := by
    apply Classical.byContradiction
    intro hne
    have hfit := hI.pi.fit 0 h0
    have hlt : 0 + (s.pool.pg 0).count < s.pool.max := by omega
    have a := hI.pi.nxt 0 h0 hlt
    have b := hI.pi.coal 0 h0 (hfree 0 h0) hlt
    rw [hfree _ ⟨hlt, a.1⟩] at b
    exact nomatch b
  refine ⟨?_, hc, hI.use, hb, ?_⟩
  · have hall : ∀ i ∈ s.pool.fl, i = 0 := by
      intro i hi
      have := (hI.pi.fl i).mp hi
      apply Classical.byContradiction
      intro hne
      have := hI.pi.sep h0 this.1 (by omega)
      have := ((hI.pi.fl i).mp hi).1.1
      omega
    have hmem : 0 ∈ s.pool.fl := (hI.pi.fl 0).mpr ⟨h0, hfree 0 h0⟩
    have hnd := hI.pi.nodup
    cases hl : s.pool.fl with
    | nil => rw [hl] at hmem; exact nomatch hmem
    | cons a r =>
      rw [hl] at hall hnd
      have ha := hall a List.mem_cons_self
      cases r with
      | nil => rw [ha]
      | cons b t =>
        have hb := hall b (List.mem_cons_of_mem _ List.mem_cons_self)
        rw [List.nodup_cons] at hnd
        exact absurd (by rw [ha, hb]; exact List.mem_cons_self) hnd.1
  · intro k
    rw [List.eq_nil_iff_forall_not_mem]
    intro g hg
    have := ((hI.sfl k).2 g).mp hg
    have hs := hI.spg _ this.1 k this.2.1
    have := hfree _ ⟨this.1, by omega⟩
    rw [hs.2.2.1] at this
    exact nomatch this

/-- **C57** (accounting).  The bytes reported in use are the lengths asked for, in total. -/
theorem C57_bytes_exact {n : Nat} (hn : 0 < n) {d : Bool} {s : St} {L : Held} (h : Reach n d s L) :
    s.bytes = (L.map Prod.snd).sum := (reach_inv hn h).2.2

/-- **C57** (after a release).  As much as was given back can be had at once. -/
theorem C57_reuse {n : Nat} (hn : 0 < n) {d : Bool} {s s' : St} {L : Held} (h : Reach n d s L) {x : Nat × Nat} (hx : x ∈ L)
    {f f' : Flags} {g g' : Nat → Nat} (he : s.free x.1 x.2 f g = some s') : ∃ o s'', s'.malloc x.2 f' g' = (.ptr o, s'') := by
  obtain ⟨hI, hm, hb⟩ := reach_inv hn h
  have hr : Reach n d s' (L.erase x) := .free h hx he
  obtain ⟨hI', hm', _⟩ := reach_inv hn hr
  have hmem := mem_erase_held hI.nodup x
  have hpos := hI.pos hx
  rcases malloc_step hI' x.2 f' g' with ⟨o, s2, e1, _⟩ | ⟨_, e2⟩
  · exact ⟨o, s2, e1⟩
  · exfalso
    rcases e2 with e2 | e2 | ⟨_, _, e3, e4⟩
    · omega
    · by_cases hbx : 32768 < x.2
      · have := (hI.big x hx hbx).1; omega
      · unfold MAXSZ at e2; omega
    · by_cases hbx : 32768 < x.2
      · rw [if_neg (by omega)] at e3
        obtain ⟨_, hal, hd, hc, hf, _⟩ := hI.big x hx hbx
        have hfit := hI.pi.fit _ hd
        obtain ⟨i, i1, i2, y, hy, a, ha, hai⟩ := e3 (x.1 / 65536) (by rw [hm']; omega)
        have hy2 := (hmem y).mp hy
        have hry := hI.run hy2.1 ha
        have hu := hI.pi.run_unique hd (hI.no_held hy2.1).1 (q := i) i1 (by omega) (by omega) (by omega)
        have hyn : (s.pool.pg (y.1 / 65536)).sidx = none := by rw [← hu]; exact (hI.big x hx hbx).2.2.2.2.2
        by_cases hby : 32768 < y.2
        · exact hy2.2 (held_eq hI.nodup hy2.1 hx (by have := (hI.big y hy2.1 hby).2.1; omega))
        · obtain ⟨k, _, _, c, _⟩ := hI.small y hy2.1 (by omega)
          rw [hyn] at c; exact nomatch c
      · -- the element itself is free, or its page is
        have hle : x.2 ≤ 32768 := by omega
        rw [if_pos hle] at e3
        obtain ⟨k, hk⟩ := sindex_total hpos hle
        have hnil := e4 hle k hk
        obtain ⟨k0, a0, b0, c0, d0, f0⟩ := hI.small x hx hle
        have hkk : k0 = k := by rw [hk] at a0; exact (Option.some.inj a0).symm
        subst hkk
        obtain ⟨i, i1, i2, y, hy, a, ha, hai⟩ := e3 (x.1 / 65536) (by rw [hm', ← hm]; omega)
        have hi : i = x.1 / 65536 := by omega
        have hy2 := (hmem y).mp hy
        have hry := hI.run hy2.1 ha
        have hS := hI.spg _ b0 k0 c0
        have hu := hI.pi.run_unique (⟨b0, by omega⟩ : Hd s.pool (x.1 / 65536)) (hI.no_held hy2.1).1 (q := i) (by omega) (by omega) (by omega) (by omega)
        -- `y` is still in that page, so the page is still in the slab
        have hys : y.2 ≤ 32768 := by
          apply Classical.byContradiction
          intro hc
          have := (hI.big y hy2.1 (by omega)).2.2.2.2.2
          rw [← hu, c0] at this; exact nomatch this
        obtain ⟨k1, a1, b1, c1, d1, f1⟩ := hI'.small y hy hys
        obtain ⟨k2, a2, b2, c2, d2, f2⟩ := hI.small y hy2.1 hys
        have hk2 : k2 = k0 := by rw [← hu, c0] at c2; exact (Option.some.inj c2).symm
        have hk1 : k1 = k0 := by rw [a2] at a1; rw [← hk2]; exact (Option.some.inj a1).symm
        rw [hk1, ← hu] at c1
        have hin : x.1 / 16 ∈ (s'.slab k0).fl := by
          rw [(hI'.sfl k0).2]
          rw [show x.1 / 16 / 4096 = x.1 / 65536 by omega, show x.1 / 16 * 16 = x.1 by omega]
          refine ⟨by rw [hm', ← hm]; exact b0, c1, f0, ?_⟩
          intro hmm
          exact ((mem_erase_fst hI.nodup hx x.1).mp hmm).2 rfl
        rw [hnil] at hin
        exact nomatch hin


/-! ### Clients which break the rules -/

/-- **C57** (bad release of a large object).  Giving back more than 64K stops the process unless something held
starts in that very page and has as many pages. -/
theorem C57_bad_large_free {n : Nat} (hn : 0 < n) {d : Bool} {s : St} {L : Held} (h : Reach n d s L) {off nb : Nat} (hb : 65536 < nb)
    (hno : ∀ x ∈ L, x.1 / 65536 = off / 65536 → (x.2 + 65535) / 65536 ≠ (nb + 65535) / 65536) (f : Flags) (g : Nat → Nat) :
    s.free off nb f g = none := by
  obtain ⟨hI, _⟩ := reach_inv hn h
  unfold St.free
  rw [if_neg (by omega)]
  by_cases hr : MAXSZ < nb ∨ s.pool.max * PGSZ < off + nb
  · rw [if_pos hr]
  rw [if_neg hr, if_neg (by unfold SLABMAX; omega)]
  have hnp : npgs nb = (nb + 65535) / 65536 := by unfold npgs PGSZ; omega
  have : (s.preFree off nb f).freeMulti off nb f = none := by
    unfold St.freeMulti
    rw [if_neg]
    intro hc
    unfold Pool.check at hc
    simp only [Bool.and_eq_true, decide_eq_true_eq, Bool.not_eq_true'] at hc
    obtain ⟨⟨⟨_, c1⟩, c2⟩, c3⟩ := hc
    have c1 : off / 65536 < s.pool.max := c1
    have c2 : (s.pool.pg (off / 65536)).free = false := c2
    have c3 : (s.pool.pg (off / 65536)).count = npgs nb := c3
    have hd : Hd s.pool (off / 65536) := ⟨c1, by omega⟩
    cases hs : (s.pool.pg (off / 65536)).sidx with
    | some k =>
      have := (hI.spg _ c1 k hs).2.1
      omega
    | none =>
      obtain ⟨x, hx, hbx, he⟩ := hI.own _ hd c2 hs
      have e : x.1 / 65536 = off / 65536 := by omega
      have hc := (hI.big x hx hbx).2.2.2.1
      rw [e, c3] at hc
      apply hno x hx e
      unfold npgs PGSZ at hc
      omega
  rw [this]

/-- **C57** (double release of a large object).  Giving back an object of more than 32K twice in a row stops
the process. -/
theorem C57_double_free_large {n : Nat} (hn : 0 < n) {d : Bool} {s s' : St} {L : Held} (h : Reach n d s L) {x : Nat × Nat}
    (hx : x ∈ L) (hb : 32768 < x.2) {f f' : Flags} {g g' : Nat → Nat} (he : s.free x.1 x.2 f g = some s') :
    s'.free x.1 x.2 f' g' = none := by
  obtain ⟨hI, _⟩ := reach_inv hn h
  obtain ⟨hI', _⟩ := reach_inv hn (.free h hx he)
  have hmem := mem_erase_held hI.nodup x
  have hbig := hI.big x hx hb
  unfold St.free
  rw [if_neg (by omega)]
  by_cases hr : MAXSZ < x.2 ∨ s'.pool.max * PGSZ < x.1 + x.2
  · rw [if_pos hr]
  rw [if_neg hr, if_neg (by unfold SLABMAX; omega)]
  have hno : ∀ y ∈ L.erase x, y.1 / 65536 ≠ x.1 / 65536 := by
    intro y hy e
    have hy2 := (hmem y).mp hy
    by_cases hby : 32768 < y.2
    · have := hI.big y hy2.1 hby
      exact hy2.2 (held_eq hI.nodup hy2.1 hx (by omega))
    · obtain ⟨k, _, _, c, _⟩ := hI.small y hy2.1 (by omega)
      rw [e, hbig.2.2.2.2.2] at c
      exact nomatch c
  have : (s'.preFree x.1 x.2 f').freeMulti x.1 x.2 f' = none := by
    unfold St.freeMulti
    rw [if_neg]
    intro hc
    unfold Pool.check at hc
    simp only [Bool.and_eq_true, decide_eq_true_eq, Bool.not_eq_true'] at hc
    obtain ⟨⟨⟨_, c1⟩, c2⟩, c3⟩ := hc
    have c1 : x.1 / 65536 < s'.pool.max := c1
    have c2 : (s'.pool.pg (x.1 / 65536)).free = false := c2
    have c3 : (s'.pool.pg (x.1 / 65536)).count = npgs x.2 := c3
    have hd : Hd s'.pool (x.1 / 65536) := ⟨c1, by rw [c3]; unfold npgs PGSZ; omega⟩
    cases hs : (s'.pool.pg (x.1 / 65536)).sidx with
    | some k =>
      have := hI'.spg _ c1 k hs
      have hp := this.2.2.2.2.2.1 nofun
      rw [this.2.2.2.2.1] at hp
      obtain ⟨y, hy, e⟩ := List.countP_pos_iff.mp hp
      exact hno y hy (by simpa using e)
    | none =>
      obtain ⟨y, hy, hby, e⟩ := hI'.own _ hd c2 hs
      exact hno y hy (by omega)
  rw [this]

/-! Witnesses: a region of two pages, no flags. -/

def noFlags : Flags := ⟨false, false, false⟩

/-- Run some requests and releases, collecting what the requests return. -/
inductive Call where
  | m (nb : Nat)
  | f (off nb : Nat)

def runs (s : St) : List Call → Option (List Ret × St)
  | [] => some ([], s)
  | .m nb :: r => (runs (s.malloc nb noFlags (fun _ => 0)).2 r).map fun y => ((s.malloc nb noFlags (fun _ => 0)).1 :: y.1, y.2)
  | .f off nb :: r =>
    match s.free off nb noFlags (fun _ => 0) with
    | none => none
    | some s' => runs s' r

/-- **C57** (violated for small objects).  Giving back an object of up to 32K twice is not noticed: here the
object at 0 is released twice, and the number of bytes in use is now that of one object while two are held. -/
theorem C57_double_free_small_violated :
    (runs (St.init 2 false) [.m 16384, .m 16384, .m 16384, .f 0 16384, .f 0 16384]).map (fun y => (y.1, y.2.bytes)) =
      some ([.ptr 0, .ptr 16384, .ptr 32768], 16384) := by decide +kernel

/-- **C57** (violated for a wrong address).  The address of an object of up to 32K is not checked against the
boundaries of the elements: releasing it at 16 bytes after its start is accepted, and the next request of that
size is answered with memory which overlaps an object still held. -/
theorem C57_bad_address_violated :
    (runs (St.init 2 false) [.m 16384, .m 16384, .f 16 16384, .m 16384]).map (fun y => y.1) =
      some [.ptr 0, .ptr 16384, .ptr 16] ∧ ¬Apart (16, 16384) (16384, 16384) := by
  constructor
  · decide +kernel
  · unfold Apart; omega

/-- **C57** (violated for a wrong length).  The length is not remembered: an object of 100 bytes released with
length 40000, while something else has a page of its own, takes its whole page with it, and the other objects in
that page are handed out again. -/
theorem C57_bad_length_violated :
    (runs (St.init 3 false) [.m 100, .m 100, .m 65536, .f 0 40000, .m 65536]).map (fun y => y.1) =
      some [.ptr 0, .ptr 128, .ptr 65536, .ptr 0] ∧ ¬Apart (0, 65536) (128, 100) := by
  constructor
  · decide +kernel
  · unfold Apart; omega

/-! A case with objects of several kinds: the hypotheses of the theorems above are met. -/

def ex1 : St := ((St.init 4 true).malloc 100 noFlags (fun _ => 0)).2
def ex2 : St := (ex1.malloc 70000 noFlags (fun _ => 0)).2
def ex3 : St := (ex2.malloc 100 noFlags (fun _ => 0)).2

theorem ret_pair {p : Ret × St} {r : Ret} (h : p.1 = r) : p = (r, p.2) := by cases p; cases h; rfl

theorem ex1_eq : (St.init 4 true).malloc 100 noFlags (fun _ => 0) = (.ptr 0, ex1) := by
  unfold ex1
  exact ret_pair (by decide +kernel)
theorem ex2_eq : ex1.malloc 70000 noFlags (fun _ => 0) = (.ptr 65536, ex2) := by
  unfold ex2
  exact ret_pair (by decide +kernel)
theorem ex3_eq : ex2.malloc 100 noFlags (fun _ => 0) = (.ptr 128, ex3) := by
  unfold ex3
  exact ret_pair (by decide +kernel)

theorem ex3_reach : Reach 4 true ex3 [(128, 100), (65536, 70000), (0, 100)] :=
  .malloc (.malloc (.malloc .init ex1_eq) ex2_eq) ex3_eq

/-- Such a client is refused, too: no two pages in a row are left. -/
example : (ex3.malloc 70000 noFlags (fun _ => 0)).1 = .null := by decide +kernel

end Silofs.Qalloc
