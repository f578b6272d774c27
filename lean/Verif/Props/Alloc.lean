import Verif.Props.Space
/-
C19-C22 over whole histories of the allocator.
-/
set_option linter.unusedSimpArgs false
set_option linter.unusedVariables false
namespace Silofs.Space
open Silofs.Addr Silofs.FreeCache

/-! ### Specification: who uses what

The specification only looks at calls and their results. -/

/-- `r t off`: number of users of the unit of kind `t` at `off`; `live t`: the units
in use, in order of allocation. -/
structure Book where
  live : Nat → List Nat
  r : Nat → Nat → Nat

def Book.empty : Book := ⟨fun _ => [], fun _ _ => 0⟩

/-- A claim of kind `t` returned `off`. -/
def Book.claimed (b : Book) (t off : Nat) : Book :=
  ⟨upd b.live t (off :: b.live t), upd b.r t (upd (b.r t) off (b.r t off + 1))⟩

/-- A further user of the same unit. -/
def Book.shared (b : Book) (t off : Nat) : Book :=
  ⟨b.live, upd b.r t (upd (b.r t) off (b.r t off + 1))⟩

/-- One user released the unit. -/
def Book.released (b : Book) (t off : Nat) : Book :=
  ⟨if b.r t off = 1 then upd b.live t ((b.live t).erase off) else b.live,
   upd b.r t (upd (b.r t) off (b.r t off - 1))⟩

/-- Calls into the allocator with their oracles. -/
inductive Op where
  | claim (t : Nat) (o : Oracle)
  | addref (t off : Nat) (o : Oracle)
  | reclaim (t off : Nat) (o : Oracle)
  | remount (t : Nat) (o : Oracle)
  | setUnwritten (t off : Nat)
  | clearUnwritten (t off : Nat)
  | reload (t k : Nat)
  | renewStats

/-- What callers must respect: only units in use are shared or released, and only
64K data blocks are shared (lib/file.c `filc_may_share`). -/
def Legal (b : Book) : Op → Prop
  | .claim t _ => isVnode t = true
  | .addref t off _ => isVnode t = true ∧ isBk t = true ∧ 0 < b.r t off
  | .reclaim t off _ => isVnode t = true ∧ 0 < b.r t off
  | .remount t _ => isVnode t = true
  | .setUnwritten t _ => isVnode t = true
  | .clearUnwritten t _ => isVnode t = true
  | .reload t _ => isVnode t = true
  | .renewStats => True

/-- One call: new allocator state, new book, and the unit handed out, if any.
`none`: undefined behaviour or failed assertion. -/
def exec (s : Sys) (b : Book) : Op → Option (Sys × Book × Option (Nat × Nat))
  | .claim t o => match claim s t o with
    | none => none
    | some (s', .ok off) => some (s', b.claimed t off, some (off, ltypeSize t))
    | some (s', .error _) => some (s', b, none)
  | .addref t off o => match addref s t off o with
    | none => none
    | some (s', none) => some (s', b.shared t off, none)
    | some (s', some _) => some (s', b, none)
  | .reclaim t off o => match reclaim s t off o with
    | none => none
    | some (s', none) => some (s', b.released t off, none)
    | some (s', some _) => some (s', b, none)
  | .remount t o => (remount s t o).map fun s' => (s', b, none)
  | .setUnwritten t off => some (markUnwritten s t off, b, none)
  | .clearUnwritten t off => some (clearUnwritten s t off, b, none)
  | .reload t k => some (reload s t k, b, none)
  | .renewStats => some (renewStats s, b, none)

/-- States reachable from a fresh file-system by legal calls. -/
inductive Reach (s0 : Sys) : Sys → Book → Prop
  | init : Reach s0 s0 Book.empty
  | step {s b op s' b' out} : Reach s0 s b → Legal b op → exec s b op = some (s', b', out) →
      Reach s0 s' b'

/-! ### Invariant -/

structure SysInv (s : Sys) (b : Book) : Prop where
  v : ∀ t, isVnode t = true → VInv s.vend t (s.vs t) (b.r t)
  one : ∀ t off, isVnode t = true → isBk t = false → b.r t off ≤ 1
  nd : ∀ t, isVnode t = true → (b.live t).Nodup
  mem : ∀ t off, isVnode t = true → (off ∈ b.live t ↔ 0 < b.r t off)
  cnt : ∀ t, isVnode t = true → s.objsBase t + s.objs t = ((b.live t).length : Int)
  unode : ∀ t, isVnode t = false → 0 ≤ s.objsBase t + s.objs t

theorem vnode_ne {t : Nat} (h : isVnode t = true) : t ≠ LTYPE_SPNODE ∧ t ≠ LTYPE_SPLEAF := by
  unfold isVnode at h; simp at h
  unfold LTYPE_SPNODE LTYPE_SPLEAF; omega

/-- Replacing one virtual space (and possibly unode counters) keeps the rest. -/
theorem SysInv.updVs {s : Sys} {b : Book} (h : SysInv s b) {t : Nat} {v : VSpace}
    (hv : VInv s.vend t v (b.r t)) : SysInv { s with vs := upd s.vs t v } b := by
  refine ⟨fun t' ht' => ?_, h.one, h.nd, h.mem, h.cnt, h.unode⟩
  by_cases he : t' = t
  · subst he; simpa using hv
  · simp only [upd_ne _ _ he]; exact h.v t' ht'

theorem SysInv.updObjs {s : Sys} {b : Book} (h : SysInv s b) {t : Nat} (ht : isVnode t = false)
    {n : Int} (hn : s.objs t ≤ n) : SysInv { s with objs := upd s.objs t n } b := by
  refine ⟨h.v, h.one, h.nd, h.mem, fun t' ht' => ?_, fun t' ht' => ?_⟩
  · rw [← h.cnt t' ht']
    simp only
    rw [upd_ne]; intro he; subst he; rw [ht] at ht'; exact absurd ht' (by simp)
  · simp only
    by_cases he : t' = t
    · subst he; rw [upd_same]; have := h.unode t' ht'; omega
    · rw [upd_ne _ _ he]; exact h.unode t' ht'

/-- A unit of an absent leaf is unused. -/
theorem VInv.unspawned {vend t : Nat} {v : VSpace} {r : Nat → Nat} (h : VInv vend t v r) {off : Nat}
    (hs : v.spawned (leafOf off) = false) : r off = 0 := by
  apply Classical.byContradiction
  intro hne
  have := (h.used off (by omega)).2.1
  rw [hs] at this; exact absurd this (by simp)

theorem sum_map_zero (n : Nat) : ((List.range n).map (fun _ => 0)).sum = 0 := by
  induction n with
  | zero => rfl
  | succ n ih => simp [List.range_succ, ih]

theorem usecnt_init : Bkr.init.usecnt = 0 := by decide

theorem leafUsecnt_init (bk : Nat → Bkr) (k k' : Nat) :
    leafUsecnt (fun l => if l / NBK = k then Bkr.init else bk l) k' =
      if k' = k then 0 else leafUsecnt bk k' := by
  unfold leafUsecnt
  have e : ∀ i ∈ List.range NBK, (k' * NBK + i) / NBK = k' := by
    intro i hi
    have := List.mem_range.mp hi
    unfold NBK at *; omega
  split
  · rename_i hk
    have : (List.range NBK).map (fun bn =>
        (if (k' * NBK + bn) / NBK = k then Bkr.init else bk (k' * NBK + bn)).usecnt)
        = (List.range NBK).map (fun _ => 0) := by
      apply List.map_congr_left
      intro i hi
      rw [e i hi, if_pos hk, usecnt_init]
    rw [this, sum_map_zero]
  · rename_i hk
    congr 1
    apply List.map_congr_left
    intro i hi
    simp only []
    rw [e i hi, if_neg hk]

theorem spawn_inv {vend t k : Nat} {v : VSpace} {r : Nat → Nat} {c : Cache} {m i : Bool} {rc : Rc}
    (hk : isVnode t = true) (h : VInv vend t v r) (hs : v.spawned k = false)
    (ha : add v.cache (k * SPAN) SPAN m i = .done rc c) :
    VInv vend t { spawned := upd v.spawned k true
                  bk := fun l => if l / NBK = k then Bkr.init else v.bk l
                  nused := upd v.nused k 0
                  cache := c } r := by
  have hb := fun x => unit_base (t := t) (x := x) hk
  have hleafu : ∀ lba i, i < 64 → leafOf (unitOff t lba i) = lba / NBK := by
    intro lba i hi
    have := (unit_lba (t := t) (lba := lba) hk hi).2
    unfold leafOf SPAN NBK; omega
  refine ⟨?_, ?_, ?_, ?_, ?_⟩
  · intro off hoff
    have := h.used off hoff
    refine ⟨this.1, ?_, this.2.2⟩
    simp only [upd]; split
    · rfl
    · exact this.2.1
  · intro lba i hi
    simp only
    split
    · rename_i hl
      have := h.unspawned (off := unitOff t lba i) (by rw [hleafu lba i hi, hl]; exact hs)
      rw [this]; simp [Bkr.init]
    · exact h.bit lba i hi
  · intro lba
    simp only
    split
    · rename_i hl
      have : leafOf (lba * 65536) = lba / NBK := by unfold leafOf SPAN NBK; omega
      have := h.unspawned (off := lba * 65536) (by rw [this, hl]; exact hs)
      rw [this]; simp [Bkr.init]
    · exact h.db lba
  · intro k'
    simp only [leafUsecnt_init]
    by_cases he : k' = k
    · subst he; simp
    · rw [upd_ne _ _ he, if_neg he]; exact h.nu k'
  · have h1 : CInv t (upd v.spawned k true) r v.cache := by
      refine ⟨h.cache.al, h.cache.once, fun x hx => ?_⟩
      have := h.cache.free x hx
      refine ⟨this.1, ?_⟩
      simp only [upd]; split
      · rfl
      · exact this.2
    have hd := (hb 0).2.2.1
    refine h1.add ha (Nat.dvd_trans hd (Nat.dvd_mul_left _ _)) hd (by decide) ?_
    intro x hx1 hx2
    have hl : leafOf x = k := by unfold leafOf SPAN at *; omega
    refine ⟨?_, ?_, ?_⟩
    · apply Classical.byContradiction
      intro hne
      have := (h.cache.free x (by omega)).2
      rw [hl, hs] at this; exact absurd this (by simp)
    · apply h.unspawned; rw [(hb x).2.1, hl]; exact hs
    · rw [hl, upd_same]

theorem require_inv {s s' : Sys} {b : Book} {t k : Nat} {o : ReqO} {e : Option Err}
    (hk : isVnode t = true) (h : SysInv s b) (hr : require s t k o = some (s', e)) :
    SysInv s' b ∧ s'.vend = s.vend ∧ s'.cap = s.cap ∧
    (e = none → (s'.vs t).spawned k = true) ∧
    ((s.vs t).spawned k = true → s'.vs = s.vs) ∧
    (s'.vs t).cache.hint = (s.vs t).cache.hint := by
  have h0 : SysInv { s with objs := upd s.objs LTYPE_SPNODE (s.objs LTYPE_SPNODE + o.spn) } b :=
    h.updObjs (by decide) (by omega)
  unfold require at hr
  simp only [] at hr
  split at hr
  · simp only [Option.some.injEq, Prod.mk.injEq] at hr; obtain ⟨rfl, rfl⟩ := hr
    exact ⟨h0, rfl, rfl, by simp, fun _ => rfl, rfl⟩
  · split at hr
    · rename_i hsp
      simp only [Option.some.injEq, Prod.mk.injEq] at hr; obtain ⟨rfl, rfl⟩ := hr
      exact ⟨h0, rfl, rfl, fun _ => hsp, fun _ => rfl, rfl⟩
    · rename_i hsp
      split at hr
      · exact absurd hr (by simp)
      · rename_i rc c hadd
        simp only [Option.some.injEq, Prod.mk.injEq] at hr; obtain ⟨rfl, rfl⟩ := hr
        have hsp' : (s.vs t).spawned k = false := by simpa using hsp
        have hv := spawn_inv hk (h.v t hk) hsp' hadd
        refine ⟨(h0.updVs hv).updObjs (by decide) (by simp only; omega), rfl, rfl, fun _ => by simp, ?_, ?_⟩
        · intro hh; rw [hsp'] at hh; exact absurd hh (by simp)
        · simp only [upd_same]
          exact (C23_add _ _ _ _ _ _ _ hadd 0).2.2.2

/-- Space found in a leaf is an aligned, unused unit of that leaf. -/
theorem leafFindFree_spec {vend t k bn off : Nat} {v : VSpace} {r : Nat → Nat}
    (hk : isVnode t = true) (h : VInv vend t v r) (hf : leafFindFree v t k bn = some off) :
    ltypeSize t ∣ off ∧ leafOf off = k ∧ r off = 0 := by
  unfold leafFindFree at hf
  obtain ⟨bn', hmem, hb⟩ := List.exists_of_findSome?_eq_some hf
  simp only [] at hb
  split at hb
  · rename_i hm
    unfold Bkr.findFree at hb
    simp only [Option.map_map, Option.map_eq_some_iff] at hb
    obtain ⟨i, hi, hoff⟩ := hb
    have hmem' := List.mem_range'_1.mp hmem
    have hp := List.find?_some hi
    have hir := List.mem_range.mp (List.mem_of_find?_eq_some hi)
    simp only [Function.comp] at hoff
    have hbits := (hasNone_iff _ _ _).mp hp
    obtain ⟨hsz, hcase, _⟩ := kind_cases t hk
    have hin : i * nkbs t + nkbs t ≤ 64 ∧ 0 < nkbs t := by
      rcases hcase with h | h | h | ⟨h, _⟩ <;> rw [h] at hir ⊢ <;> omega
    have hbit := hbits (i * nkbs t) (by omega) (by omega) (by omega)
    have hu : unitOff t (k * NBK + bn') (i * nkbs t) = off := by
      unfold unitOff; rw [Nat.mul_div_cancel _ hin.2, ← hoff]; rfl
    have hal := (unit_lba (t := t) (lba := k * NBK + bn') (i := i * nkbs t) hk (by omega))
    rw [hu] at hal
    refine ⟨hal.1, ?_, ?_⟩
    · unfold leafOf SPAN; unfold NBK at *; omega
    · have := h.bit (k * NBK + bn') (i * nkbs t) (by omega)
      rw [hu, hbit] at this
      simp at this; omega
  · exact absurd hb (by simp)

theorem sliFindFree_spec {vend t k fromOff off : Nat} {v : VSpace} {r : Nat → Nat}
    (hk : isVnode t = true) (h : VInv vend t v r) (hf : sliFindFree v t k fromOff = some off) :
    ltypeSize t ∣ off ∧ leafOf off = k ∧ r off = 0 := by
  unfold sliFindFree at hf
  split at hf
  · simp only [] at hf
    split at hf
    · exact absurd hf (by simp)
    · exact leafFindFree_spec hk h hf
  · exact absurd hf (by simp)

theorem slow_inv {t : Nat} (hk : isVnode t = true) {b : Book} {req : Nat → ReqO} (fuel : Nat) :
    ∀ {i : Nat} {s s' : Sys} {voff : Nat} {res : Except Err Nat}, SysInv s b →
    slow t req fuel i s voff = some (s', res) →
    SysInv s' b ∧ s'.vend = s.vend ∧ s'.cap = s.cap ∧
    ∀ off, res = .ok off → ltypeSize t ∣ off ∧ b.r t off = 0 ∧
      (s'.vs t).spawned (leafOf off) = true := by
  induction fuel with
  | zero =>
    intro i s s' voff res h hs
    simp only [slow, Option.some.injEq, Prod.mk.injEq] at hs; obtain ⟨rfl, rfl⟩ := hs
    exact ⟨h, rfl, rfl, fun off he => absurd he (by simp)⟩
  | succ fuel ih =>
    intro i s s' voff res h hs
    unfold slow at hs
    split at hs
    · split at hs
      · exact absurd hs (by simp)
      · rename_i s1 hr
        obtain ⟨h1, h2, h3, _⟩ := require_inv hk h hr
        obtain ⟨g1, g2, g3, g4⟩ := ih h1 hs
        exact ⟨g1, by rw [g2, h2], by rw [g3, h3], g4⟩
      · rename_i s1 e hne hr
        obtain ⟨h1, h2, h3, _⟩ := require_inv hk h hr
        simp only [Option.some.injEq, Prod.mk.injEq] at hs; obtain ⟨rfl, rfl⟩ := hs
        exact ⟨h1, h2, h3, fun off he => absurd he (by simp)⟩
      · rename_i s1 hr
        obtain ⟨h1, h2, h3, h4, _⟩ := require_inv hk h hr
        split at hs
        · rename_i off hf
          obtain ⟨f1, f2, f3⟩ := sliFindFree_spec hk (h1.v t hk) hf
          split at hs
          · simp only [Option.some.injEq, Prod.mk.injEq] at hs; obtain ⟨rfl, rfl⟩ := hs
            refine ⟨h1, h2, h3, fun o he => ?_⟩
            simp only [Except.ok.injEq] at he; subst he
            exact ⟨f1, f3, by rw [f2]; exact h4 rfl⟩
          · obtain ⟨g1, g2, g3, g4⟩ := ih h1 hs
            exact ⟨g1, by rw [g2, h2], by rw [g3, h3], g4⟩
        · obtain ⟨g1, g2, g3, g4⟩ := ih h1 hs
          exact ⟨g1, by rw [g2, h2], by rw [g3, h3], g4⟩
    · simp only [Option.some.injEq, Prod.mk.injEq] at hs; obtain ⟨rfl, rfl⟩ := hs
      exact ⟨h, rfl, rfl, fun off he => absurd he (by simp)⟩

theorem popCache_inv {s s' : Sys} {b : Book} {t off : Nat} (hk : isVnode t = true) (h : SysInv s b)
    (hp : popCache s t = some (off, s')) :
    SysInv s' b ∧ s'.vend = s.vend ∧ s'.cap = s.cap ∧ ltypeSize t ∣ off ∧ b.r t off = 0 ∧
    (s'.vs t).spawned (leafOf off) = true ∧
    ∀ x, off ≤ x → x < off + ltypeSize t → cov (s'.vs t).cache x = 0 := by
  unfold popCache at hp
  split at hp
  · exact absurd hp (by simp)
  · rename_i o c hpop
    simp only [Option.some.injEq, Prod.mk.injEq] at hp; obtain ⟨rfl, rfl⟩ := hp
    have hv := h.v t hk
    obtain ⟨c1, c2, c3, c4, c5⟩ := hv.cache.pop hk hpop
    have hv' : VInv s.vend t { s.vs t with cache := c } (b.r t) :=
      ⟨hv.used, hv.bit, hv.db, hv.nu, c1⟩
    exact ⟨h.updVs hv', rfl, rfl, c2, c3, by simpa using c4, by simpa using c5⟩

theorem findUnalloc_inv {s s' : Sys} {b : Book} {t : Nat} {o : Oracle} {res : Except Err Nat}
    (hk : isVnode t = true) (h : SysInv s b) (hf : findUnalloc s t o = some (s', res)) :
    SysInv s' b ∧ s'.vend = s.vend ∧ s'.cap = s.cap ∧
    ∀ off, res = .ok off → ltypeSize t ∣ off ∧ b.r t off = 0 ∧
      (s'.vs t).spawned (leafOf off) = true ∧
      ∀ x, off ≤ x → x < off + ltypeSize t → cov (s'.vs t).cache x = 0 := by
  unfold findUnalloc at hf
  split at hf
  · rename_i off s1 hp
    simp only [Option.some.injEq, Prod.mk.injEq] at hf; obtain ⟨rfl, rfl⟩ := hf
    obtain ⟨p1, p2, p3, p4⟩ := popCache_inv hk h hp
    refine ⟨p1, p2, p3, fun o he => ?_⟩
    simp only [Except.ok.injEq] at he; subst he
    exact p4
  · split at hf
    · exact absurd hf (by simp)
    · rename_i s1 e hs
      simp only [Option.some.injEq, Prod.mk.injEq] at hf; obtain ⟨rfl, rfl⟩ := hf
      obtain ⟨p1, p2, p3, p4⟩ := slow_inv hk _ h hs
      exact ⟨p1, p2, p3, fun off he => absurd he (by simp)⟩
    · rename_i s1 off hs
      obtain ⟨p1, p2, p3, p4⟩ := slow_inv hk _ h hs
      split at hf
      · rename_i off2 s2 hp
        simp only [Option.some.injEq, Prod.mk.injEq] at hf; obtain ⟨rfl, rfl⟩ := hf
        obtain ⟨q1, q2, q3, q4⟩ := popCache_inv hk p1 hp
        refine ⟨q1, by rw [q2, p2], by rw [q3, p3], fun o he => ?_⟩
        simp only [Except.ok.injEq] at he; subst he
        exact q4
      · rename_i hp
        simp only [Option.some.injEq, Prod.mk.injEq] at hf; obtain ⟨rfl, rfl⟩ := hf
        refine ⟨p1, p2, p3, fun o he => ?_⟩
        simp only [Except.ok.injEq] at he; subst he
        obtain ⟨f1, f2, f3⟩ := p4 _ rfl
        refine ⟨f1, f2, f3, fun x _ _ => ?_⟩
        unfold popCache at hp
        split at hp
        · rename_i hpn
          exact pop_none hpn (p1.v t hk).cache.al x
        · exact absurd hp (by simp)

/-- Everything a successful claim guarantees, and that a claim never trips an
assertion. -/
theorem claim_inv {s s' : Sys} {b : Book} {t : Nat} {o : Oracle} {res : Except Err Nat}
    (hk : isVnode t = true) (h : SysInv s b) (hc : claim s t o = some (s', res)) :
    s'.vend = s.vend ∧ s'.cap = s.cap ∧
    (∀ e, res = .error e → SysInv s' b) ∧
    (∀ off, res = .ok off → SysInv s' (b.claimed t off) ∧ b.r t off = 0 ∧ ltypeSize t ∣ off ∧
      off + ltypeSize t ≤ s.vend ∧ checkAvail s t = true) := by
  unfold claim at hc
  split at hc
  · simp only [Option.some.injEq, Prod.mk.injEq] at hc; obtain ⟨rfl, rfl⟩ := hc
    exact ⟨rfl, rfl, fun _ _ => h, fun off he => absurd he (by simp)⟩
  · rename_i hav
    split at hc
    · exact absurd hc (by simp)
    · rename_i s1 e hf
      simp only [Option.some.injEq, Prod.mk.injEq] at hc; obtain ⟨rfl, rfl⟩ := hc
      obtain ⟨p1, p2, p3, _⟩ := findUnalloc_inv hk h hf
      exact ⟨p2, p3, fun _ _ => p1, fun off he => absurd he (by simp)⟩
    · rename_i s1 off hf
      obtain ⟨p1, p2, p3, p4⟩ := findUnalloc_inv hk h hf
      obtain ⟨f1, f2, f3, f4⟩ := p4 off rfl
      split at hc
      · simp only [Option.some.injEq, Prod.mk.injEq] at hc; obtain ⟨rfl, rfl⟩ := hc
        exact ⟨p2, p3, fun _ _ => p1, fun off he => absurd he (by simp)⟩
      · rename_i hend
        split at hc
        · exact absurd hc (by simp)
        · rename_i s2 e hr
          simp only [Option.some.injEq, Prod.mk.injEq] at hc; obtain ⟨rfl, rfl⟩ := hc
          obtain ⟨r1, r2, r3, _⟩ := require_inv hk p1 hr
          exact ⟨by rw [r2, p2], by rw [r3, p3], fun _ _ => r1, fun off he => absurd he (by simp)⟩
        · rename_i s2 hr
          obtain ⟨r1, r2, r3, r4, r5, _⟩ := require_inv hk p1 hr
          split at hc
          · simp only [Option.some.injEq, Prod.mk.injEq] at hc; obtain ⟨rfl, rfl⟩ := hc
            exact ⟨by rw [r2, p2], by rw [r3, p3], fun _ _ => r1, fun off he => absurd he (by simp)⟩
          · split at hc
            · exact absurd hc (by simp)
            · rename_i s3 hm
              simp only [Option.some.injEq, Prod.mk.injEq] at hc; obtain ⟨rfl, rfl⟩ := hc
              have hvs := r5 f3
              have hmv := markV_inv hk (r1.v t hk) f1 f2 (r4 rfl) (by rw [r2]; omega)
                (by rw [hvs]; exact f4)
              obtain ⟨v', hv1, hv2, hv3, hv4⟩ := hmv
              unfold mark at hm
              rw [hv1] at hm
              simp only [Option.some.injEq] at hm
              subst hm
              refine ⟨by simp only [r2, p2], by simp only [r3, p3], fun e he => absurd he (by simp), ?_⟩
              intro o' he
              simp only [Except.ok.injEq] at he; subst he
              refine ⟨?_, f2, f1, by omega, by simpa using hav⟩
              have hnm : off ∉ b.live t := by rw [r1.mem t off hk, f2]; omega
              refine ⟨?_, ?_, ?_, ?_, ?_, ?_⟩
              · intro t' ht'
                by_cases he : t' = t
                · subst he; simp only [Book.claimed, upd_same, f2]; exact hv2
                · simp only [Book.claimed, upd_ne _ _ he]; exact r1.v t' ht'
              · intro t' off' ht' hb'
                by_cases he : t' = t
                · subst he; simp only [Book.claimed, upd_same]
                  by_cases ho : off' = off
                  · subst ho; rw [upd_same, f2]; omega
                  · rw [upd_ne _ _ ho]; exact r1.one _ _ ht' hb'
                · simp only [Book.claimed, upd_ne _ _ he]; exact r1.one t' off' ht' hb'
              · intro t' ht'
                by_cases he : t' = t
                · subst he; simp only [Book.claimed, upd_same]; exact List.nodup_cons.mpr ⟨hnm, r1.nd _ ht'⟩
                · simp only [Book.claimed, upd_ne _ _ he]; exact r1.nd t' ht'
              · intro t' off' ht'
                by_cases he : t' = t
                · subst he; simp only [Book.claimed, upd_same, List.mem_cons]
                  by_cases ho : off' = off
                  · subst ho; simp [upd_same]
                  · rw [upd_ne _ _ ho, r1.mem _ _ ht']; simp [ho]
                · simp only [Book.claimed, upd_ne _ _ he]; exact r1.mem t' off' ht'
              · intro t' ht'
                by_cases he : t' = t
                · subst he; simp only [Book.claimed, upd_same, List.length_cons]
                  have := r1.cnt t' ht'; push_cast; omega
                · simp only [Book.claimed, upd_ne _ _ he]; exact r1.cnt t' ht'
              · intro t' ht'
                have he : t' ≠ t := fun hh => by subst hh; rw [hk] at ht'; exact absurd ht' (by simp)
                simp only [upd_ne _ _ he]; exact r1.unode t' ht'

theorem SysInv.setR {s : Sys} {b b' : Book} {t : Nat} {v : VSpace} {n : Int} (h : SysInv s b)
    (hk : isVnode t = true)
    (hv : VInv s.vend t v (b'.r t)) (hone : isBk t = false → ∀ off, b'.r t off ≤ 1)
    (hnd : (b'.live t).Nodup) (hmem : ∀ off, off ∈ b'.live t ↔ 0 < b'.r t off)
    (hcnt : s.objsBase t + n = ((b'.live t).length : Int))
    (hother : ∀ t', t' ≠ t → b'.r t' = b.r t' ∧ b'.live t' = b.live t') :
    SysInv { s with vs := upd s.vs t v, objs := upd s.objs t n } b' := by
  refine ⟨?_, ?_, ?_, ?_, ?_, ?_⟩
  · intro t' ht'
    by_cases he : t' = t
    · subst he; simpa using hv
    · simp only [upd_ne _ _ he, (hother t' he).1]; exact h.v t' ht'
  · intro t' off' ht' hb'
    by_cases he : t' = t
    · subst he; exact hone hb' off'
    · rw [(hother t' he).1]; exact h.one t' off' ht' hb'
  · intro t' ht'
    by_cases he : t' = t
    · subst he; exact hnd
    · rw [(hother t' he).2]; exact h.nd t' ht'
  · intro t' off' ht'
    by_cases he : t' = t
    · subst he; exact hmem off'
    · rw [(hother t' he).1, (hother t' he).2]; exact h.mem t' off' ht'
  · intro t' ht'
    by_cases he : t' = t
    · subst he; simpa using hcnt
    · simp only [upd_ne _ _ he, (hother t' he).2]; exact h.cnt t' ht'
  · intro t' ht'
    have he : t' ≠ t := fun hh => by subst hh; rw [hk] at ht'; exact absurd ht' (by simp)
    simp only [upd_ne _ _ he]; exact h.unode t' ht'

theorem upd_self {α : Type} (f : Nat → α) (i : Nat) : upd f i (f i) = f := by
  funext j; simp only [upd]; split
  · rename_i h; rw [h]
  · rfl

/-- dbkref of a unit in the maps equals its number of users, for data blocks. -/
theorem dbkrefAt_eq {vend t off : Nat} {v : VSpace} {r : Nat → Nat} (hk : isVnode t = true)
    (h : VInv vend t v r) (ha : ltypeSize t ∣ off) :
    dbkrefAt v t off = if isBk t then r off else 0 := by
  unfold dbkrefAt
  split
  · rename_i hb
    obtain ⟨hfit, hoff, _⟩ := unit_fit hk ha
    obtain ⟨_, _, hnb⟩ := kind_cases t hk
    have hn : nkbs t = 64 := by
      apply Classical.byContradiction; intro hne; rw [hnb hne] at hb; exact absurd hb (by simp)
    rw [h.db, if_pos hb]
    congr 1; omega
  · rfl

theorem recache_inv {vend t off : Nat} {v v' : VSpace} {r : Nat → Nat} {m i : Bool}
    (hk : isVnode t = true) (h : VInv vend t v r) (ha : ltypeSize t ∣ off)
    (hsp : v.spawned (leafOf off) = true)
    (hf : dbkrefAt v t off = 0 → r off = 0 ∧
      ∀ x, off ≤ x → x < off + ltypeSize t → cov v.cache x = 0)
    (hr : recache v t off m i = some v') : VInv vend t v' r ∧ v'.spawned = v.spawned := by
  unfold recache at hr
  split at hr
  · simp only [Option.some.injEq] at hr; subst hr; exact ⟨h, rfl⟩
  · split at hr
    · exact absurd hr (by simp)
    · rename_i hd rc c hadd
      simp only [Option.some.injEq] at hr; subst hr
      obtain ⟨hr0, hcov⟩ := hf (by omega)
      refine ⟨⟨h.used, h.bit, h.db, h.nu, ?_⟩, rfl⟩
      refine h.cache.add hadd ha (Nat.dvd_refl _) (unit_base (x := 0) hk).2.2.2 ?_
      intro x hx1 hx2
      have hu := (unit_of_byte hk ha).mpr ⟨hx1, hx2⟩
      refine ⟨hcov x hx1 hx2, by rw [hu]; exact hr0, ?_⟩
      have := (unit_base (x := x) hk).2.1
      rw [hu] at this
      rw [← this]; exact hsp

/-- A used unit is not in the cache. -/
theorem VInv.used_uncached {vend t off : Nat} {v : VSpace} {r : Nat → Nat} (hk : isVnode t = true)
    (h : VInv vend t v r) (h1 : 0 < r off) :
    ∀ x, off ≤ x → x < off + ltypeSize t → cov v.cache x = 0 := by
  intro x hx1 hx2
  apply Classical.byContradiction
  intro hne
  have := (h.cache.free x (by omega)).1
  rw [(unit_of_byte hk (h.used off h1).1).mpr ⟨hx1, hx2⟩] at this
  omega

theorem reclaim_inv {s s' : Sys} {b : Book} {t off : Nat} {o : Oracle} {e : Option Err}
    (hk : isVnode t = true) (hu : 0 < b.r t off) (h : SysInv s b)
    (hc : reclaim s t off o = some (s', e)) :
    s'.vend = s.vend ∧ s'.cap = s.cap ∧ (∀ er, e = some er → SysInv s' b) ∧
    (e = none → SysInv s' (b.released t off)) := by
  have ha := ((h.v t hk).used off hu).1
  unfold reclaim at hc
  split at hc
  · exact absurd hc (by simp)
  · rename_i s1 e1 hr
    simp only [Option.some.injEq, Prod.mk.injEq] at hc; obtain ⟨rfl, rfl⟩ := hc
    obtain ⟨r1, r2, r3, _⟩ := require_inv hk h hr
    exact ⟨r2, r3, fun _ _ => r1, fun he => absurd he (by simp)⟩
  · rename_i s1 hr
    obtain ⟨r1, r2, r3, r4, _⟩ := require_inv hk h hr
    split at hc
    · simp only [Option.some.injEq, Prod.mk.injEq] at hc; obtain ⟨rfl, rfl⟩ := hc
      exact ⟨r2, r3, fun _ _ => r1, fun he => absurd he (by simp)⟩
    · have hone : isBk t = false → b.r t off = 1 := fun hb => by
        have := r1.one t off hk hb; omega
      obtain ⟨v1, hv1, hv2, hv3, hv4⟩ := unrefAt_inv hk (r1.v t hk) hu hone
      rw [hv1] at hc
      simp only [] at hc
      split at hc
      · exact absurd hc (by simp)
      · rename_i v2 hrc
        simp only [Option.some.injEq, Prod.mk.injEq] at hc; obtain ⟨rfl, rfl⟩ := hc
        refine ⟨r2, r3, fun er he => absurd he (by simp), fun _ => ?_⟩
        have hd := dbkrefAt_eq hk hv2 ha
        rw [upd_same] at hd
        have hv5 := recache_inv hk hv2 ha (by rw [hv4]; exact r4 rfl) (by
          intro hz
          refine ⟨?_, ?_⟩
          · rw [upd_same]
            cases hb : isBk t
            · have := hone hb; omega
            · rw [hd, hb, if_pos rfl] at hz; exact hz
          · rw [hv3]; exact (r1.v t hk).used_uncached hk hu) hrc
        have hobj : (if dbkrefAt v1 t off > 0 then s1.objs else upd s1.objs t (s1.objs t - 1))
            = upd s1.objs t (if b.r t off = 1 then s1.objs t - 1 else s1.objs t) := by
          rw [hd]
          by_cases hr1 : b.r t off = 1
          · rw [if_pos hr1, if_neg]; rw [hr1]; split <;> omega
          · have hb : isBk t = true := by
              cases hb : isBk t
              · exact absurd (hone hb) hr1
              · rfl
            rw [if_neg hr1, if_pos (by rw [hb, if_pos rfl]; omega), upd_self]
        rw [hobj]
        have hmem : off ∈ b.live t := (r1.mem t off hk).mpr hu
        refine r1.setR hk ?_ ?_ ?_ ?_ ?_ ?_
        · simp only [Book.released, upd_same]; exact hv5.1
        · intro hb o'
          simp only [Book.released, upd_same]
          by_cases ho : o' = off
          · subst ho; rw [upd_same]; have := hone hb; omega
          · rw [upd_ne _ _ ho]; exact r1.one t o' hk hb
        · simp only [Book.released]
          split
          · rw [upd_same]; exact (r1.nd t hk).erase _
          · exact r1.nd t hk
        · intro o'
          simp only [Book.released, upd_same]
          by_cases ho : o' = off
          · subst ho
            rw [upd_same]
            split
            · rename_i h1
              rw [upd_same, (r1.nd t hk).mem_erase_iff]; simp; omega
            · rename_i h1
              rw [r1.mem t _ hk]; omega
          · rw [upd_ne _ _ ho]
            split
            · rw [upd_same, (r1.nd t hk).mem_erase_iff, r1.mem t _ hk]; simp [ho]
            · rw [r1.mem t _ hk]
        · have hcnt := r1.cnt t hk
          simp only [Book.released]
          split
          · rw [upd_same, List.length_erase_of_mem hmem]
            have : 0 < (b.live t).length := List.length_pos_of_mem hmem
            omega
          · exact hcnt
        · intro t' ht'
          simp only [Book.released, upd_ne _ _ ht', true_and]
          split
          · rw [upd_ne _ _ ht']
          · rfl

theorem addref_inv {s s' : Sys} {b : Book} {t off : Nat} {o : Oracle} {e : Option Err}
    (hk : isVnode t = true) (hb : isBk t = true) (hu : 0 < b.r t off) (h : SysInv s b)
    (hc : addref s t off o = some (s', e)) :
    s'.vend = s.vend ∧ s'.cap = s.cap ∧ (∀ er, e = some er → SysInv s' b) ∧
    (e = none → SysInv s' (b.shared t off)) := by
  have ha := ((h.v t hk).used off hu).1
  unfold addref at hc
  split at hc
  · exact absurd hc (by simp)
  · rename_i s1 e1 hr
    simp only [Option.some.injEq, Prod.mk.injEq] at hc; obtain ⟨rfl, rfl⟩ := hc
    obtain ⟨r1, r2, r3, _⟩ := require_inv hk h hr
    exact ⟨r2, r3, fun _ _ => r1, fun he => absurd he (by simp)⟩
  · rename_i s1 hr
    obtain ⟨r1, r2, r3, r4, _⟩ := require_inv hk h hr
    split at hc
    · simp only [Option.some.injEq, Prod.mk.injEq] at hc; obtain ⟨rfl, rfl⟩ := hc
      exact ⟨r2, r3, fun _ _ => r1, fun he => absurd he (by simp)⟩
    · simp only [] at hc
      split at hc
      · exact absurd hc (by simp)
      · simp only [Option.some.injEq, Prod.mk.injEq] at hc; obtain ⟨rfl, rfl⟩ := hc
        refine ⟨r2, r3, fun er he => absurd he (by simp), fun _ => ?_⟩
        have hv := r1.v t hk
        obtain ⟨hfit, hoff, hleaf, hn0, _⟩ := unit_fit hk ha
        obtain ⟨_, _, hnb⟩ := kind_cases t hk
        have hn : nkbs t = 64 := by
          apply Classical.byContradiction; intro hne; rw [hnb hne] at hb; exact absurd hb (by simp)
        have hset : ∀ i, i < 64 → ((s1.vs t).bk (lbaOf off)).alloc.getLsbD i = true := by
          intro i hi
          have : unitOff t (lbaOf off) i = off := (unit_eq hk ha hi).mpr ⟨rfl, by omega, by omega⟩
          rw [hv.bit _ _ hi, this]; exact hu
        have hall : (((s1.vs t).bk (lbaOf off)).ref t (kbnOf off)).alloc
            = ((s1.vs t).bk (lbaOf off)).alloc := by
          rw [ref_alloc]
          apply BitVec.eq_of_getLsbD_eq
          intro i hi
          rw [getLsbD_setAlloc _ _ _ _ hi, hset i hi]; simp
        have hdbk : (((s1.vs t).bk (lbaOf off)).ref t (kbnOf off)).dbkref
            = ((s1.vs t).bk (lbaOf off)).dbkref + 1 := by
          unfold Bkr.ref; simp [hb, Bkr.setAlloc]
        have hpos : ∀ o', 0 < upd (b.r t) off (b.r t off + 1) o' ↔ 0 < b.r t o' := by
          intro o'
          by_cases ho : o' = off
          · subst ho; rw [upd_same]; omega
          · rw [upd_ne _ _ ho]
        have := r1.setR (b' := b.shared t off) (n := s1.objs t) hk (v := { s1.vs t with
            bk := upd (s1.vs t).bk (lbaOf off) (((s1.vs t).bk (lbaOf off)).ref t (kbnOf off)) })
          (by
            simp only [Book.shared, upd_same]
            refine ⟨?_, ?_, ?_, ?_, ?_⟩
            · intro o' ho'; exact hv.used o' ((hpos o').mp ho')
            · intro lba i hi
              rw [hpos]
              simp only []
              by_cases hl : lba = lbaOf off
              · subst hl; rw [upd_same, hall]; exact hv.bit _ _ hi
              · rw [upd_ne _ _ hl]; exact hv.bit _ _ hi
            · intro lba
              simp only [hb, if_true]
              by_cases hl : lba = lbaOf off
              · subst hl
                rw [upd_same, hdbk, hv.db, hb, if_pos rfl]
                have : lbaOf off * 65536 = off := by omega
                rw [this, upd_same]
              · rw [upd_ne _ _ hl, hv.db, hb, if_pos rfl, upd_ne]
                intro hh; apply hl; unfold lbaOf LBK; omega
            · intro k
              have hlu := leafUsecnt_upd (s1.vs t).bk (lbaOf off)
                (((s1.vs t).bk (lbaOf off)).ref t (kbnOf off)) k
              simp only []
              rw [hv.nu k]
              suffices hh : leafUsecnt (s1.vs t).bk k = leafUsecnt (upd (s1.vs t).bk (lbaOf off)
                (((s1.vs t).bk (lbaOf off)).ref t (kbnOf off))) k by rw [hh]
              by_cases hkk : k = lbaOf off / 256
              · have := hlu.1 hkk
                rw [usecnt_congr hall] at this; omega
              · exact (hlu.2 hkk).symm
            · refine ⟨hv.cache.al, hv.cache.once, fun x hx => ?_⟩
              have := hv.cache.free x hx
              refine ⟨?_, this.2⟩
              have h2 := hpos (x / ltypeSize t * ltypeSize t)
              omega)
          (by intro hb'; rw [hb] at hb'; exact absurd hb' (by simp))
          (r1.nd t hk)
          (by intro o'; simp only [Book.shared, upd_same]; rw [hpos]; exact r1.mem t o' hk)
          (r1.cnt t hk)
          (by intro t' ht'; simp only [Book.shared, upd_ne _ _ ht']; exact ⟨trivial, trivial⟩)
        rw [upd_self] at this
        exact this

theorem rescanLoop_inv {t : Nat} (hk : isVnode t = true) {b : Book} {req : Nat → ReqO} (fuel : Nat) :
    ∀ {i : Nat} {s s' : Sys} {voff : Nat} {res : Except Err Nat}, SysInv s b →
    rescanLoop t req fuel i s voff = (s', res) →
    SysInv s' b ∧ s'.vend = s.vend ∧ s'.cap = s.cap ∧
    (∀ x, cov (s'.vs t).cache x = cov (s.vs t).cache x) ∧
    ∀ off, res = .ok off → ltypeSize t ∣ off ∧ b.r t off = 0 ∧
      (s'.vs t).spawned (leafOf off) = true := by
  induction fuel with
  | zero =>
    intro i s s' voff res h hs
    simp only [rescanLoop, Prod.mk.injEq] at hs; obtain ⟨rfl, rfl⟩ := hs
    exact ⟨h, rfl, rfl, fun _ => rfl, fun off he => absurd he (by simp)⟩
  | succ fuel ih =>
    intro i s s' voff res h hs
    unfold rescanLoop at hs
    split at hs
    · split at hs
      · simp only [Prod.mk.injEq] at hs; obtain ⟨rfl, rfl⟩ := hs
        exact ⟨h, rfl, rfl, fun _ => rfl, fun off he => absurd he (by simp)⟩
      · split at hs
        · rename_i hsp
          simp only [] at hs
          have hv := h.v t hk
          have hv' : VInv s.vend t { s.vs t with cache := { (s.vs t).cache with hint := voff } } (b.r t) :=
            ⟨hv.used, hv.bit, hv.db, hv.nu, hv.cache.hint voff⟩
          have h1 := h.updVs hv'
          split at hs
          · rename_i off hf
            obtain ⟨f1, f2, f3⟩ := sliFindFree_spec hk hv hf
            split at hs
            · simp only [Prod.mk.injEq] at hs; obtain ⟨rfl, rfl⟩ := hs
              refine ⟨h1, rfl, rfl, fun x => by simp only [upd_same]; rfl, fun o he => ?_⟩
              simp only [Except.ok.injEq] at he; subst he
              exact ⟨f1, f3, by simp only [upd_same, f2]; exact hsp⟩
            · obtain ⟨g1, g2, g3, g4, g5⟩ := ih h1 hs
              exact ⟨g1, g2, g3, fun x => by rw [g4]; simp only [upd_same]; rfl, g5⟩
          · obtain ⟨g1, g2, g3, g4, g5⟩ := ih h1 hs
            exact ⟨g1, g2, g3, fun x => by rw [g4]; simp only [upd_same]; rfl, g5⟩
        · simp only [Prod.mk.injEq] at hs; obtain ⟨rfl, rfl⟩ := hs
          exact ⟨h, rfl, rfl, fun _ => rfl, fun off he => absurd he (by simp)⟩
    · simp only [Prod.mk.injEq] at hs; obtain ⟨rfl, rfl⟩ := hs
      exact ⟨h, rfl, rfl, fun _ => rfl, fun off he => absurd he (by simp)⟩

theorem cov_clear (c : Cache) (x : Nat) : cov (clear c) x = 0 := by simp [cov, clear]

theorem remount_inv {s s' : Sys} {b : Book} {t : Nat} {o : Oracle} (hk : isVnode t = true)
    (h : SysInv s b) (hc : remount s t o = some s') :
    SysInv s' b ∧ s'.vend = s.vend ∧ s'.cap = s.cap := by
  have hv := h.v t hk
  have hv0 : VInv s.vend t { s.vs t with cache := { clear (s.vs t).cache with hint := 0 } } (b.r t) := by
    refine ⟨hv.used, hv.bit, hv.db, hv.nu, CInv.hint (c := clear (s.vs t).cache) ⟨⟨hv.cache.al.ulen, ?_, ?_⟩, ?_, ?_⟩ 0⟩
    · intro o ho; exact absurd ho (by simp [clear])
    · intro o ho; exact absurd ho (by simp [clear])
    · intro x; rw [cov_clear]; omega
    · intro x hx; rw [cov_clear] at hx; omega
  have h0 := h.updVs hv0
  unfold remount at hc
  simp only [] at hc
  split at hc
  · rename_i s1 e hr
    obtain ⟨g1, g2, g3, _⟩ := rescanLoop_inv hk _ h0 hr
    simp only [Option.some.injEq] at hc; subst hc
    exact ⟨g1, g2, g3⟩
  · rename_i s1 off hr
    obtain ⟨g1, g2, g3, g4, g5⟩ := rescanLoop_inv hk _ h0 hr
    obtain ⟨f1, f2, f3⟩ := g5 off rfl
    split at hc
    · exact absurd hc (by simp)
    · rename_i v2 hrc
      simp only [Option.some.injEq] at hc; subst hc
      have := recache_inv hk (g1.v t hk) f1 f3 (fun _ => ⟨f2, fun x _ _ => by
        rw [g4 x]; simp only [upd_same]; exact cov_clear _ x⟩) hrc
      exact ⟨g1.updVs this.1, g2, g3⟩

theorem VInv.updUnwr {vend t : Nat} {v : VSpace} {r : Nat → Nat} (h : VInv vend t v r) (lba : Nat)
    (b' : Bkr) (ha : b'.alloc = (v.bk lba).alloc) (hd : b'.dbkref = (v.bk lba).dbkref) :
    VInv vend t { v with bk := upd v.bk lba b' } r := by
  refine ⟨h.used, ?_, ?_, ?_, h.cache⟩
  · intro l i hi
    simp only []
    by_cases hl : l = lba
    · subst hl; rw [upd_same, ha]; exact h.bit l i hi
    · rw [upd_ne _ _ hl]; exact h.bit l i hi
  · intro l
    simp only []
    by_cases hl : l = lba
    · subst hl; rw [upd_same, hd]; exact h.db l
    · rw [upd_ne _ _ hl]; exact h.db l
  · intro k
    have hlu := leafUsecnt_upd v.bk lba b' k
    simp only []
    rw [h.nu k]
    suffices hh : leafUsecnt v.bk k = leafUsecnt (upd v.bk lba b') k by rw [hh]
    by_cases hkk : k = lba / 256
    · have := hlu.1 hkk
      rw [usecnt_congr ha] at this; omega
    · exact (hlu.2 hkk).symm

theorem exec_inv {s s' : Sys} {b b' : Book} {op : Op} {out : Option (Nat × Nat)} (h : SysInv s b)
    (hl : Legal b op) (he : exec s b op = some (s', b', out)) :
    SysInv s' b' ∧ s'.vend = s.vend ∧ s'.cap = s.cap := by
  cases op with
  | claim t o =>
    simp only [exec] at he
    split at he
    · exact absurd he (by simp)
    · rename_i s1 off hc
      simp only [Option.some.injEq, Prod.mk.injEq] at he; obtain ⟨rfl, rfl, _⟩ := he
      obtain ⟨c1, c2, c3, c4⟩ := claim_inv hl h hc
      exact ⟨(c4 off rfl).1, c1, c2⟩
    · rename_i s1 e hc
      simp only [Option.some.injEq, Prod.mk.injEq] at he; obtain ⟨rfl, rfl, _⟩ := he
      obtain ⟨c1, c2, c3, c4⟩ := claim_inv hl h hc
      exact ⟨c3 e rfl, c1, c2⟩
  | addref t off o =>
    simp only [exec] at he
    split at he
    · exact absurd he (by simp)
    · rename_i s1 hc
      simp only [Option.some.injEq, Prod.mk.injEq] at he; obtain ⟨rfl, rfl, _⟩ := he
      obtain ⟨c1, c2, c3, c4⟩ := addref_inv hl.1 hl.2.1 hl.2.2 h hc
      exact ⟨c4 rfl, c1, c2⟩
    · rename_i s1 e hc
      simp only [Option.some.injEq, Prod.mk.injEq] at he; obtain ⟨rfl, rfl, _⟩ := he
      obtain ⟨c1, c2, c3, c4⟩ := addref_inv hl.1 hl.2.1 hl.2.2 h hc
      exact ⟨c3 e rfl, c1, c2⟩
  | reclaim t off o =>
    simp only [exec] at he
    split at he
    · exact absurd he (by simp)
    · rename_i s1 hc
      simp only [Option.some.injEq, Prod.mk.injEq] at he; obtain ⟨rfl, rfl, _⟩ := he
      obtain ⟨c1, c2, c3, c4⟩ := reclaim_inv hl.1 hl.2 h hc
      exact ⟨c4 rfl, c1, c2⟩
    · rename_i s1 e hc
      simp only [Option.some.injEq, Prod.mk.injEq] at he; obtain ⟨rfl, rfl, _⟩ := he
      obtain ⟨c1, c2, c3, c4⟩ := reclaim_inv hl.1 hl.2 h hc
      exact ⟨c3 e rfl, c1, c2⟩
  | remount t o =>
    simp only [exec, Option.map_eq_some_iff, Prod.mk.injEq] at he
    obtain ⟨s1, hc, rfl, rfl, _⟩ := he
    exact remount_inv hl h hc
  | setUnwritten t off =>
    simp only [exec, Option.some.injEq, Prod.mk.injEq] at he; obtain ⟨rfl, rfl, _⟩ := he
    unfold markUnwritten
    simp only []
    split
    · exact ⟨h.updVs ((h.v t hl).updUnwr _ _ rfl rfl), rfl, rfl⟩
    · exact ⟨h, rfl, rfl⟩
  | clearUnwritten t off =>
    simp only [exec, Option.some.injEq, Prod.mk.injEq] at he; obtain ⟨rfl, rfl, _⟩ := he
    unfold clearUnwritten
    simp only []
    split
    · exact ⟨h.updVs ((h.v t hl).updUnwr _ _ rfl rfl), rfl, rfl⟩
    · exact ⟨h, rfl, rfl⟩
  | reload t k =>
    simp only [exec, Option.some.injEq, Prod.mk.injEq] at he; obtain ⟨rfl, rfl, _⟩ := he
    have hv := h.v t hl
    refine ⟨h.updVs ⟨hv.used, hv.bit, hv.db, ?_, hv.cache⟩, rfl, rfl⟩
    intro k'
    simp only []
    by_cases hk : k' = k
    · subst hk; rw [upd_same]
    · rw [upd_ne _ _ hk]; exact hv.nu k'
  | renewStats =>
    simp only [exec, Option.some.injEq, Prod.mk.injEq] at he; obtain ⟨rfl, rfl, _⟩ := he
    refine ⟨⟨h.v, h.one, h.nd, h.mem, ?_, ?_⟩, rfl, rfl⟩
    · intro t ht; have := h.cnt t ht; simp only [renewStats]; omega
    · intro t ht; have := h.unode t ht; simp only [renewStats]; omega

theorem init_inv (cap vend cm sp : Nat) : SysInv (initSys cap vend cm sp) Book.empty := by
  refine ⟨fun t ht => ⟨?_, ?_, ?_, ?_, ⟨⟨rfl, ?_, ?_⟩, ?_, ?_⟩⟩, ?_, ?_, ?_, ?_, ?_⟩
  · intro off h; simp [Book.empty] at h
  · intro lba i hi; simp [initSys, Bkr.init, Book.empty]
  · intro lba; simp [initSys, Bkr.init, Book.empty]
  · intro k
    have : leafUsecnt (fun _ => Bkr.init) k = 0 := by
      unfold leafUsecnt
      simp only [usecnt_init]; exact sum_map_zero _
    simp only [initSys, this, Nat.zero_mul]
  · intro o ho; simp [initSys] at ho
  · intro o ho; simp [initSys] at ho
  · intro x; simp [initSys, cov]
  · intro x hx; simp [initSys, cov] at hx
  · intro t off ht hb; simp [Book.empty]
  · intro t ht; simp [Book.empty]
  · intro t off ht; simp [Book.empty]
  · intro t ht; simp [Book.empty, initSys]
  · intro t ht; simp [initSys]

theorem reach_inv {cap vend cm sp : Nat} {s : Sys} {b : Book}
    (h : Reach (initSys cap vend cm sp) s b) : SysInv s b ∧ s.vend = vend ∧ s.cap = cap := by
  induction h with
  | init => exact ⟨init_inv _ _ _ _, rfl, rfl⟩
  | step hr hl he ih =>
    obtain ⟨i1, i2, i3⟩ := ih
    obtain ⟨e1, e2, e3⟩ := exec_inv i1 hl he
    exact ⟨e1, by rw [e2, i2], by rw [e3, i3]⟩

/-! ### C19 -/

/-- C19: a unit handed out does not overlap any unit in use, is aligned to its size
and lies inside the virtual space. -/
theorem C19_claim_disjoint {cap vend cm sp : Nat} {s s' : Sys} {b b' : Book} {t : Nat} {o : Oracle}
    {off len : Nat} (h : Reach (initSys cap vend cm sp) s b) (hk : isVnode t = true)
    (hc : exec s b (.claim t o) = some (s', b', some (off, len))) :
    len = ltypeSize t ∧ len ∣ off ∧ off + len ≤ vend ∧
    ∀ off' ∈ b.live t, ¬ Overlap (off, len) (off', ltypeSize t) := by
  obtain ⟨hi, hv, _⟩ := reach_inv h
  simp only [exec] at hc
  split at hc
  · exact absurd hc (by simp)
  · rename_i s1 o1 hcl
    simp only [Option.some.injEq, Prod.mk.injEq] at hc
    obtain ⟨_, _, rfl, rfl⟩ := hc
    obtain ⟨_, _, _, c4⟩ := claim_inv hk hi hcl
    obtain ⟨_, c6, c7, c8, _⟩ := c4 o1 rfl
    refine ⟨rfl, c7, by rw [hv] at c8; exact c8, ?_⟩
    intro off' hm hov
    obtain ⟨x, hx1, hx2⟩ := hov
    have hu := (hi.mem t off' hk).mp hm
    have ha' := ((hi.v t hk).used off' hu).1
    unfold covers at hx1 hx2
    split at hx1
    · split at hx2
      · rename_i h1 h2
        have e1 := (unit_of_byte hk c7 (x := x)).mpr h1
        have e2 := (unit_of_byte hk ha' (x := x)).mpr h2
        rw [e1] at e2
        subst e2; omega
      · exact absurd hx2 (by simp)
    · exact absurd hx1 (by simp)
  · simp at hc

/-- C19: at any time the units in use of each kind are pairwise disjoint. -/
theorem C19_live_disjoint {cap vend cm sp : Nat} {s : Sys} {b : Book}
    (h : Reach (initSys cap vend cm sp) s b) (t : Nat) (hk : isVnode t = true) :
    (b.live t).Pairwise (fun x y => ¬ Overlap (x, ltypeSize t) (y, ltypeSize t)) := by
  obtain ⟨hi, _⟩ := reach_inv h
  have hnd := hi.nd t hk
  have hal : ∀ o ∈ b.live t, ltypeSize t ∣ o := fun o ho =>
    ((hi.v t hk).used o ((hi.mem t o hk).mp ho)).1
  rw [List.nodup_iff_pairwise_ne] at hnd
  refine hnd.imp_of_mem ?_
  intro x y hx hy hne hov
  obtain ⟨z, hz1, hz2⟩ := hov
  unfold covers at hz1 hz2
  split at hz1
  · split at hz2
    · rename_i h1 h2
      exact hne (((unit_of_byte hk (hal x hx)).mpr h1).symm.trans ((unit_of_byte hk (hal y hy)).mpr h2))
    · exact absurd hz2 (by simp)
  · exact absurd hz1 (by simp)

end Silofs.Space
