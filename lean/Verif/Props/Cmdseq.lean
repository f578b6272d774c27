import Verif.Spec.Cmdseq
/-
C75: what a command leaves behind, wherever it ends, and whatever others do at the same time.
-/
set_option linter.unusedSimpArgs false
set_option linter.unusedVariables false
namespace Silofs.Cs

/-! ### What a step changes -/

/-- Of a repository: what names need. -/
structure Core where
  names : Nat → Option Ref
  recs : Nat → Bool
  recVol : Nat → Nat
  arch : Nat → Option (Nat × Nat × Nat)
  vols : Nat → Vs
  base : Nat → Option Nat
  next : Nat

def core (d : Disk) : Core := ⟨d.names, d.recs, d.recVol, d.arch, d.vols, d.base, d.next⟩

/-- Of a process: its references. -/
structure Regs where
  ref : Option Nat
  arc : Option Nat
  out : Option Ref
  out2 : Option Ref
  vol : Option Nat

def regs (m : Mem) : Regs := ⟨m.ref, m.arc, m.out, m.out2, m.vol⟩

/-- The changes of a step; `b`: all of it was done. -/
inductive Eff : Step → Bool → Core → Regs → Core → Regs → Prop
  | idle (s b c g) : Eff s b c g c g
  | load (b c g) (n i) (h : c.names n = some (.boot i)) : Eff (.load n) b c g c { g with ref := some i }
  | loadAr (b c g) (n j) (h : c.names n = some (.pack j)) : Eff (.loadAr n) b c g c { g with arc := some j }
  | useVol (s b c g) (i) (h : g.ref = some i) (hs : s = .openFs ∨ s = .super) : Eff s b c g c { g with vol := some (c.recVol i) }
  | mkVol (b c g) : Eff .mkVol b c g { c with vols := upd c.vols c.next .whole, next := c.next + 1 } { g with vol := some c.next }
  | halfVol (b c g) : Eff .mkVol b c g { c with vols := upd c.vols c.next .part, next := c.next + 1 } g
  | saveRec (b c g) (v) (h : g.vol = some v) (g') (hg : g' = g ∨ g' = { g with out := some (.boot c.next) }) :
      Eff .saveRec b c g { c with recs := upd c.recs c.next true, recVol := upd c.recVol c.next v, next := c.next + 1 } g'
  | fork (b c g) (i) (h : g.ref = some i) : Eff .fork b c g
      { c with
        vols := upd (upd c.vols c.next .whole) (c.next + 1) .whole
        base := upd (upd c.base c.next (some (c.recVol i))) (c.next + 1) (some (c.recVol i))
        recs := upd (upd c.recs c.next true) (c.next + 1) true
        recVol := upd (upd c.recVol c.next c.next) (c.next + 1) (c.next + 1)
        next := c.next + 2 }
      { g with out := some (.boot c.next), out2 := some (.boot (c.next + 1)), vol := some (c.next + 1) }
  | pack (b c g) (i k) (h : g.ref = some i) :
      Eff .pack b c g { c with arch := upd c.arch c.next (some (i, c.recVol i, k)), next := c.next + 1 } { g with out := some (.pack c.next) }
  | unpack (b c g) (j i v k) (h : g.arc = some j) (h2 : c.arch j = some (i, v, k)) :
      Eff .unpack b c g { c with recs := upd c.recs i true, vols := upd c.vols v .whole } { g with out := some (.boot i), vol := some v }
  | halfUnpack (c g) (j i v k) (h : g.arc = some j) (h2 : c.arch j = some (i, v, k)) :
      Eff .unpack false c g { c with recs := upd c.recs i true, vols := upd c.vols v .part } g
  | save (s b c g) (n r) (h : s = .save n ∧ g.out = some r ∨ s = .save2 n ∧ g.out2 = some r) : Eff s b c g { c with names := upd c.names n (some r) } g
  | delVol (b c g) (v x) (h : g.vol = some v) : Eff .delVol b c g { c with vols := upd c.vols v x } g
  | delRec (b c g) (i) (h : g.ref = some i) : Eff .delRec b c g { c with recs := upd c.recs i false } g
  | unlink (b c g) (n) : Eff (.unlinkName n) b c g { c with names := upd c.names n none } g

theorem act_eff (k : Nat) (d : Disk) (m : Mem) (s : Step) (d' : Disk) (m' : Mem) (h : act k d m s = some (d', m')) (b : Bool) :
    Eff s b (core d) (regs m) (core d') (regs m') := by
  cases s <;> simp only [act] at h
  case check | repo | closeRepo | pass | env | delEnv | fini =>
    simp only [Option.some.injEq, Prod.mk.injEq] at h; obtain ⟨rfl, rfl⟩ := h; exact .idle ..
  case absent n =>
    split at h
    · simp only [Option.some.injEq, Prod.mk.injEq] at h; obtain ⟨rfl, rfl⟩ := h; exact .idle ..
    · cases h
  case load n =>
    split at h
    · rename_i i hi
      simp only [Option.some.injEq, Prod.mk.injEq] at h; obtain ⟨rfl, rfl⟩ := h; exact .load _ _ _ n i hi
    · cases h
  case loadAr n =>
    split at h
    · rename_i i hi
      simp only [Option.some.injEq, Prod.mk.injEq] at h; obtain ⟨rfl, rfl⟩ := h; exact .loadAr _ _ _ n i hi
    · cases h
  case lock n =>
    split at h
    · cases h
    · simp only [Option.some.injEq, Prod.mk.injEq] at h; obtain ⟨rfl, rfl⟩ := h; exact .idle ..
  case poke | pokeAr =>
    split at h
    · split at h
      · simp only [Option.some.injEq, Prod.mk.injEq] at h; obtain ⟨rfl, rfl⟩ := h; exact .idle ..
      · cases h
    · cases h
  case openFs =>
    split at h
    · rename_i i hi
      split at h
      · simp only [Option.some.injEq, Prod.mk.injEq] at h; obtain ⟨rfl, rfl⟩ := h
        exact .useVol _ _ (core d) (regs m) i hi (Or.inl rfl)
      · cases h
    · cases h
  case super =>
    split at h
    · rename_i i hi
      split at h
      · simp only [Option.some.injEq, Prod.mk.injEq] at h; obtain ⟨rfl, rfl⟩ := h
        exact .useVol _ _ (core d) (regs m) i hi (Or.inr rfl)
      · cases h
    · cases h
  case mkVol =>
    simp only [Option.some.injEq, Prod.mk.injEq] at h; obtain ⟨rfl, rfl⟩ := h; exact .mkVol _ (core d) (regs m)
  case saveRec =>
    split at h
    · rename_i v hv
      simp only [Option.some.injEq, Prod.mk.injEq] at h; obtain ⟨rfl, rfl⟩ := h
      exact .saveRec _ (core d) (regs m) v hv _ (Or.inr rfl)
    · cases h
  case fork =>
    split at h
    · rename_i i hi
      simp only [Option.some.injEq, Prod.mk.injEq] at h; obtain ⟨rfl, rfl⟩ := h; exact .fork _ (core d) (regs m) i hi
    · cases h
  case pack =>
    split at h
    · rename_i i hi
      split at h
      · simp only [Option.some.injEq, Prod.mk.injEq] at h; obtain ⟨rfl, rfl⟩ := h; exact .pack _ (core d) (regs m) i _ hi
      · cases h
    · cases h
  case unpack =>
    split at h
    · rename_i j hj
      split at h
      · rename_i i v c hc
        simp only [Option.some.injEq, Prod.mk.injEq] at h; obtain ⟨rfl, rfl⟩ := h
        exact .unpack _ (core d) (regs m) j i v c hj hc
      · cases h
    · cases h
  case save n =>
    split at h
    · rename_i r hr
      simp only [Option.some.injEq, Prod.mk.injEq] at h; obtain ⟨rfl, rfl⟩ := h
      exact .save _ _ (core d) (regs m) n r (Or.inl ⟨rfl, hr⟩)
    · cases h
  case save2 n =>
    split at h
    · rename_i r hr
      simp only [Option.some.injEq, Prod.mk.injEq] at h; obtain ⟨rfl, rfl⟩ := h
      exact .save _ _ (core d) (regs m) n r (Or.inr ⟨rfl, hr⟩)
    · cases h
  case serve | closeFs =>
    split at h
    · simp only [Option.some.injEq, Prod.mk.injEq] at h; obtain ⟨rfl, rfl⟩ := h; exact .idle ..
    · cases h
  case delVol =>
    split at h
    · rename_i v hv
      simp only [Option.some.injEq, Prod.mk.injEq] at h; obtain ⟨rfl, rfl⟩ := h; exact .delVol _ (core d) (regs m) v _ hv
    · cases h
  case delRec =>
    split at h
    · rename_i i hi
      split at h
      · simp only [Option.some.injEq, Prod.mk.injEq] at h; obtain ⟨rfl, rfl⟩ := h; exact .delRec _ (core d) (regs m) i hi
      · cases h
    · cases h
  case unlinkName n =>
    simp only [Option.some.injEq, Prod.mk.injEq] at h; obtain ⟨rfl, rfl⟩ := h; exact .unlink _ (core d) (regs m) n
  case unlock n =>
    split at h <;>
    · simp only [Option.some.injEq, Prod.mk.injEq] at h; obtain ⟨rfl, rfl⟩ := h; exact .idle ..

theorem half_eff (d : Disk) (m : Mem) (s : Step) : Eff s false (core d) (regs m) (core (half d m s)) (regs m) := by
  cases s <;> simp only [half]
  case mkVol => exact .halfVol _ (core d) (regs m)
  case fork => split <;> exact .idle ..
  case unpack =>
    split
    · rename_i j hj
      split
      · rename_i i v c hc
        exact .halfUnpack (core d) (regs m) j i v c hj hc
      · exact .idle ..
    · exact .idle ..
  case delVol =>
    split
    · rename_i v hv
      exact .delVol _ (core d) (regs m) v _ hv
    · exact .idle ..
  case saveRec =>
    split
    · rename_i d' m' h
      simp only [act] at h
      split at h
      · rename_i v hv
        simp only [Option.some.injEq, Prod.mk.injEq] at h; obtain ⟨rfl, rfl⟩ := h
        exact .saveRec _ (core d) (regs m) v hv _ (Or.inl rfl)
      · cases h
    · exact .idle ..
  case save n =>
    split
    · rename_i d' m' h
      simp only [act] at h
      split at h
      · rename_i r hr
        simp only [Option.some.injEq, Prod.mk.injEq] at h; obtain ⟨rfl, rfl⟩ := h
        exact .save _ _ (core d) (regs m) n r (Or.inl ⟨rfl, hr⟩)
      · cases h
    · exact .idle ..
  case save2 n =>
    split
    · rename_i d' m' h
      simp only [act] at h
      split at h
      · rename_i r hr
        simp only [Option.some.injEq, Prod.mk.injEq] at h; obtain ⟨rfl, rfl⟩ := h
        exact .save _ _ (core d) (regs m) n r (Or.inr ⟨rfl, hr⟩)
      · cases h
    · exact .idle ..
  case delRec =>
    split
    · rename_i d' m' h
      simp only [act] at h
      split at h
      · rename_i i hi
        split at h
        · simp only [Option.some.injEq, Prod.mk.injEq] at h; obtain ⟨rfl, rfl⟩ := h; exact .delRec _ (core d) (regs m) i hi
        · cases h
      · cases h
    · exact .idle ..
  case unlinkName n => exact .unlink _ (core d) (regs m) n
  all_goals first
    | exact .idle ..
    | (split
       · rename_i d' m' h
         simp only [act] at h
         repeat' (split at h)
         all_goals first
           | (simp only [Option.some.injEq, Prod.mk.injEq] at h; obtain ⟨rfl, rfl⟩ := h; exact .idle ..)
           | (cases h; done)
       · exact .idle ..)

/-! ### What everybody knows is there -/

theorem needs_le {base : Nat → Option Nat} (h : ∀ v u, base v = some u → u < v) {v u : Nat} (hn : Needs base v u) : u ≤ v := by
  induction hn with
  | self v => exact Nat.le_refl _
  | up hb _ ih => have := h _ _ hb; omega

theorem needs_below {base base' : Nat → Option Nat} {n : Nat} (h : ∀ v u, base v = some u → u < v)
    (he : ∀ v, v < n → base' v = base v) {v u : Nat} (hv : v < n) (hn : Needs base' v u) : Needs base v u := by
  induction hn with
  | self v => exact .self v
  | up hb _ ih =>
    rw [he _ hv] at hb
    exact .up hb (ih (by have := h _ _ hb; omega))

theorem needs_none {base : Nat → Option Nat} {v u : Nat} (h : base v = none) (hn : Needs base v u) : u = v := by
  cases hn with
  | self => rfl
  | up hb _ => rw [h] at hb; cases hb

theorem needs_some {base : Nat → Option Nat} {v w u : Nat} (h : base v = some w) (hn : Needs base v u) : u = v ∨ Needs base w u := by
  cases hn with
  | self => exact Or.inl rfl
  | up hb hr => rw [h] at hb; cases hb; exact Or.inr hr

def Ok (c : Core) (Bad : Nat → Prop) (v : Nat) : Prop := ∀ u, Needs c.base v u → c.vols u = .whole ∨ Bad u

def KI (c : Core) (g : Nat → Regs) (i : Nat) : Prop :=
  (∃ n, c.names n = some (.boot i)) ∨ ∃ p, (g p).ref = some i ∨ (g p).out = some (.boot i) ∨ (g p).out2 = some (.boot i)

def KA (c : Core) (g : Nat → Regs) (j : Nat) : Prop :=
  (∃ n, c.names n = some (.pack j)) ∨ ∃ p, (g p).arc = some j ∨ (g p).out = some (.pack j) ∨ (g p).out2 = some (.pack j)

structure CInv (c : Core) (g : Nat → Regs) (Bad U : Nat → Prop) : Prop where
  a1 : ∀ i, KI c g i → i < c.next ∧ c.recVol i < c.next ∧ (c.recs i = true ∨ U i) ∧ Ok c Bad (c.recVol i)
  a2 : ∀ p v, (g p).vol = some v → v < c.next ∧ Ok c Bad v
  a3 : ∀ j i v k, c.arch j = some (i, v, k) → j < c.next ∧ i < c.next ∧ v < c.next ∧ c.recVol i = v ∧
    ∀ u, Needs c.base v u → u ≠ v → c.vols u = .whole ∨ Bad u
  a4 : ∀ j, KA c g j → (c.arch j).isSome = true
  a5 : ∀ v u, c.base v = some u → u < v ∧ v < c.next

theorem CInv.mono {c : Core} {g : Nat → Regs} {B U B' U' : Nat → Prop} (h : CInv c g B U) (hb : ∀ v, B v → B' v) (hu : ∀ i, U i → U' i) :
    CInv c g B' U' where
  a1 i hi := by
    obtain ⟨h1, h2, h3, h4⟩ := h.a1 i hi
    exact ⟨h1, h2, h3.imp id (hu i), fun u hn => (h4 u hn).imp id (hb u)⟩
  a2 p v hv := ⟨(h.a2 p v hv).1, fun u hn => ((h.a2 p v hv).2 u hn).imp id (hb u)⟩
  a3 j i v k hj := by
    obtain ⟨h1, h2, h3, h4, h5⟩ := h.a3 j i v k hj
    exact ⟨h1, h2, h3, h4, fun u hn he => (h5 u hn he).imp id (hb u)⟩
  a4 := h.a4
  a5 := h.a5

theorem upd_self {α : Type} (f : Nat → α) (i : Nat) (x : α) : upd f i x i = x := by simp only [upd, if_true]
theorem upd_ne {α : Type} (f : Nat → α) {i j : Nat} (x : α) (h : j ≠ i) : upd f i x j = f j := by simp only [upd, if_neg h]

/-- Registers may change as long as what they hold is known. -/
theorem CInv.regs {c : Core} {g g' : Nat → Regs} {B U : Nat → Prop} (h : CInv c g B U)
    (hi : ∀ i, KI c g' i → KI c g i) (hv : ∀ p v, (g' p).vol = some v → (∃ q, (g q).vol = some v) ∨ ∃ i, KI c g i ∧ c.recVol i = v)
    (ha : ∀ j, KA c g' j → KA c g j) : CInv c g' B U where
  a1 i hk := h.a1 i (hi i hk)
  a2 p v hp := by
    rcases hv p v hp with ⟨q, hq⟩ | ⟨i, hk, rfl⟩
    · exact h.a2 q v hq
    · exact ⟨(h.a1 i hk).2.1, (h.a1 i hk).2.2.2⟩
  a3 := h.a3
  a4 j hk := h.a4 j (ha j hk)
  a5 := h.a5

theorem eff_inv {st : Step} {b : Bool} {c c' : Core} {g : Nat → Regs} {p : Nat} {r' : Regs} {B U : Nat → Prop}
    (he : Eff st b c (g p) c' r') (h : CInv c g B U)
    (h1 : st = .delVol → ∀ v, (g p).vol = some v → B v)
    (h2 : st = .delRec → ∀ i, (g p).ref = some i → U i)
    (h3 : st = .unpack → b = false → ∀ j i v k, (g p).arc = some j → c.arch j = some (i, v, k) → B v) :
    CInv c' (upd g p r') B U := by
  generalize hgp : g p = r at he
  have hb : ∀ v u, c.base v = some u → u < v := fun v u hv => (h.a5 v u hv).1
  cases he with
  | idle s b c' r =>
    have : upd g p r' = g := by funext q; simp only [upd]; grind
    rw [this]; exact h
  | load b c' r n i hn =>
    apply h.regs <;> simp only [KI, KA, upd] <;> grind
  | loadAr b c' r n i hn =>
    apply h.regs <;> simp only [KI, KA, upd] <;> grind
  | useVol s b c' r i hi hs =>
    apply h.regs <;> simp only [KI, KA, upd] <;> grind
  | mkVol =>
    refine ⟨?_, ?_, ?_, ?_, ?_⟩
    · intro i hk
      have hk' : KI c g i := by revert hk; simp only [KI, upd]; grind
      obtain ⟨k1, k2, k3, k4⟩ := h.a1 i hk'
      refine ⟨by dsimp only; omega, by dsimp only; omega, k3, fun u hn => ?_⟩
      have := needs_le hb hn
      dsimp only at this ⊢
      rw [upd_ne _ _ (by omega)]
      exact k4 u hn
    · intro q v hv
      by_cases hq : (g q).vol = some v
      · obtain ⟨k1, k2⟩ := h.a2 q v hq
        refine ⟨by dsimp only; omega, fun u hn => ?_⟩
        have := needs_le hb hn
        dsimp only at this ⊢
        rw [upd_ne _ _ (by omega)]
        exact k2 u hn
      · have hv' : v = c.next := by revert hv; simp only [upd]; grind
        subst hv'
        refine ⟨by dsimp only; omega, fun u hn => ?_⟩
        have hbn : c.base c.next = none := by
          rcases hx : c.base c.next with _ | w
          · rfl
          · have := (h.a5 _ _ hx).2; omega
        have := needs_none hbn hn
        subst this
        left; dsimp only; rw [upd_self]
    · intro j i v k hj
      obtain ⟨k1, k2, k3, k4, k5⟩ := h.a3 j i v k hj
      refine ⟨by dsimp only; omega, by dsimp only; omega, by dsimp only; omega, k4, fun u hn hne => ?_⟩
      have := needs_le hb hn
      dsimp only at this ⊢
      rw [upd_ne _ _ (by omega)]
      exact k5 u hn hne
    · intro j hk
      exact h.a4 j (by revert hk; simp only [KA, upd]; grind)
    · intro v u hv
      have := h.a5 v u hv
      exact ⟨this.1, by dsimp only; omega⟩
  | halfVol =>
    have hu : upd g p r' = g := by funext q; simp only [upd]; grind
    rw [hu]
    refine ⟨?_, ?_, ?_, ?_, ?_⟩
    · intro i hk
      obtain ⟨k1, k2, k3, k4⟩ := h.a1 i hk
      refine ⟨by dsimp only; omega, by dsimp only; omega, k3, fun u hn => ?_⟩
      have := needs_le hb hn
      dsimp only at this ⊢
      rw [upd_ne _ _ (by omega)]
      exact k4 u hn
    · intro q v hq
      obtain ⟨k1, k2⟩ := h.a2 q v hq
      refine ⟨by dsimp only; omega, fun u hn => ?_⟩
      have := needs_le hb hn
      dsimp only at this ⊢
      rw [upd_ne _ _ (by omega)]
      exact k2 u hn
    · intro j i v k hj
      obtain ⟨k1, k2, k3, k4, k5⟩ := h.a3 j i v k hj
      refine ⟨by dsimp only; omega, by dsimp only; omega, by dsimp only; omega, k4, fun u hn hne => ?_⟩
      have := needs_le hb hn
      dsimp only at this ⊢
      rw [upd_ne _ _ (by omega)]
      exact k5 u hn hne
    · exact h.a4
    · intro v u hv
      have := h.a5 v u hv
      exact ⟨this.1, by dsimp only; omega⟩
  | saveRec b c' r v hv g' hg =>
    obtain ⟨v1, v2⟩ := h.a2 p v (by rw [hgp]; exact hv)
    refine ⟨?_, ?_, ?_, ?_, ?_⟩
    · intro i hk
      have hk' : KI c g i ∨ i = c.next := by revert hk; simp only [KI, upd]; grind
      rcases hk' with hk' | rfl
      · obtain ⟨k1, k2, k3, k4⟩ := h.a1 i hk'
        dsimp only
        rw [upd_ne _ _ (by omega), upd_ne _ _ (by omega)]
        exact ⟨by omega, by omega, k3, k4⟩
      · dsimp only
        rw [upd_self, upd_self]
        exact ⟨by omega, by omega, Or.inl rfl, v2⟩
    · intro q w hw
      have hq : (g q).vol = some w := by revert hw; simp only [upd]; grind
      obtain ⟨k1, k2⟩ := h.a2 q w hq
      exact ⟨by dsimp only; omega, k2⟩
    · intro j i w k hj
      obtain ⟨k1, k2, k3, k4, k5⟩ := h.a3 j i w k hj
      dsimp only
      rw [upd_ne _ _ (by omega)]
      exact ⟨by omega, by omega, by omega, k4, k5⟩
    · intro j hk
      exact h.a4 j (by revert hk; simp only [KA, upd]; grind)
    · intro w u hw
      have := h.a5 w u hw
      exact ⟨this.1, by dsimp only; omega⟩
  | fork b c' r i hi =>
    obtain ⟨r1, r2, r3, r4⟩ := h.a1 i (Or.inr ⟨p, Or.inl (by rw [hgp]; exact hi)⟩)
    have hbel : ∀ w, w < c.next →
        upd (upd c.base c.next (some (c.recVol i))) (c.next + 1) (some (c.recVol i)) w = c.base w := by
      intro w hw
      rw [upd_ne _ _ (by omega), upd_ne _ _ (by omega)]
    have hvol : ∀ w, w < c.next → upd (upd c.vols c.next .whole) (c.next + 1) .whole w = c.vols w := by
      intro w hw
      rw [upd_ne _ _ (by omega), upd_ne _ _ (by omega)]
    have hold : ∀ w, w < c.next → Ok c B w → ∀ u,
        Needs (upd (upd c.base c.next (some (c.recVol i))) (c.next + 1) (some (c.recVol i))) w u →
        upd (upd c.vols c.next .whole) (c.next + 1) .whole u = .whole ∨ B u := by
      intro w hw hok u hn
      have hn' := needs_below hb hbel hw hn
      have := needs_le hb hn'
      rw [hvol u (by omega)]
      exact hok u hn'
    have hnew : ∀ w, w = c.next ∨ w = c.next + 1 → ∀ u,
        Needs (upd (upd c.base c.next (some (c.recVol i))) (c.next + 1) (some (c.recVol i))) w u →
        upd (upd c.vols c.next .whole) (c.next + 1) .whole u = .whole ∨ B u := by
      intro w hw u hn
      have hbw : upd (upd c.base c.next (some (c.recVol i))) (c.next + 1) (some (c.recVol i)) w = some (c.recVol i) := by
        simp only [upd]; grind
      rcases needs_some hbw hn with rfl | hn'
      · left; simp only [upd]; grind
      · exact hold _ r2 r4 u hn'
    refine ⟨?_, ?_, ?_, ?_, ?_⟩
    · intro x hk
      have hk' : KI c g x ∨ x = c.next ∨ x = c.next + 1 := by revert hk; simp only [KI, upd]; grind
      rcases hk' with hk' | hk'
      · obtain ⟨k1, k2, k3, k4⟩ := h.a1 x hk'
        dsimp only [Ok]
        rw [upd_ne _ _ (by omega), upd_ne _ _ (by omega), upd_ne _ _ (by omega), upd_ne _ _ (by omega)]
        exact ⟨by omega, by omega, k3, hold _ k2 k4⟩
      · dsimp only [Ok]
        have e1 : upd (upd c.recVol c.next c.next) (c.next + 1) (c.next + 1) x = x := by simp only [upd]; grind
        have e2 : upd (upd c.recs c.next true) (c.next + 1) true x = true := by simp only [upd]; grind
        rw [e1, e2]
        exact ⟨by omega, by omega, Or.inl rfl, hnew x hk'⟩
    · intro q w hw
      have hq : (g q).vol = some w ∨ w = c.next + 1 := by revert hw; simp only [upd]; grind
      rcases hq with hq | hq
      · obtain ⟨k1, k2⟩ := h.a2 q w hq
        exact ⟨by dsimp only; omega, hold w k1 k2⟩
      · exact ⟨by dsimp only; omega, hnew w (Or.inr hq)⟩
    · intro j x w k hj
      obtain ⟨k1, k2, k3, k4, k5⟩ := h.a3 j x w k hj
      dsimp only
      rw [upd_ne _ _ (by omega), upd_ne _ _ (by omega)]
      refine ⟨by omega, by omega, by omega, k4, fun u hn hne => ?_⟩
      have hn' := needs_below hb hbel k3 hn
      have := needs_le hb hn'
      rw [hvol u (by omega)]
      exact k5 u hn' hne
    · intro j hk
      exact h.a4 j (by revert hk; simp only [KA, upd]; grind)
    · intro w u hw
      dsimp only at hw ⊢
      have := h.a5 w u
      revert hw; simp only [upd]; grind
  | pack b c' r i k hi =>
    obtain ⟨r1, r2, r3, r4⟩ := h.a1 i (Or.inr ⟨p, Or.inl (by rw [hgp]; exact hi)⟩)
    refine ⟨?_, ?_, ?_, ?_, ?_⟩
    · intro x hk
      obtain ⟨k1, k2, k3, k4⟩ := h.a1 x (by revert hk; simp only [KI, upd]; grind)
      exact ⟨by dsimp only; omega, by dsimp only; omega, k3, k4⟩
    · intro q w hw
      obtain ⟨k1, k2⟩ := h.a2 q w (by revert hw; simp only [upd]; grind)
      exact ⟨by dsimp only; omega, k2⟩
    · intro j x w k' hj
      dsimp only at hj ⊢
      by_cases hjn : j = c.next
      · subst hjn
        rw [upd_self] at hj
        simp only [Option.some.injEq, Prod.mk.injEq] at hj
        obtain ⟨rfl, rfl, rfl⟩ := hj
        exact ⟨by omega, by omega, by omega, rfl, fun u hn _ => r4 u hn⟩
      · rw [upd_ne _ _ hjn] at hj
        obtain ⟨k1, k2, k3, k4, k5⟩ := h.a3 j x w k' hj
        exact ⟨by omega, by omega, by omega, k4, k5⟩
    · intro j hk
      have hk' : KA c g j ∨ j = c.next := by revert hk; simp only [KA, upd]; grind
      dsimp only
      by_cases hjn : j = c.next
      · subst hjn; rw [upd_self]; rfl
      · rw [upd_ne _ _ hjn]
        exact h.a4 j (hk'.resolve_right hjn)
    · intro w u hw
      have := h.a5 w u hw
      exact ⟨this.1, by dsimp only; omega⟩
  | unpack b c' r j i v k hj hj2 =>
    obtain ⟨r1, r2, r3, r4, r5⟩ := h.a3 j i v k hj2
    have hold : ∀ w, Ok c B w → Ok { c with recs := upd c.recs i true, vols := upd c.vols v .whole } B w := by
      intro w hok u hn
      have := hok u hn
      dsimp only
      by_cases huv : u = v
      · subst huv; rw [upd_self]; exact Or.inl rfl
      · rw [upd_ne _ _ huv]; exact this
    have hv : Ok { c with recs := upd c.recs i true, vols := upd c.vols v .whole } B v := by
      intro u hn
      dsimp only
      by_cases huv : u = v
      · subst huv; rw [upd_self]; exact Or.inl rfl
      · rw [upd_ne _ _ huv]; exact r5 u hn huv
    refine ⟨?_, ?_, ?_, ?_, ?_⟩
    · intro x hk
      by_cases hxi : x = i
      · subst hxi
        dsimp only
        rw [upd_self, r4]
        exact ⟨r2, r3, Or.inl rfl, hv⟩
      · have hk' : KI c g x := by revert hk; simp only [KI, upd]; grind
        obtain ⟨k1, k2, k3, k4⟩ := h.a1 x hk'
        dsimp only
        rw [upd_ne _ _ hxi]
        exact ⟨k1, k2, k3, hold _ k4⟩
    · intro q w hw
      have hq : (g q).vol = some w ∨ w = v := by revert hw; simp only [upd]; grind
      rcases hq with hq | rfl
      · obtain ⟨k1, k2⟩ := h.a2 q w hq
        exact ⟨k1, hold w k2⟩
      · exact ⟨r3, hv⟩
    · intro j' x w k' hj'
      obtain ⟨k1, k2, k3, k4, k5⟩ := h.a3 j' x w k' hj'
      refine ⟨k1, k2, k3, k4, fun u hn hne => ?_⟩
      dsimp only
      by_cases huv : u = v
      · subst huv; rw [upd_self]; exact Or.inl rfl
      · rw [upd_ne _ _ huv]; exact k5 u hn hne
    · intro j' hk
      exact h.a4 j' (by revert hk; simp only [KA, upd]; grind)
    · exact h.a5
  | halfUnpack c' r j i v k hj hj2 =>
    have hu : upd g p r' = g := by funext q; simp only [upd]; grind
    rw [hu]
    have hbv : B v := h3 rfl rfl j i v k (by rw [hgp]; exact hj) hj2
    have hvol : ∀ u, c.vols u = .whole ∨ B u → upd c.vols v .part u = .whole ∨ B u := by
      intro u hx
      by_cases huv : u = v
      · subst huv; exact Or.inr hbv
      · rw [upd_ne _ _ huv]; exact hx
    refine ⟨?_, ?_, ?_, h.a4, h.a5⟩
    · intro x hk
      obtain ⟨k1, k2, k3, k4⟩ := h.a1 x hk
      refine ⟨k1, k2, ?_, fun u hn => hvol u (k4 u hn)⟩
      dsimp only
      by_cases hxi : x = i
      · subst hxi; rw [upd_self]; exact Or.inl rfl
      · rw [upd_ne _ _ hxi]; exact k3
    · intro q w hq
      obtain ⟨k1, k2⟩ := h.a2 q w hq
      exact ⟨k1, fun u hn => hvol u (k2 u hn)⟩
    · intro j' x w k' hj'
      obtain ⟨k1, k2, k3, k4, k5⟩ := h.a3 j' x w k' hj'
      exact ⟨k1, k2, k3, k4, fun u hn hne => hvol u (k5 u hn hne)⟩
  | save s b c' r n x hx =>
    have hu : upd g p r' = g := by funext q; simp only [upd]; grind
    rw [hu]
    refine ⟨?_, h.a2, h.a3, ?_, h.a5⟩
    · intro i hk
      exact h.a1 i (by revert hk; simp only [KI, upd]; grind)
    · intro i hk
      exact h.a4 i (by revert hk; simp only [KA, upd]; grind)
  | delVol b c' r v x hv =>
    have hu : upd g p r' = g := by funext q; simp only [upd]; grind
    rw [hu]
    have hbv : B v := h1 rfl v (by rw [hgp]; exact hv)
    have hvol : ∀ u, c.vols u = .whole ∨ B u → upd c.vols v x u = .whole ∨ B u := by
      intro u hx
      by_cases huv : u = v
      · subst huv; exact Or.inr hbv
      · rw [upd_ne _ _ huv]; exact hx
    refine ⟨?_, ?_, ?_, h.a4, h.a5⟩
    · intro x hk
      obtain ⟨k1, k2, k3, k4⟩ := h.a1 x hk
      exact ⟨k1, k2, k3, fun u hn => hvol u (k4 u hn)⟩
    · intro q w hq
      obtain ⟨k1, k2⟩ := h.a2 q w hq
      exact ⟨k1, fun u hn => hvol u (k2 u hn)⟩
    · intro j' x w k' hj'
      obtain ⟨k1, k2, k3, k4, k5⟩ := h.a3 j' x w k' hj'
      exact ⟨k1, k2, k3, k4, fun u hn hne => hvol u (k5 u hn hne)⟩
  | delRec b c' r i hi =>
    have hu : upd g p r' = g := by funext q; simp only [upd]; grind
    rw [hu]
    refine ⟨?_, h.a2, h.a3, h.a4, h.a5⟩
    intro x hk
    obtain ⟨k1, k2, k3, k4⟩ := h.a1 x hk
    refine ⟨k1, k2, ?_, k4⟩
    dsimp only
    by_cases hxi : x = i
    · subst hxi; exact Or.inr (h2 rfl x (by rw [hgp]; exact hi))
    · rw [upd_ne _ _ hxi]; exact k3
  | unlink b c' r n =>
    have hu : upd g p r' = g := by funext q; simp only [upd]; grind
    rw [hu]
    refine ⟨?_, h.a2, h.a3, ?_, h.a5⟩
    · intro i hk
      exact h.a1 i (by revert hk; simp only [KI, upd]; grind)
    · intro i hk
      exact h.a4 i (by revert hk; simp only [KA, upd]; grind)

/-! ### The processes together -/

/-- A step of a process changes nothing that counts here, or does what its next step does. -/
theorem stepProc_eff (pid : Nat) (d : Disk) (p : Proc) (o : Out) :
    (core (stepProc d p o).1 = core d ∧ regs (stepProc d p o).2.mem = regs p.mem) ∨
    ∃ st rest b, p.todo = st :: rest ∧ ⟨pid, st, p.mem, b⟩ ∈ doing pid p o ∧
      Eff st b (core d) (regs p.mem) (core (stepProc d p o).1) (regs (stepProc d p o).2.mem) := by
  have hdie : ∀ d0, core (die d0 p).1 = core d0 ∧ regs (die d0 p).2.mem = regs p.mem := by
    intro d0
    refine ⟨?_, rfl⟩
    simp only [die]
    split <;> rfl
  unfold stepProc doing
  by_cases hr : p.st = .running
  · rw [if_neg (by simp only [hr, ne_eq, not_true_eq_false, not_false_eq_true]), if_pos hr]
    rcases ht : p.todo with _ | ⟨st, rest⟩
    · exact Or.inl ⟨rfl, rfl⟩
    · cases o with
      | kill => exact Or.inl ⟨rfl, rfl⟩
      | err =>
        left
        dsimp only
        split
        · refine ⟨rfl, ?_⟩
          cases st <;> rfl
        · exact hdie d
      | late =>
        right
        refine ⟨st, rest, false, rfl, List.mem_singleton.2 rfl, ?_⟩
        dsimp only
        rw [(hdie _).1, (hdie _).2]
        exact half_eff d p.mem st
      | go k =>
        dsimp only
        rcases ha : act k d p.mem st with _ | ⟨d', m'⟩
        · exact Or.inl (hdie d)
        · exact Or.inr ⟨st, rest, true, rfl, List.mem_singleton.2 rfl, act_eff k d p.mem st d' m' ha true⟩
  · rw [if_pos hr, if_neg hr]
    exact Or.inl ⟨rfl, rfl⟩

theorem stepProc_cmd (d : Disk) (p : Proc) (o : Out) : (stepProc d p o).2.cmd = p.cmd := by
  unfold stepProc die
  repeat' split
  all_goals rfl

theorem stepProc_todo (d : Disk) (p : Proc) (o : Out) : ∃ l, p.todo = l ++ (stepProc d p o).2.todo := by
  unfold stepProc die
  split
  · exact ⟨[], rfl⟩
  · split
    · rename_i h; exact ⟨[], rfl⟩
    · rename_i s rest h
      split
      · exact ⟨[], rfl⟩
      · split
        · exact ⟨[s], by rw [h]; rfl⟩
        · exact ⟨[], rfl⟩
      · exact ⟨[], rfl⟩
      · split
        · exact ⟨[], rfl⟩
        · exact ⟨[s], by rw [h]; rfl⟩

theorem mem_doing {i : Nat} {p : Proc} {o : Out} {ev : Ev} (h : ev ∈ doing i p o) :
    ev.p = i ∧ ev.m = p.mem ∧ ∃ rest, p.todo = ev.s :: rest := by
  unfold doing at h
  split at h
  · split at h
    · rename_i st rest k ht
      rw [List.mem_singleton.1 h]; exact ⟨rfl, rfl, rest, ht⟩
    · rename_i st rest ht
      rw [List.mem_singleton.1 h]; exact ⟨rfl, rfl, rest, ht⟩
    · cases h
  · cases h

/-- Everybody keeps to the program of their command. -/
structure Wf (c0 : Nat → Cmd) (s : Sys) : Prop where
  cmd : ∀ p, (s.p p).cmd = c0 p
  todo : ∀ p, ∃ l, prog (c0 p) = l ++ (s.p p).todo
  hist : ∀ ev ∈ s.hist, ev.s ∈ prog (c0 ev.p)

theorem step_wf {c0 : Nat → Cmd} {s : Sys} (e : Nat × Out) (h : Wf c0 s) : Wf c0 (step s e) where
  cmd p := by
    simp only [step, upd]
    split
    · rename_i hp; subst hp; rw [stepProc_cmd]; exact h.cmd _
    · exact h.cmd p
  todo p := by
    simp only [step, upd]
    split
    · rename_i hp; subst hp
      obtain ⟨l, hl⟩ := h.todo e.1
      obtain ⟨l2, hl2⟩ := stepProc_todo s.d (s.p e.1) e.2
      exact ⟨l ++ l2, by rw [hl, hl2, List.append_assoc]⟩
    · exact h.todo p
  hist ev hev := by
    simp only [step, List.mem_append] at hev
    rcases hev with hev | hev
    · obtain ⟨h1, _, rest, h3⟩ := mem_doing hev
      obtain ⟨l, hl⟩ := h.todo e.1
      rw [h1, hl, h3]
      simp only [List.mem_append, List.mem_cons, true_or, or_true]
    · exact h.hist ev hev

def gr (s : Sys) : Nat → Regs := fun p => regs (s.p p).mem

/-- A step of the whole. -/
theorem step_eff {c0 : Nat → Cmd} {s : Sys} (e : Nat × Out) (h : Wf c0 s) :
    (core (step s e).d = core s.d ∧ gr (step s e) = gr s) ∨
    ∃ st b r', st ∈ prog (c0 e.1) ∧ ⟨e.1, st, (s.p e.1).mem, b⟩ ∈ (step s e).hist ∧ gr (step s e) = upd (gr s) e.1 r' ∧
      Eff st b (core s.d) (gr s e.1) (core (step s e).d) r' := by
  have hg : gr (step s e) = upd (gr s) e.1 (regs (stepProc s.d (s.p e.1) e.2).2.mem) := by
    funext p
    simp only [gr, step, upd]
    split <;> rfl
  rcases stepProc_eff e.1 s.d (s.p e.1) e.2 with ⟨h1, h2⟩ | ⟨st, rest, b, h1, h2, h3⟩
  · left
    refine ⟨h1, ?_⟩
    rw [hg, h2]
    funext p
    simp only [upd, gr]
    split
    · rename_i hp; rw [hp]
    · rfl
  · right
    refine ⟨st, b, _, ?_, List.mem_append_left _ h2, hg, h3⟩
    obtain ⟨l, hl⟩ := h.todo e.1
    rw [hl, h1]
    simp only [List.mem_append, List.mem_cons, true_or, or_true]

theorem eff_arch {st : Step} {b : Bool} {c c' : Core} {r r' : Regs} (h : Eff st b c r c' r') (hf : ∀ j x, c.arch j = some x → j < c.next)
    (j : Nat) (x : Nat × Nat × Nat) (hj : c.arch j = some x) : c'.arch j = some x := by
  cases h
  case pack i k hi =>
    dsimp only
    rw [upd_ne _ _ (by have := hf j x hj; omega)]; exact hj
  all_goals exact hj

def Bad (s : Sys) (v : Nat) : Prop := Removed s v ∨ HalfRestored s v

theorem step_inv {c0 : Nat → Cmd} {s : Sys} (e : Nat × Out) (hw : Wf c0 s) (h : CInv (core s.d) (gr s) (Bad s) (Unbooted s)) :
    CInv (core (step s e).d) (gr (step s e)) (Bad (step s e)) (Unbooted (step s e)) := by
  have hmem : ∀ ev ∈ s.hist, ev ∈ (step s e).hist := fun ev hev => List.mem_append_right _ hev
  have hf : ∀ j x, (core s.d).arch j = some x → j < (core s.d).next := by
    intro j x hx
    obtain ⟨i, v, k⟩ := x
    exact (h.a3 j i v k hx).1
  have hu : ∀ i, Unbooted s i → Unbooted (step s e) i := fun i ⟨ev, h1, h2⟩ => ⟨ev, hmem ev h1, h2⟩
  have harch : ∀ j x, s.d.arch j = some x → (step s e).d.arch j = some x := by
    intro j x hx
    rcases step_eff e hw with ⟨h1, h2⟩ | ⟨st, b, r', h1, h2, h3, h4⟩
    · have : (core (step s e).d).arch = (core s.d).arch := by rw [h1]
      rw [show (step s e).d.arch = s.d.arch from this]; exact hx
    · exact eff_arch h4 hf j x hx
  have hb : ∀ v, Bad s v → Bad (step s e) v := by
    rintro v (⟨ev, h1, h2⟩ | ⟨ev, h1, h2, h3, j, i, k, h4, h5⟩)
    · exact Or.inl ⟨ev, hmem ev h1, h2⟩
    · exact Or.inr ⟨ev, hmem ev h1, h2, h3, j, i, k, h4, harch _ _ h5⟩
  have h' := h.mono hb hu
  rcases step_eff e hw with ⟨h1, h2⟩ | ⟨st, b, r', h1, h2, h3, h4⟩
  · rw [h1, h2]; exact h'
  · rw [h3]
    refine eff_inv h4 h' ?_ ?_ ?_
    · rintro rfl v hv
      exact Or.inl ⟨_, h2, rfl, hv⟩
    · rintro rfl i hi
      exact ⟨_, h2, rfl, hi⟩
    · rintro rfl rfl j i v k hj hj2
      exact Or.inr ⟨_, h2, rfl, rfl, j, i, k, hj, harch _ _ hj2⟩

/-- The commands of the processes. -/
def cmds (s : Sys) : Nat → Cmd := fun p => (s.p p).cmd

theorem start_wf {s : Sys} (h : Start s) : Wf (cmds s) s where
  cmd _ := rfl
  todo p := by
    obtain ⟨c, hc⟩ := h.procs p
    exact ⟨[], by simp only [cmds, hc, start, List.nil_append]⟩
  hist ev hev := by rw [h.hist] at hev; cases hev

theorem start_inv {s : Sys} (h : Start s) : CInv (core s.d) (gr s) (Bad s) (Unbooted s) := by
  have hg : ∀ p, gr s p = ⟨none, none, none, none, none⟩ := by
    intro p
    obtain ⟨c, hc⟩ := h.procs p
    simp only [gr, hc]; rfl
  refine ⟨?_, ?_, ?_, ?_, ?_⟩
  · intro i hk
    simp only [KI, hg, reduceCtorEq, or_self, exists_const, or_false] at hk
    obtain ⟨n, hn⟩ := hk
    have h1 := h.sound.names n _ hn
    have h2 := h.sound.ids n i hn
    exact ⟨h2.1, h2.2, Or.inl h1.1, fun u hu => Or.inl (h1.2 u hu)⟩
  · intro p v hv
    rw [hg] at hv; cases hv
  · intro j i v k hj
    obtain ⟨k1, k2, k3, k4, k5⟩ := h.sound.arch j i v k hj
    exact ⟨k1, k2, k3, k4, fun u hn hne => Or.inl (k5 u hn hne)⟩
  · intro j hk
    simp only [KA, hg, reduceCtorEq, or_self, exists_const, or_false] at hk
    obtain ⟨n, hn⟩ := hk
    exact h.sound.names n _ hn
  · exact h.sound.base

theorem run_wf {c0 : Nat → Cmd} {s : Sys} (h : Wf c0 s) (tr : List (Nat × Out)) : Wf c0 (run s tr) := by
  induction tr generalizing s with
  | nil => exact h
  | cons e tr ih => exact ih (step_wf e h)

theorem run_inv {c0 : Nat → Cmd} {s : Sys} (hw : Wf c0 s) (h : CInv (core s.d) (gr s) (Bad s) (Unbooted s)) (tr : List (Nat × Out)) :
    CInv (core (run s tr).d) (gr (run s tr)) (Bad (run s tr)) (Unbooted (run s tr)) := by
  induction tr generalizing s with
  | nil => exact h
  | cons e tr ih => exact ih (step_wf e hw) (step_inv e hw h)

/-- **C75** (the full statement would have no exceptions; see the witnesses).  Any commands run at the same time on one repository, each
stopped anywhere by an error or a kill: what a name refers to is there, but for what some removal has removed, or some failing restore has
overwritten. -/
theorem C75_named_partial {s : Sys} (h : Start s) (tr : List (Nat × Out)) (n : Nat) :
    (∀ i, (run s tr).d.names n = some (.boot i) →
      ((run s tr).d.recs i = true ∨ Unbooted (run s tr) i) ∧
      ∀ u, Needs (run s tr).d.base ((run s tr).d.recVol i) u →
        (run s tr).d.vols u = .whole ∨ Removed (run s tr) u ∨ HalfRestored (run s tr) u) ∧
    (∀ j, (run s tr).d.names n = some (.pack j) → ((run s tr).d.arch j).isSome = true) := by
  have hi := run_inv (start_wf h) (start_inv h) tr
  refine ⟨fun i hn => ?_, fun j hn => hi.a4 j (Or.inl ⟨n, hn⟩)⟩
  obtain ⟨_, _, h3, h4⟩ := hi.a1 i (Or.inl ⟨n, hn⟩)
  exact ⟨h3, h4⟩

theorem delVol_mem {c : Cmd} (h : .delVol ∈ prog c) : ∃ n, c = .rmfs n := by
  cases c <;> simp only [prog, List.mem_cons, List.not_mem_nil, reduceCtorEq, or_self, or_false, false_or] at h
  exact ⟨_, rfl⟩

theorem delRec_mem {c : Cmd} (h : .delRec ∈ prog c) : ∃ n, c = .rmfs n := by
  cases c <;> simp only [prog, List.mem_cons, List.not_mem_nil, reduceCtorEq, or_self, or_false, false_or] at h
  exact ⟨_, rfl⟩

theorem unpack_mem {c : Cmd} (h : .unpack ∈ prog c) : ∃ a n, c = .restore a n := by
  cases c <;> simp only [prog, List.mem_cons, List.not_mem_nil, reduceCtorEq, or_self, or_false, false_or] at h
  exact ⟨_, _, rfl⟩

/-- **C75**: as long as nobody removes and nobody restores, every name opens, at every moment. -/
theorem C75_named_kept {s : Sys} (h : Start s) (hr : ∀ p n, cmds s p ≠ .rmfs n) (hs : ∀ p a n, cmds s p ≠ .restore a n)
    (tr : List (Nat × Out)) (n : Nat) (r : Ref) (hn : (run s tr).d.names n = some r) : Opens (run s tr).d r := by
  have hw := run_wf (start_wf h) tr
  have h1 := C75_named_partial h tr n
  have n1 : ∀ u, ¬ Removed (run s tr) u := by
    rintro u ⟨ev, e1, e2, _⟩
    have := hw.hist ev e1
    rw [e2] at this
    obtain ⟨n, hc⟩ := delVol_mem this
    exact hr _ _ hc
  have n2 : ∀ u, ¬ HalfRestored (run s tr) u := by
    rintro u ⟨ev, e1, e2, _⟩
    have := hw.hist ev e1
    rw [e2] at this
    obtain ⟨a, n, hc⟩ := unpack_mem this
    exact hs _ _ _ hc
  have n3 : ∀ i, ¬ Unbooted (run s tr) i := by
    rintro u ⟨ev, e1, e2, _⟩
    have := hw.hist ev e1
    rw [e2] at this
    obtain ⟨n, hc⟩ := delRec_mem this
    exact hr _ _ hc
  cases r with
  | boot i =>
    obtain ⟨k1, k2⟩ := h1.1 i hn
    exact ⟨k1.resolve_right (n3 i), fun u hu => (k2 u hu).resolve_right (fun x => x.elim (n1 u) (n2 u))⟩
  | pack j => exact h1.2 j hn

/-! ### Removals touch their own -/

theorem mkVol_mem {c : Cmd} (h : .mkVol ∈ prog c) : ∃ n, c = .mkfs n := by
  cases c <;> simp only [prog, List.mem_cons, List.not_mem_nil, reduceCtorEq, or_self, or_false, false_or] at h
  exact ⟨_, rfl⟩

theorem saveRec_mem {c : Cmd} (h : .saveRec ∈ prog c) : ∃ n, c = .mkfs n := by
  cases c <;> simp only [prog, List.mem_cons, List.not_mem_nil, reduceCtorEq, or_self, or_false, false_or] at h
  exact ⟨_, rfl⟩

theorem fork_mem {c : Cmd} (h : .fork ∈ prog c) : ∃ m n, c = .snap m n := by
  cases c <;> simp only [prog, List.mem_cons, List.not_mem_nil, reduceCtorEq, or_self, or_false, false_or] at h
  exact ⟨_, _, rfl⟩

theorem pack_mem {c : Cmd} (h : .pack ∈ prog c) : ∃ m n, c = .archive m n := by
  cases c <;> simp only [prog, List.mem_cons, List.not_mem_nil, reduceCtorEq, or_self, or_false, false_or] at h
  exact ⟨_, _, rfl⟩

theorem save_mem {c : Cmd} {n : Nat} (h : .save n ∈ prog c) :
    c = .mkfs n ∨ (∃ m, c = .archive m n) ∨ (∃ m, c = .restore m n) ∨ ∃ m, c = .snap m n := by
  cases c <;> simp only [prog, List.mem_cons, List.not_mem_nil, reduceCtorEq, or_self, or_false, false_or, Step.save.injEq] at h
  · subst h; exact Or.inl rfl
  · subst h; exact Or.inr (Or.inl ⟨_, rfl⟩)
  · subst h; exact Or.inr (Or.inr (Or.inl ⟨_, rfl⟩))
  · subst h; exact Or.inr (Or.inr (Or.inr ⟨_, rfl⟩))

theorem save2_mem {c : Cmd} {n : Nat} (h : .save2 n ∈ prog c) : ∃ s, c = .snap n s := by
  cases c <;> simp only [prog, List.mem_cons, List.not_mem_nil, reduceCtorEq, or_self, or_false, false_or, Step.save2.injEq] at h
  subst h; exact ⟨_, rfl⟩

theorem load_mem {c : Cmd} {n : Nat} (h : .load n ∈ prog c) :
    c = .mount n ∨ c = .fsck n ∨ c = .rmfs n ∨ (∃ a, c = .archive n a) ∨ ∃ s, c = .snap n s := by
  cases c <;> simp only [prog, List.mem_cons, List.not_mem_nil, reduceCtorEq, or_self, or_false, false_or, Step.load.injEq] at h
  · subst h; exact Or.inl rfl
  · subst h; exact Or.inr (Or.inl rfl)
  · subst h; exact Or.inr (Or.inr (Or.inl rfl))
  · subst h; exact Or.inr (Or.inr (Or.inr (Or.inl ⟨_, rfl⟩)))
  · subst h; exact Or.inr (Or.inr (Or.inr (Or.inr ⟨_, rfl⟩)))

theorem openFs_mem {c : Cmd} (h : .openFs ∈ prog c ∨ .super ∈ prog c) : (∀ n, c ≠ .mkfs n) ∧ ∀ a n, c ≠ .restore a n := by
  cases c <;> simp only [prog, List.mem_cons, List.not_mem_nil, reduceCtorEq, or_self, or_false, false_or] at h <;>
    exact ⟨nofun, nofun⟩

/-- Names some process is to remove. -/
def Tgt (cm : Nat → Cmd) (n : Nat) : Prop := ∃ p, cm p = .rmfs n

/-- Records behind such a name. -/
def TI (cm : Nat → Cmd) (U : Nat → Prop) (c : Core) (g : Nat → Regs) (i : Nat) : Prop :=
  U i ∨ (∃ n, Tgt cm n ∧ c.names n = some (.boot i)) ∨ ∃ p,
    (∃ n, cm p = .rmfs n ∧ (g p).ref = some i) ∨ (∃ n, cm p = .mkfs n ∧ Tgt cm n ∧ (g p).out = some (.boot i)) ∨
    ∃ m n, cm p = .snap m n ∧ Tgt cm n ∧ (g p).out = some (.boot i)

/-- Records behind the other names. -/
def FI (cm : Nat → Cmd) (c : Core) (g : Nat → Regs) (i : Nat) : Prop :=
  (∃ n, ¬ Tgt cm n ∧ c.names n = some (.boot i)) ∨ ∃ p,
    (∃ n, cm p = .mkfs n ∧ ¬ Tgt cm n ∧ (g p).out = some (.boot i)) ∨
    ∃ m n, cm p = .snap m n ∧ ((g p).ref = some i ∨ (g p).out2 = some (.boot i) ∨ ¬ Tgt cm n ∧ (g p).out = some (.boot i))

def TV (cm : Nat → Cmd) (R U : Nat → Prop) (c : Core) (g : Nat → Regs) (v : Nat) : Prop :=
  R v ∨ (∃ i, TI cm U c g i ∧ c.recVol i = v) ∨ ∃ p,
    (∃ n, cm p = .rmfs n ∧ (g p).vol = some v) ∨ ∃ n, cm p = .mkfs n ∧ Tgt cm n ∧ (g p).vol = some v

def FV (cm : Nat → Cmd) (c : Core) (g : Nat → Regs) (v : Nat) : Prop :=
  (∃ i, FI cm c g i ∧ c.recVol i = v) ∨ ∃ p,
    (∃ n, cm p = .mkfs n ∧ ¬ Tgt cm n ∧ (g p).vol = some v) ∨ ∃ m n, cm p = .snap m n ∧ (g p).vol = some v

structure DInv (cm : Nat → Cmd) (R U : Nat → Prop) (c : Core) (g : Nat → Regs) : Prop where
  apart : ∀ v w, TV cm R U c g v → FV cm c g w → ¬ Needs c.base w v
  arch : ∀ p m a i, cm p = .archive m a → (g p).out ≠ some (.boot i)
  rb : ∀ v, R v → v < c.next
  ub : ∀ i, U i → i < c.next ∧ c.recVol i < c.next

theorem ti_ki {cm : Nat → Cmd} {U : Nat → Prop} {c : Core} {g : Nat → Regs} {i : Nat} (h : TI cm U c g i) : U i ∨ KI c g i := by
  unfold TI at h; unfold KI; grind

theorem fi_ki {cm : Nat → Cmd} {c : Core} {g : Nat → Regs} {i : Nat} (h : FI cm c g i) : KI c g i := by
  unfold FI at h; unfold KI; grind

theorem tv_lt {cm : Nat → Cmd} {R U B V : Nat → Prop} {c : Core} {g : Nat → Regs} {v : Nat} (hd : DInv cm R U c g) (hc : CInv c g B V)
    (h : TV cm R U c g v) : v < c.next := by
  rcases h with h | ⟨i, h, rfl⟩ | ⟨p, ⟨n, _, h⟩ | ⟨n, _, _, h⟩⟩
  · exact hd.rb v h
  · rcases ti_ki h with h | h
    · exact (hd.ub i h).2
    · exact (hc.a1 i h).2.1
  · exact (hc.a2 p v h).1
  · exact (hc.a2 p v h).1

theorem fv_lt {cm : Nat → Cmd} {B V : Nat → Prop} {c : Core} {g : Nat → Regs} {v : Nat} (hc : CInv c g B V)
    (h : FV cm c g v) : v < c.next := by
  rcases h with ⟨i, h, rfl⟩ | ⟨p, ⟨n, _, _, h⟩ | ⟨m, n, _, h⟩⟩
  · exact (hc.a1 i (fi_ki h)).2.1
  · exact (hc.a2 p v h).1
  · exact (hc.a2 p v h).1

theorem base_next {B V : Nat → Prop} {c : Core} {g : Nat → Regs} (hc : CInv c g B V) : c.base c.next = none := by
  rcases hx : c.base c.next with _ | w
  · rfl
  · have := (hc.a5 _ _ hx).2; omega

set_option maxHeartbeats 4000000 in
theorem eff_apart {st : Step} {b : Bool} {c c' : Core} {g : Nat → Regs} {p : Nat} {r' : Regs} {R U B V : Nat → Prop} {cm : Nat → Cmd}
    (he : Eff st b c (g p) c' r') (hc : CInv c g B V) (h : DInv cm R U c g) (hst : st ∈ prog (cm p))
    (hnr : ∀ q a n, cm q ≠ .restore a n) (hns : ∀ q m n, cm q = .snap m n → ¬ Tgt cm m) :
    DInv cm (fun v => R v ∨ st = .delVol ∧ (g p).vol = some v) (fun i => U i ∨ st = .delRec ∧ (g p).ref = some i) c' (upd g p r') := by
  have hb : ∀ v u, c.base v = some u → u < v := fun v u hv => (hc.a5 v u hv).1
  -- what is removed was already behind a target
  have hR : ∀ v, (R v ∨ st = .delVol ∧ (g p).vol = some v) → TV cm R U c g v := by
    rintro v (hv | ⟨rfl, hv⟩)
    · exact Or.inl hv
    · obtain ⟨n, hn⟩ := delVol_mem hst
      exact Or.inr (Or.inr ⟨p, Or.inl ⟨n, hn, hv⟩⟩)
  have hU : ∀ i, (U i ∨ st = .delRec ∧ (g p).ref = some i) → TI cm U c g i := by
    rintro i (hi | ⟨rfl, hi⟩)
    · exact Or.inl hi
    · obtain ⟨n, hn⟩ := delRec_mem hst
      exact Or.inr (Or.inr ⟨p, Or.inl ⟨n, hn, hi⟩⟩)
  have hrb : ∀ v, (R v ∨ st = .delVol ∧ (g p).vol = some v) → v < c.next := fun v hv => tv_lt h hc (hR v hv)
  have hub : ∀ i, (U i ∨ st = .delRec ∧ (g p).ref = some i) → i < c.next ∧ c.recVol i < c.next := by
    intro i hi
    rcases ti_ki (hU i hi) with hk | hk
    · exact h.ub i hk
    · exact ⟨(hc.a1 i hk).1, (hc.a1 i hk).2.1⟩
  generalize hR' : (fun v => R v ∨ st = .delVol ∧ (g p).vol = some v) = R' at *
  generalize hU' : (fun i => U i ∨ st = .delRec ∧ (g p).ref = some i) = U' at *
  have hR2 : ∀ v, R' v → TV cm R U c g v := by rw [← hR']; exact hR
  have hU2 : ∀ v, U' v → TI cm U c g v := by rw [← hU']; exact hU
  have hrb2 : ∀ v, R' v → v < c.next := by rw [← hR']; exact hrb
  have hub2 : ∀ v, U' v → v < c.next ∧ c.recVol v < c.next := by rw [← hU']; exact hub
  clear hR' hU' hR hU hrb hub
  -- nothing new on either side
  have easy : ∀ (nm : Nat → Option Ref) (rc : Nat → Bool) (vo : Nat → Vs) (ar : Nat → Option (Nat × Nat × Nat)) (nx : Nat), c.next ≤ nx →
      (∀ i, TI cm U' ⟨nm, rc, c.recVol, ar, vo, c.base, nx⟩ (upd g p r') i → TI cm U c g i) →
      (∀ i, FI cm ⟨nm, rc, c.recVol, ar, vo, c.base, nx⟩ (upd g p r') i → FI cm c g i) →
      (∀ v, (r'.vol = some v → (g p).vol = some v) ∨ ∃ i, (g p).ref = some i ∧ c.recVol i = v ∧ ∀ n, cm p ≠ .mkfs n) →
      (∀ m a i, cm p = .archive m a → r'.out ≠ some (.boot i)) →
      DInv cm R' U' ⟨nm, rc, c.recVol, ar, vo, c.base, nx⟩ (upd g p r') := by
    intro nm rc vo ar nx hnx ht hf hv ho
    refine ⟨?_, ?_, ?_, ?_⟩
    · intro v w htv hfv
      refine h.apart v w ?_ ?_
      · rcases htv with hr | ⟨i, hi, rfl⟩ | ⟨q, hq⟩
        · exact hR2 v hr
        · exact Or.inr (Or.inl ⟨i, ht i hi, rfl⟩)
        · by_cases hqp : q = p
          · subst hqp
            rw [upd_self] at hq
            rcases hq with ⟨n, h1, h2⟩ | ⟨n, h1, h2, h3⟩
            · rcases hv v with hv | ⟨i, h4, h5, h6⟩
              · exact Or.inr (Or.inr ⟨q, Or.inl ⟨n, h1, hv h2⟩⟩)
              · exact Or.inr (Or.inl ⟨i, Or.inr (Or.inr ⟨q, Or.inl ⟨n, h1, h4⟩⟩), h5⟩)
            · rcases hv v with hv | ⟨i, h4, h5, h6⟩
              · exact Or.inr (Or.inr ⟨q, Or.inr ⟨n, h1, h2, hv h3⟩⟩)
              · exact absurd h1 (h6 n)
          · rw [upd_ne _ _ hqp] at hq
            exact Or.inr (Or.inr ⟨q, hq⟩)
      · rcases hfv with ⟨i, hi, rfl⟩ | ⟨q, hq⟩
        · exact Or.inl ⟨i, hf i hi, rfl⟩
        · by_cases hqp : q = p
          · subst hqp
            rw [upd_self] at hq
            rcases hq with ⟨n, h1, h2, h3⟩ | ⟨m, n, h1, h2⟩
            · rcases hv w with hv | ⟨i, h4, h5, h6⟩
              · exact Or.inr ⟨q, Or.inl ⟨n, h1, h2, hv h3⟩⟩
              · exact absurd h1 (h6 n)
            · rcases hv w with hv | ⟨i, h4, h5, h6⟩
              · exact Or.inr ⟨q, Or.inr ⟨m, n, h1, hv h2⟩⟩
              · exact Or.inl ⟨i, Or.inr ⟨q, Or.inr ⟨m, n, h1, Or.inl h4⟩⟩, h5⟩
          · rw [upd_ne _ _ hqp] at hq
            exact Or.inr ⟨q, hq⟩
    · intro q m a i hq
      by_cases hqp : q = p
      · subst hqp; rw [upd_self]; exact ho m a i hq
      · rw [upd_ne _ _ hqp]; exact h.arch q m a i hq
    · intro v hv
      exact Nat.lt_of_lt_of_le (hrb2 v hv) hnx
    · intro i hi
      exact ⟨Nat.lt_of_lt_of_le (hub2 i hi).1 hnx, Nat.lt_of_lt_of_le (hub2 i hi).2 hnx⟩
  have harch := h.arch p
  generalize hgp : g p = r at he harch
  cases he with
  | idle s b c' r =>
    refine easy c.names c.recs c.vols c.arch c.next (Nat.le_refl _) ?_ ?_ ?_ ?_
    · intro i hi; revert hi; simp only [TI, upd]; have := hU2 i; simp only [TI] at this; grind
    · intro i hi; revert hi; simp only [FI, upd]; grind
    · intro v; exact Or.inl (by rw [hgp]; exact id)
    · intro m a i hm; exact harch m a i hm
  | load b c' r n i hn =>
    have hl := load_mem hst
    refine easy c.names c.recs c.vols c.arch c.next (Nat.le_refl _) ?_ ?_ ?_ ?_
    · intro i hi; revert hi; simp only [TI, upd]; have := hU2 i; simp only [TI] at this
      have ht : ∀ n, cm p = .rmfs n → Tgt cm n := fun n hn => ⟨p, hn⟩
      grind
    · intro i hi; revert hi; simp only [FI, upd]; grind
    · intro v; exact Or.inl (by rw [hgp]; exact id)
    · intro m a i hm; exact harch m a i hm
  | loadAr b c' r n i hn =>
    refine easy c.names c.recs c.vols c.arch c.next (Nat.le_refl _) ?_ ?_ ?_ ?_
    · intro i hi; revert hi; simp only [TI, upd]; have := hU2 i; simp only [TI] at this; grind
    · intro i hi; revert hi; simp only [FI, upd]; grind
    · intro v; exact Or.inl (by rw [hgp]; exact id)
    · intro m a i hm; exact harch m a i hm
  | useVol s b c' r i hi hs =>
    have hm := openFs_mem (c := cm p) (by rcases hs with rfl | rfl; exact Or.inl hst; exact Or.inr hst)
    refine easy c.names c.recs c.vols c.arch c.next (Nat.le_refl _) ?_ ?_ ?_ ?_
    · intro i hi; revert hi; simp only [TI, upd]; have := hU2 i; simp only [TI] at this; grind
    · intro i hi; revert hi; simp only [FI, upd]; grind
    · intro v
      by_cases hv : v = c.recVol i
      · exact Or.inr ⟨i, by rw [hgp]; exact hi, hv.symm, hm.1⟩
      · left; intro hx; simp only [Option.some.injEq] at hx; exact absurd hx.symm hv
    · intro m a i hm; exact harch m a i hm
  | mkVol b c' r =>
    obtain ⟨n0, hn0⟩ := mkVol_mem hst
    have hti : ∀ i, TI cm U' { c with vols := upd c.vols c.next .whole, next := c.next + 1 } (upd g p { r with vol := some c.next }) i →
        TI cm U c g i := by
      intro i hi; revert hi; simp only [TI, upd]; have := hU2 i; simp only [TI] at this; grind
    have hfi : ∀ i, FI cm { c with vols := upd c.vols c.next .whole, next := c.next + 1 } (upd g p { r with vol := some c.next }) i →
        FI cm c g i := by
      intro i hi; revert hi; simp only [FI, upd]; grind
    refine ⟨?_, ?_, ?_, ?_⟩
    · intro v w htv hfv
      dsimp only
      have htv' : TV cm R U c g v ∨ v = c.next ∧ Tgt cm n0 := by
        rcases htv with hr | ⟨i, hi, rfl⟩ | ⟨q, hq⟩
        · exact Or.inl (hR2 v hr)
        · exact Or.inl (Or.inr (Or.inl ⟨i, hti i hi, rfl⟩))
        · revert hq; simp only [TV, upd]; grind
      have hfv' : FV cm c g w ∨ w = c.next ∧ ¬ Tgt cm n0 := by
        rcases hfv with ⟨i, hi, rfl⟩ | ⟨q, hq⟩
        · exact Or.inl (Or.inl ⟨i, hfi i hi, rfl⟩)
        · revert hq; simp only [FV, upd]; grind
      rcases htv' with htv' | ⟨rfl, hT⟩
      · rcases hfv' with hfv' | ⟨rfl, hT⟩
        · exact h.apart v w htv' hfv'
        · intro hn
          have := needs_none (base_next hc) hn
          have := tv_lt h hc htv'
          omega
      · rcases hfv' with hfv' | ⟨rfl, hT'⟩
        · intro hn
          have := needs_le hb hn
          have := fv_lt hc hfv'
          omega
        · exact absurd hT hT'
    · intro q m a i hq
      by_cases hqp : q = p
      · subst hqp; rw [hn0] at hq; cases hq
      · rw [upd_ne _ _ hqp]; exact h.arch q m a i hq
    · intro v hv; have := hrb2 v hv; dsimp only; omega
    · intro i hi; have := hub2 i hi; dsimp only; omega
  | halfVol b c' r =>
    refine easy c.names c.recs _ c.arch (c.next + 1) (by omega) ?_ ?_ ?_ ?_
    · intro i hi; revert hi; simp only [TI, upd]; have := hU2 i; simp only [TI] at this; grind
    · intro i hi; revert hi; simp only [FI, upd]; grind
    · intro v; exact Or.inl (by rw [hgp]; exact id)
    · intro m a i hm; exact harch m a i hm
  | saveRec b c' r v hv _g hg =>
    obtain ⟨n0, hn0⟩ := saveRec_mem hst
    have hgv : r'.vol = r.vol := by rcases hg with rfl | rfl <;> rfl
    have hpv : (g p).vol = some v := by rw [hgp]; exact hv
    have hgo : ∀ i, r'.out = some (.boot i) → r.out = some (.boot i) ∨ i = c.next := by
      intro i hi
      rcases hg with rfl | rfl
      · exact Or.inl hi
      · right; simp only [Option.some.injEq, Ref.boot.injEq] at hi; exact hi.symm
    have hti : ∀ i, TI cm U' { c with recs := upd c.recs c.next true, recVol := upd c.recVol c.next v, next := c.next + 1 } (upd g p r') i →
        TI cm U c g i ∨ i = c.next ∧ Tgt cm n0 := by
      intro i hi; revert hi; simp only [TI, upd]; have := hU2 i; simp only [TI] at this; grind
    have hfi : ∀ i, FI cm { c with recs := upd c.recs c.next true, recVol := upd c.recVol c.next v, next := c.next + 1 } (upd g p r') i →
        FI cm c g i ∨ i = c.next ∧ ¬ Tgt cm n0 := by
      intro i hi; revert hi; simp only [FI, upd]; grind
    refine ⟨?_, ?_, ?_, ?_⟩
    · intro x w htv hfv
      refine h.apart x w ?_ ?_
      · rcases htv with hr | ⟨i, hi, hx⟩ | ⟨q, hq⟩
        · exact hR2 x hr
        · dsimp only at hx
          rcases hti i hi with hi | ⟨rfl, hT⟩
          · have hlt : i < c.next := by
              rcases ti_ki hi with hk | hk
              · exact (h.ub i hk).1
              · exact (hc.a1 i hk).1
            rw [upd_ne _ _ (by omega)] at hx
            exact Or.inr (Or.inl ⟨i, hi, hx⟩)
          · rw [upd_self] at hx
            subst hx
            exact Or.inr (Or.inr ⟨p, Or.inr ⟨n0, hn0, hT, hpv⟩⟩)
        · refine Or.inr (Or.inr ⟨q, ?_⟩)
          revert hq; simp only [upd]; grind
      · rcases hfv with ⟨i, hi, hx⟩ | ⟨q, hq⟩
        · dsimp only at hx
          rcases hfi i hi with hi | ⟨rfl, hT⟩
          · have hlt : i < c.next := (hc.a1 i (fi_ki hi)).1
            rw [upd_ne _ _ (by omega)] at hx
            exact Or.inl ⟨i, hi, hx⟩
          · rw [upd_self] at hx
            subst hx
            exact Or.inr ⟨p, Or.inl ⟨n0, hn0, hT, hpv⟩⟩
        · refine Or.inr ⟨q, ?_⟩
          revert hq; simp only [upd]; grind
    · intro q m a i hq
      by_cases hqp : q = p
      · subst hqp; rw [hn0] at hq; cases hq
      · rw [upd_ne _ _ hqp]; exact h.arch q m a i hq
    · intro v hv; have := hrb2 v hv; dsimp only; omega
    · intro i hi; have := hub2 i hi; dsimp only; rw [upd_ne _ _ (by omega)]; omega
  | fork b c' r i0 hi0 =>
    obtain ⟨m0, n0, hm0⟩ := fork_mem hst
    have hpr : (g p).ref = some i0 := by rw [hgp]; exact hi0
    have hF0 : FI cm c g i0 := Or.inr ⟨p, Or.inr ⟨m0, n0, hm0, Or.inl hpr⟩⟩
    have hFV0 : FV cm c g (c.recVol i0) := Or.inl ⟨i0, hF0, rfl⟩
    have hlt0 := fv_lt hc hFV0
    refine ⟨?_, ?_, ?_, ?_⟩
    · intro x w htv hfv
      have htv' : TV cm R U c g x ∨ x = c.next := by
        rcases htv with hr | ⟨i, hi, hx⟩ | ⟨q, hq⟩
        · exact Or.inl (hR2 x hr)
        · dsimp only at hx
          have hti : TI cm U c g i ∨ i = c.next := by
            revert hi; simp only [TI, upd]; have := hU2 i; simp only [TI] at this; grind
          rcases hti with hi | rfl
          · have hlt : i < c.next := by
              rcases ti_ki hi with hk | hk
              · exact (h.ub i hk).1
              · exact (hc.a1 i hk).1
            rw [upd_ne _ _ (by omega), upd_ne _ _ (by omega)] at hx
            exact Or.inl (Or.inr (Or.inl ⟨i, hi, hx⟩))
          · rw [upd_ne _ _ (by omega), upd_self] at hx
            exact Or.inr hx.symm
        · left; refine Or.inr (Or.inr ⟨q, ?_⟩)
          revert hq; simp only [upd]; grind
      have hT : x = c.next → Tgt cm n0 := by
        intro hxe
        subst hxe
        rcases htv with hr | ⟨i, hi, hx⟩ | ⟨q, hq⟩
        · have := hrb2 _ hr; omega
        · dsimp only at hx
          have hti : TI cm U c g i ∨ i = c.next ∧ Tgt cm n0 := by
            revert hi; simp only [TI, upd]; have := hU2 i; simp only [TI] at this; grind
          rcases hti with hi | ⟨_, hT⟩
          · have hlt : i < c.next ∧ c.recVol i < c.next := by
              rcases ti_ki hi with hk | hk
              · exact h.ub i hk
              · exact ⟨(hc.a1 i hk).1, (hc.a1 i hk).2.1⟩
            rw [upd_ne _ _ (by omega), upd_ne _ _ (by omega)] at hx
            omega
          · exact hT
        · have hq' : (g q).vol = some c.next := by revert hq; simp only [upd]; grind
          have := (hc.a2 q _ hq').1
          omega
      have hfv' : FV cm c g w ∨ w = c.next + 1 ∨ w = c.next ∧ ¬ Tgt cm n0 := by
        rcases hfv with ⟨i, hi, hx⟩ | ⟨q, hq⟩
        · dsimp only at hx
          have hfi : FI cm c g i ∨ i = c.next + 1 ∨ i = c.next ∧ ¬ Tgt cm n0 := by
            revert hi; simp only [FI, upd]; grind
          rcases hfi with hi | rfl | ⟨rfl, hT⟩
          · have hlt : i < c.next := (hc.a1 i (fi_ki hi)).1
            rw [upd_ne _ _ (by omega), upd_ne _ _ (by omega)] at hx
            exact Or.inl (Or.inl ⟨i, hi, hx⟩)
          · rw [upd_self] at hx
            exact Or.inr (Or.inl hx.symm)
          · rw [upd_ne _ _ (by omega), upd_self] at hx
            exact Or.inr (Or.inr ⟨hx.symm, hT⟩)
        · have : (∃ q, (∃ n, cm q = .mkfs n ∧ ¬ Tgt cm n ∧ (g q).vol = some w) ∨ ∃ m n, cm q = .snap m n ∧ (g q).vol = some w) ∨
              w = c.next + 1 := by
            revert hq; simp only [upd]; grind
          rcases this with hx | hx
          · exact Or.inl (Or.inr hx)
          · exact Or.inr (Or.inl hx)
      have hbel : ∀ w, w < c.next →
          upd (upd c.base c.next (some (c.recVol i0))) (c.next + 1) (some (c.recVol i0)) w = c.base w := by
        intro w hw
        rw [upd_ne _ _ (by omega), upd_ne _ _ (by omega)]
      have hold : ∀ w, FV cm c g w → ¬ Needs (upd (upd c.base c.next (some (c.recVol i0))) (c.next + 1) (some (c.recVol i0))) w x := by
        intro w hw hn
        have hwl := fv_lt hc hw
        have hn' := needs_below hb hbel hwl hn
        rcases htv' with hx | rfl
        · exact h.apart x w hx hw hn'
        · have := needs_le hb hn'; omega
      dsimp only
      intro hn
      rcases hfv' with hw | hw
      · exact hold w hw hn
      · have hbw : upd (upd c.base c.next (some (c.recVol i0))) (c.next + 1) (some (c.recVol i0)) w = some (c.recVol i0) := by
          simp only [upd]; grind
        rcases needs_some hbw hn with hxw | hn'
        · rcases htv' with hx | hx
          · have := tv_lt h hc hx; omega
          · have := hT hx
            rcases hw with hw | ⟨_, hw⟩
            · omega
            · exact hw this
        · exact hold _ hFV0 hn'
    · intro q m a i hq
      by_cases hqp : q = p
      · subst hqp; rw [hm0] at hq; cases hq
      · rw [upd_ne _ _ hqp]; exact h.arch q m a i hq
    · intro v hv; have := hrb2 v hv; dsimp only; omega
    · intro i hi; have := hub2 i hi; dsimp only; rw [upd_ne _ _ (by omega), upd_ne _ _ (by omega)]; omega
  | pack b c' r i k hi =>
    obtain ⟨m0, n0, hm0⟩ := pack_mem hst
    refine easy c.names c.recs c.vols _ (c.next + 1) (by omega) ?_ ?_ ?_ ?_
    · intro i hi; revert hi; simp only [TI, upd]; have := hU2 i; simp only [TI] at this; grind
    · intro i hi; revert hi; simp only [FI, upd]; grind
    · intro v; exact Or.inl (by rw [hgp]; exact id)
    · intro m a i hm; exact nofun
  | unpack b c' r j i v k hj hj2 =>
    obtain ⟨a, n, hc⟩ := unpack_mem hst
    exact absurd hc (hnr p a n)
  | halfUnpack c' r j i v k hj hj2 =>
    obtain ⟨a, n, hc⟩ := unpack_mem hst
    exact absurd hc (hnr p a n)
  | save s b c' r n x hx =>
    refine easy _ c.recs c.vols c.arch c.next (Nat.le_refl _) ?_ ?_ ?_ ?_
    · rcases hx with ⟨rfl, hx⟩ | ⟨rfl, hx⟩
      · have hs := save_mem hst
        intro i hi; revert hi; simp only [TI, upd]; have := hU2 i; simp only [TI] at this; grind
      · have hs := save2_mem hst
        intro i hi; revert hi; simp only [TI, upd]; have := hU2 i; simp only [TI] at this; grind
    · rcases hx with ⟨rfl, hx⟩ | ⟨rfl, hx⟩
      · have hs := save_mem hst
        intro i hi; revert hi; simp only [FI, upd]; grind
      · have hs := save2_mem hst
        intro i hi; revert hi; simp only [FI, upd]; grind
    · intro v; exact Or.inl (by rw [hgp]; exact id)
    · intro m a i hm; exact harch m a i hm
  | delVol b c' r v x hv =>
    refine easy c.names c.recs _ c.arch c.next (Nat.le_refl _) ?_ ?_ ?_ ?_
    · intro i hi; revert hi; simp only [TI, upd]; have := hU2 i; simp only [TI] at this; grind
    · intro i hi; revert hi; simp only [FI, upd]; grind
    · intro v; exact Or.inl (by rw [hgp]; exact id)
    · intro m a i hm; exact harch m a i hm
  | delRec b c' r i hi =>
    refine easy c.names _ c.vols c.arch c.next (Nat.le_refl _) ?_ ?_ ?_ ?_
    · intro i hi; revert hi; simp only [TI, upd]; have := hU2 i; simp only [TI] at this; grind
    · intro i hi; revert hi; simp only [FI, upd]; grind
    · intro v; exact Or.inl (by rw [hgp]; exact id)
    · intro m a i hm; exact harch m a i hm
  | unlink b c' r n =>
    refine easy _ c.recs c.vols c.arch c.next (Nat.le_refl _) ?_ ?_ ?_ ?_
    · intro i hi; revert hi; simp only [TI, upd]; have := hU2 i; simp only [TI] at this; grind
    · intro i hi; revert hi; simp only [FI, upd]; grind
    · intro v; exact Or.inl (by rw [hgp]; exact id)
    · intro m a i hm; exact harch m a i hm

theorem DInv.grow {cm : Nat → Cmd} {R U R' U' B V : Nat → Prop} {c : Core} {g : Nat → Regs} (h : DInv cm R U c g) (hc : CInv c g B V)
    (hR : ∀ v, R' v → TV cm R U c g v) (hU : ∀ i, U' i → TI cm U c g i) : DInv cm R' U' c g where
  apart v w htv hfv := by
    refine h.apart v w ?_ hfv
    rcases htv with hr | ⟨i, hi, rfl⟩ | hq
    · exact hR v hr
    · refine Or.inr (Or.inl ⟨i, ?_, rfl⟩)
      rcases hi with hi | hi
      · exact hU i hi
      · exact Or.inr hi
    · exact Or.inr (Or.inr hq)
  arch := h.arch
  rb v hv := tv_lt h hc (hR v hv)
  ub i hi := by
    rcases ti_ki (hU i hi) with hk | hk
    · exact h.ub i hk
    · exact ⟨(hc.a1 i hk).1, (hc.a1 i hk).2.1⟩

theorem DInv.shrink {cm : Nat → Cmd} {R U R' U' : Nat → Prop} {c : Core} {g : Nat → Regs} (h : DInv cm R U c g)
    (hR : ∀ v, R' v → R v) (hU : ∀ i, U' i → U i) : DInv cm R' U' c g where
  apart v w htv hfv := by
    refine h.apart v w ?_ hfv
    rcases htv with hr | ⟨i, hi, rfl⟩ | hq
    · exact Or.inl (hR v hr)
    · refine Or.inr (Or.inl ⟨i, ?_, rfl⟩)
      rcases hi with hi | hi
      · exact Or.inl (hU i hi)
      · exact Or.inr hi
    · exact Or.inr (Or.inr hq)
  arch := h.arch
  rb v hv := h.rb v (hR v hv)
  ub i hi := h.ub i (hU i hi)

theorem step_apart {cm : Nat → Cmd} {s : Sys} (e : Nat × Out) (hw : Wf cm s) (hc : CInv (core s.d) (gr s) (Bad s) (Unbooted s))
    (h : DInv cm (Removed s) (Unbooted s) (core s.d) (gr s))
    (hnr : ∀ q a n, cm q ≠ .restore a n) (hns : ∀ q m n, cm q = .snap m n → ¬ Tgt cm m) :
    DInv cm (Removed (step s e)) (Unbooted (step s e)) (core (step s e).d) (gr (step s e)) := by
  have hev : ∀ ev ∈ (step s e).hist, ev ∈ s.hist ∨ ev.m = (s.p ev.p).mem ∧ ev.s ∈ prog (cm ev.p) := by
    intro ev hm
    have h1 := (step_wf e hw).hist ev hm
    simp only [step, List.mem_append] at hm
    rcases hm with hm | hm
    · obtain ⟨k1, k2, _⟩ := mem_doing hm
      exact Or.inr ⟨by rw [k2, k1], h1⟩
    · exact Or.inl hm
  have hR : ∀ v, Removed (step s e) v → TV cm (Removed s) (Unbooted s) (core s.d) (gr s) v := by
    rintro v ⟨ev, h1, h2, h3⟩
    rcases hev ev h1 with h4 | ⟨h4, h5⟩
    · exact Or.inl ⟨ev, h4, h2, h3⟩
    · rw [h2] at h5
      obtain ⟨n, hn⟩ := delVol_mem h5
      refine Or.inr (Or.inr ⟨ev.p, Or.inl ⟨n, hn, ?_⟩⟩)
      simp only [gr, regs]; rw [← h4]; exact h3
  have hU : ∀ v, Unbooted (step s e) v → TI cm (Unbooted s) (core s.d) (gr s) v := by
    rintro v ⟨ev, h1, h2, h3⟩
    rcases hev ev h1 with h4 | ⟨h4, h5⟩
    · exact Or.inl ⟨ev, h4, h2, h3⟩
    · rw [h2] at h5
      obtain ⟨n, hn⟩ := delRec_mem h5
      refine Or.inr (Or.inr ⟨ev.p, Or.inl ⟨n, hn, ?_⟩⟩)
      simp only [gr, regs]; rw [← h4]; exact h3
  have h' := h.grow hc hR hU
  rcases step_eff e hw with ⟨h1, h2⟩ | ⟨st, b, r', h1, h2, h3, h4⟩
  · rw [h1, h2]; exact h'
  · rw [h3]
    exact (eff_apart h4 hc h' h1 hnr hns).shrink (fun v hv => Or.inl hv) (fun v hv => Or.inl hv)

theorem run_apart {cm : Nat → Cmd} {s : Sys} (hw : Wf cm s) (hc : CInv (core s.d) (gr s) (Bad s) (Unbooted s))
    (h : DInv cm (Removed s) (Unbooted s) (core s.d) (gr s))
    (hnr : ∀ q a n, cm q ≠ .restore a n) (hns : ∀ q m n, cm q = .snap m n → ¬ Tgt cm m) (tr : List (Nat × Out)) :
    DInv cm (Removed (run s tr)) (Unbooted (run s tr)) (core (run s tr).d) (gr (run s tr)) := by
  induction tr generalizing s with
  | nil => exact h
  | cons e tr ih => exact ih (step_wf e hw) (step_inv e hw hc) (step_apart e hw hc h hnr hns)

/-- **C75**: file-systems which do not share the volume itself stay apart.  Any number of makings, mounts, checks, archivings, snapshots and
removals at the same time, each stopped anywhere: a name nobody is removing opens at every moment, provided nobody takes a snapshot of a
name while it is removed, and nobody restores. -/
theorem C75_others_kept {s : Sys} (h : Start s) (ha : Apart s.d) (hs : ∀ p a n, cmds s p ≠ .restore a n)
    (hns : ∀ p q m n, cmds s p = .snap m n → cmds s q ≠ .rmfs m) (tr : List (Nat × Out)) (n : Nat)
    (hn : ∀ p, cmds s p ≠ .rmfs n) (r : Ref) (hr : (run s tr).d.names n = some r) : Opens (run s tr).d r := by
  have hg : ∀ p, gr s p = ⟨none, none, none, none, none⟩ := by
    intro p
    obtain ⟨c, hc⟩ := h.procs p
    simp only [gr, hc]; rfl
  have hR : ∀ v, ¬ Removed s v := by rintro v ⟨ev, h1, _⟩; rw [h.hist] at h1; cases h1
  have hU : ∀ v, ¬ Unbooted s v := by rintro v ⟨ev, h1, _⟩; rw [h.hist] at h1; cases h1
  have h0 : DInv (cmds s) (Removed s) (Unbooted s) (core s.d) (gr s) := by
    refine ⟨?_, ?_, fun v hv => absurd hv (hR v), fun v hv => absurd hv (hU v)⟩
    · intro v w htv hfv
      simp only [TV, TI, hg, hR, hU, reduceCtorEq, and_false, exists_const, or_self, or_false, false_or] at htv
      simp only [FV, FI, hg, reduceCtorEq, and_false, exists_const, or_self, or_false, false_or] at hfv
      obtain ⟨i, ⟨n1, t1, e1⟩, rfl⟩ := htv
      obtain ⟨j, ⟨n2, t2, e2⟩, rfl⟩ := hfv
      exact ha n2 n1 j i (fun hx => t2 (by rw [hx]; exact t1)) e2 e1
    · intro p m a i _; rw [hg]; exact nofun
  have hw := start_wf h
  have hc := start_inv h
  have hnt : ¬ Tgt (cmds s) n := fun ⟨p, hp⟩ => hn p hp
  have hd := run_apart hw hc h0 hs (fun q m n hq ⟨p, hp⟩ => hns q p m n hq hp) tr
  have h1 := C75_named_partial h tr n
  have n2 : ∀ u, ¬ HalfRestored (run s tr) u := by
    rintro u ⟨ev, e1, e2, _⟩
    have := (run_wf hw tr).hist ev e1
    rw [e2] at this
    obtain ⟨a, n, hc⟩ := unpack_mem this
    exact hs _ _ _ hc
  cases r with
  | boot i =>
    obtain ⟨k1, k2⟩ := h1.1 i hr
    have hf : FI (cmds s) (core (run s tr).d) (gr (run s tr)) i := Or.inl ⟨n, hnt, hr⟩
    have hfv : FV (cmds s) (core (run s tr).d) (gr (run s tr)) ((run s tr).d.recVol i) := Or.inl ⟨i, hf, rfl⟩
    refine ⟨k1.resolve_right (fun hu => ?_), fun u hu => (k2 u hu).resolve_right (fun x => x.elim (fun hx => ?_) (n2 u))⟩
    · exact hd.apart _ _ (Or.inr (Or.inl ⟨i, Or.inl hu, rfl⟩)) hfv (.self _)
    · exact hd.apart u _ (Or.inl hx) hfv hu
  | pack j => exact h1.2 j hr

end Silofs.Cs
