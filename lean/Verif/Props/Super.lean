import Verif.Spec.Super
import Verif.Props.Addr
import Verif.Props.AllocProps
set_option linter.unusedSimpArgs false
set_option linter.unusedVariables false
/-
C81: the super block is a faithful record of the volume, and it is accepted when loaded.
-/
namespace Silofs.Super
open Silofs Silofs.Addr Spec

/-! ### Memory -/

/-- `b'` is `b` in `[lo, hi)`. -/
def Eqv (lo hi : Nat) (b b' : Blk) : Prop := ∀ i, lo ≤ i → i < hi → b' i = b i

theorem Eqv.trans {lo hi b c d} (h : Eqv lo hi b c) (k : Eqv lo hi c d) : Eqv lo hi b d :=
  fun i h1 h2 => (k i h1 h2).trans (h i h1 h2)

theorem Eqv.refl {lo hi} (b : Blk) : Eqv lo hi b b := fun _ _ _ => rfl

theorem rd_eqv {lo hi b b'} (h : Eqv lo hi b b') (o n : Nat) (h1 : lo ≤ o) (h2 : o + n ≤ hi) :
    rd b' o n = rd b o n := by
  unfold rd
  apply List.map_congr_left
  intro j hj
  have := List.mem_range.1 hj
  exact h _ (by omega) (by omega)

theorem wr_eqv (b : Blk) (o k : Nat) (l : List Nat) (hl : l.length = k) (lo hi : Nat)
    (h : o + k ≤ lo ∨ hi ≤ o) : Eqv lo hi b (wr b o l) := by
  intro i h1 h2
  unfold wr
  rw [if_neg (by omega)]

theorem rd_wr (b : Blk) (o n : Nat) (l : List Nat) (hl : l.length = n) : rd (wr b o l) o n = l := by
  apply List.ext_getElem
  · simp [rd, hl]
  · intro j h1 h2
    simp only [rd, List.getElem_map, List.getElem_range, wr]
    rw [if_pos (by omega)]
    simp [List.getD, show o + j - o = j by omega, List.getElem?_eq_getElem h2]

theorem rd_wr_ne (b : Blk) (o k : Nat) (l : List Nat) (hl : l.length = k) (p n : Nat)
    (h : o + k ≤ p ∨ p + n ≤ o) : rd (wr b o l) p n = rd b p n :=
  rd_eqv (wr_eqv b o k l hl p (p + n) h) p n (Nat.le_refl _) (Nat.le_refl _)

theorem setAt_eqv (x : Option Nat) (b : Blk) (k : Nat) (l : List Nat) (hl : l.length = k) (lo hi : Nat)
    (h : ∀ o, x = some o → o + k ≤ lo ∨ hi ≤ o) : Eqv lo hi b (setAt x b l) := by
  unfold setAt
  split
  · exact Eqv.refl _
  · exact wr_eqv _ _ k _ hl _ _ (h _ rfl)

theorem fold_eqv (off : Nat → Option Nat) (val : Nat → List Nat) (k lo hi : Nat)
    (hl : ∀ t, (val t).length = k) (h : ∀ t o, off t = some o → o + k ≤ lo ∨ hi ≤ o) (ks : List Nat) (b : Blk) :
    Eqv lo hi b (ks.foldl (fun b t => setAt (off t) b (val t)) b) := by
  induction ks generalizing b with
  | nil => exact Eqv.refl _
  | cons t ks ih =>
    simp only [List.foldl_cons]
    exact Eqv.trans (setAt_eqv _ _ k _ (hl t) _ _ (h t)) (ih _)

/-- Places of different kinds do not overlap. -/
def Apart (off : Nat → Option Nat) (k : Nat) : Prop :=
  ∀ t s o p, off t = some o → off s = some p → t = s ∨ o + k ≤ p ∨ p + k ≤ o

theorem setAt_rd (off : Nat → Option Nat) (k : Nat) (ha : Apart off k) (t : Nat) (l : List Nat) (hl : l.length = k)
    (b : Blk) (s p : Nat) (hs : off s = some p) :
    rd (setAt (off t) b l) p k = if s = t then l else rd b p k := by
  unfold setAt
  split
  · rename_i e
    rw [if_neg]
    intro h
    rw [h, e] at hs
    exact absurd hs (by simp)
  · rename_i o e
    split
    · rename_i h
      subst h
      rw [e] at hs
      cases hs
      exact rd_wr _ _ _ _ hl
    · rename_i h
      rcases ha t s o p e hs with x | x
      · exact absurd x.symm h
      · exact rd_wr_ne _ _ k _ hl _ _ x

theorem fold_rd (off : Nat → Option Nat) (val : Nat → List Nat) (k : Nat) (hl : ∀ t, (val t).length = k)
    (ha : Apart off k) (s p : Nat) (hs : off s = some p) (ks : List Nat) (b : Blk) :
    rd (ks.foldl (fun b t => setAt (off t) b (val t)) b) p k = if s ∈ ks then val s else rd b p k := by
  induction ks generalizing b with
  | nil => simp
  | cons t ks ih =>
    simp only [List.foldl_cons]
    rw [ih, setAt_rd off k ha t (val t) (hl t) b s p hs]
    by_cases h1 : s ∈ ks
    · simp [h1]
    · by_cases h2 : s = t
      · subst h2; simp
      · simp [h1, h2]

/-! ### Places -/

theorem vnode_cases {t : Nat} (h : Space.isVnode t = true) :
    t = 5 ∨ t = 6 ∨ t = 7 ∨ t = 8 ∨ t = 9 ∨ t = 10 ∨ t = 11 ∨ t = 12 := by
  unfold Space.isVnode at h
  simp only [Bool.and_eq_true, decide_eq_true_eq] at h
  omega

theorem rootOff_some {t o : Nat} (h : rootOff t = some o) : Space.isVnode t = true ∧ 1088 ≤ o ∧ o + 64 ≤ 1600 := by
  unfold rootOff LTYPE_INODE LTYPE_XANODE LTYPE_DTNODE LTYPE_FTNODE LTYPE_SYMVAL LTYPE_DATA1K LTYPE_DATA4K
    LTYPE_DATABK at h
  unfold Space.isVnode
  simp only [Bool.and_eq_true, decide_eq_true_eq]
  repeat' split at h
  all_goals first
    | (simp only [reduceCtorEq] at h; done)
    | (simp only [Option.some.injEq] at h; omega)

theorem mainOff_some {t o : Nat} (h : mainOff t = some o) : Space.isVnode t = true ∧ 2048 ≤ o ∧ o + 32 ≤ 2304 := by
  unfold mainOff LTYPE_INODE LTYPE_XANODE LTYPE_DTNODE LTYPE_FTNODE LTYPE_SYMVAL LTYPE_DATA1K LTYPE_DATA4K
    LTYPE_DATABK at h
  unfold Space.isVnode
  simp only [Bool.and_eq_true, decide_eq_true_eq]
  repeat' split at h
  all_goals first
    | (simp only [reduceCtorEq] at h; done)
    | (simp only [Option.some.injEq] at h; omega)

theorem ivOff_some {t o : Nat} (h : ivOff t = some o) : Space.isVnode t = true ∧ 3088 ≤ o ∧ o + 16 ≤ 3216 := by
  unfold ivOff LTYPE_INODE LTYPE_XANODE LTYPE_DTNODE LTYPE_FTNODE LTYPE_SYMVAL LTYPE_DATA1K LTYPE_DATA4K
    LTYPE_DATABK at h
  unfold Space.isVnode
  simp only [Bool.and_eq_true, decide_eq_true_eq]
  repeat' split at h
  all_goals first
    | (simp only [reduceCtorEq] at h; done)
    | (simp only [Option.some.injEq] at h; omega)

theorem rootOff_vnode {t : Nat} (h : Space.isVnode t = true) : ∃ o, rootOff t = some o := by
  rcases vnode_cases h with h | h | h | h | h | h | h | h <;> subst h <;> exact ⟨_, rfl⟩

theorem mainOff_vnode {t : Nat} (h : Space.isVnode t = true) : ∃ o, mainOff t = some o := by
  rcases vnode_cases h with h | h | h | h | h | h | h | h <;> subst h <;> exact ⟨_, rfl⟩

theorem ivOff_vnode {t : Nat} (h : Space.isVnode t = true) : ∃ o, ivOff t = some o := by
  rcases vnode_cases h with h | h | h | h | h | h | h | h <;> subst h <;> exact ⟨_, rfl⟩

theorem rootOff_apart : Apart rootOff 64 := by
  intro t s o p ht hs
  rcases vnode_cases (rootOff_some ht).1 with h | h | h | h | h | h | h | h <;> subst h <;> cases ht <;>
  rcases vnode_cases (rootOff_some hs).1 with h | h | h | h | h | h | h | h <;> subst h <;> cases hs <;> decide

theorem mainOff_apart : Apart mainOff 32 := by
  intro t s o p ht hs
  rcases vnode_cases (mainOff_some ht).1 with h | h | h | h | h | h | h | h <;> subst h <;> cases ht <;>
  rcases vnode_cases (mainOff_some hs).1 with h | h | h | h | h | h | h | h <;> subst h <;> cases hs <;> decide

theorem ivOff_apart : Apart ivOff 16 := by
  intro t s o p ht hs
  rcases vnode_cases (ivOff_some ht).1 with h | h | h | h | h | h | h | h <;> subst h <;> cases ht <;>
  rcases vnode_cases (ivOff_some hs).1 with h | h | h | h | h | h | h | h <;> subst h <;> cases hs <;> decide

theorem gaugeOff_some {t k : Nat} (h : Rep.gaugeOff t = some k) : 2 ≤ t ∧ t ≤ 12 ∧ k + 8 ≤ 96 ∧ k % 8 = 0 := by
  unfold Rep.gaugeOff LTYPE_INODE LTYPE_XANODE LTYPE_DTNODE LTYPE_FTNODE LTYPE_SYMVAL LTYPE_DATA1K LTYPE_DATA4K
    LTYPE_DATABK LTYPE_SUPER LTYPE_SPNODE LTYPE_SPLEAF at h
  repeat' split at h
  all_goals first
    | (simp only [reduceCtorEq] at h; done)
    | (simp only [Option.some.injEq] at h; omega)

theorem gaugeOff_kind {t : Nat} (h1 : 2 ≤ t) (h2 : t ≤ 12) : ∃ k, Rep.gaugeOff t = some k := by
  have : t = 2 ∨ t = 3 ∨ t = 4 ∨ t = 5 ∨ t = 6 ∨ t = 7 ∨ t = 8 ∨ t = 9 ∨ t = 10 ∨ t = 11 ∨ t = 12 := by omega
  rcases this with h | h | h | h | h | h | h | h | h | h | h <;> subst h <;> exact ⟨_, rfl⟩

theorem gaugeOff_apart {t s k l : Nat} (ht : Rep.gaugeOff t = some k) (hs : Rep.gaugeOff s = some l) :
    t = s ∨ k + 8 ≤ l ∨ l + 8 ≤ k := by
  have h1 := gaugeOff_some ht
  have h2 := gaugeOff_some hs
  have c : ∀ x, 2 ≤ x → x ≤ 12 →
      x = 2 ∨ x = 3 ∨ x = 4 ∨ x = 5 ∨ x = 6 ∨ x = 7 ∨ x = 8 ∨ x = 9 ∨ x = 10 ∨ x = 11 ∨ x = 12 := by omega
  rcases c t h1.1 h1.2.1 with h | h | h | h | h | h | h | h | h | h | h <;> subst h <;> cases ht <;>
  rcases c s h2.1 h2.2.1 with h | h | h | h | h | h | h | h | h | h | h <;> subst h <;> cases hs <;> decide

theorem gaugeAt_some {o : Nat} {w : Grp} {t p : Nat} (h : gaugeAt o w t = some p) :
    ∃ k, Rep.gaugeOff t = some k ∧ p = o + w.off + k ∧ o + 256 ≤ p ∧ p + 8 ≤ o + 1024 := by
  unfold gaugeAt at h
  cases e : Rep.gaugeOff t with
  | none => rw [e] at h; exact absurd h (by simp)
  | some k =>
    rw [e] at h
    have := gaugeOff_some e
    simp only [Option.map_some, Option.some.injEq] at h
    refine ⟨k, rfl, h.symm, ?_, ?_⟩ <;> cases w <;> simp only [Grp.off] at h <;> omega

theorem gaugeAt_apart {o : Nat} {w x : Grp} {t s p q : Nat} (h : gaugeAt o w t = some p)
    (g : gaugeAt o x s = some q) : (w = x ∧ t = s) ∨ p + 8 ≤ q ∨ q + 8 ≤ p := by
  obtain ⟨k, hk, hp, -, -⟩ := gaugeAt_some h
  obtain ⟨l, hl, hq, -, -⟩ := gaugeAt_some g
  have h1 := gaugeOff_some hk
  have h2 := gaugeOff_some hl
  have h3 := gaugeOff_apart hk hl
  cases w <;> cases x <;> simp only [Grp.off, reduceCtorEq, false_and, true_and, false_or] at * <;> omega

/-! ### The record, part by part -/

structure PHdr (b : Blk) (fossil : Nat) (uuid : List Nat) : Prop where
  magic : rd b 16 8 = leBytes 8 MAGIC
  version : rd b 24 8 = leBytes 8 VERSION
  flags : rd b 32 4 = leBytes 4 fossil
  uuid : rd b 128 16 = uuid
  small : fossil < 4294967296

structure PSelf (b : Blk) (u : Uaddr) : Prop where
  self : rd b 640 64 = uaddr64Htox u
  lvid : rd b 768 16 = u.laddr.lsid.lvid
  good : Good u
  super : u.laddr.lsid.ltype = LTYPE_SUPER

structure POrig (b : Blk) (u : Option Uaddr) : Prop where
  orig : rd b 704 64 = (u.map uaddr64Htox).getD uaddr64Reset
  good : ∀ a, u = some a → Good a ∧ a.laddr.lsid.ltype = LTYPE_SUPER

def PVr (b : Blk) : Prop := rd b 784 16 = vrange128Htox (Vrange.ofSpmap 7 0)

structure PRoots (b : Blk) (f : Nat → Option Uaddr) : Prop where
  bytes : ∀ t o, rootOff t = some o → rd b o 64 = uaddr64Htox ((f t).getD uaddrNone)
  good : ∀ t u, f t = some u → Good u ∧ u.laddr.lsid.ltype = LTYPE_SPNODE ∧ u.laddr.lsid.height = 6

structure PMains (b : Blk) (f : Nat → Option Lsid) : Prop where
  bytes : ∀ t o, mainOff t = some o → rd b o 32 = ((f t).map lsid32Htox).getD lsid32Reset
  good : ∀ t l, f t = some l → l.Fits ∧ l.isNull = false

structure PIvs (b : Blk) (f : Nat → List Nat) : Prop where
  bytes : ∀ t o, ivOff t = some o → rd b o 16 = f t

def PGauge (b : Blk) (o : Nat) (c : Grp → Nat → Int) : Prop :=
  ∀ w t p, gaugeAt o w t = some p → rd b p 8 = leBytes 8 (Space.gaugeEnc (c w t))

structure PNums (b : Blk) (cap gen : Nat) : Prop where
  cap : rd b 4112 8 = leBytes 8 cap
  vsz : rd b 4120 8 = leBytes 8 288230376151711744
  gen : rd b 4128 8 = leBytes 8 gen

structure PBnum (b : Blk) : Prop where
  cap : capacity b 5120 ≤ 4611686018427387903
  vsz : vspacesize b 5120 ≤ 4611686018427387903

theorem PHdr.frame {b b' f u} (h : PHdr b f u) (e : Eqv 16 512 b b') : PHdr b' f u :=
  ⟨(rd_eqv e _ _ (by omega) (by omega)).trans h.magic, (rd_eqv e _ _ (by omega) (by omega)).trans h.version,
   (rd_eqv e _ _ (by omega) (by omega)).trans h.flags, (rd_eqv e _ _ (by omega) (by omega)).trans h.uuid, h.small⟩

theorem PSelf.frame {b b' u} (h : PSelf b u) (e : Eqv 640 704 b b') (e' : Eqv 768 784 b b') : PSelf b' u :=
  ⟨(rd_eqv e _ _ (by omega) (by omega)).trans h.self, (rd_eqv e' _ _ (by omega) (by omega)).trans h.lvid,
   h.good, h.super⟩

theorem POrig.frame {b b' u} (h : POrig b u) (e : Eqv 704 768 b b') : POrig b' u :=
  ⟨(rd_eqv e _ _ (by omega) (by omega)).trans h.orig, h.good⟩

theorem PVr.frame {b b'} (h : PVr b) (e : Eqv 784 800 b b') : PVr b' :=
  (rd_eqv e _ _ (by omega) (by omega)).trans h

theorem PRoots.frame {b b' f} (h : PRoots b f) (e : Eqv 1088 1600 b b') : PRoots b' f :=
  ⟨fun t o ho => (rd_eqv e _ _ (rootOff_some ho).2.1 (rootOff_some ho).2.2).trans (h.bytes t o ho), h.good⟩

theorem PMains.frame {b b' f} (h : PMains b f) (e : Eqv 2048 2304 b b') : PMains b' f :=
  ⟨fun t o ho => (rd_eqv e _ _ (mainOff_some ho).2.1 (mainOff_some ho).2.2).trans (h.bytes t o ho), h.good⟩

theorem PIvs.frame {b b' f} (h : PIvs b f) (e : Eqv 3088 3216 b b') : PIvs b' f :=
  ⟨fun t o ho => (rd_eqv e _ _ (ivOff_some ho).2.1 (ivOff_some ho).2.2).trans (h.bytes t o ho)⟩

theorem PGauge.frame {b b' o c} (h : PGauge b o c) (e : Eqv (o + 256) (o + 1024) b b') : PGauge b' o c := by
  intro w t p hp
  obtain ⟨k, -, -, h1, h2⟩ := gaugeAt_some hp
  exact (rd_eqv e _ _ h1 h2).trans (h w t p hp)

theorem PNums.frame {b b' c g} (h : PNums b c g) (e : Eqv 4096 4352 b b') : PNums b' c g :=
  ⟨(rd_eqv e _ _ (by omega) (by omega)).trans h.cap, (rd_eqv e _ _ (by omega) (by omega)).trans h.vsz,
   (rd_eqv e _ _ (by omega) (by omega)).trans h.gen⟩

theorem PBnum.frame {b b'} (h : PBnum b) (e : Eqv 5120 5376 b b') : PBnum b' := by
  refine ⟨?_, ?_⟩
  · have := h.cap; unfold capacity at *; rw [rd_eqv e _ _ (by omega) (by omega)]; exact this
  · have := h.vsz; unfold vspacesize at *; rw [rd_eqv e _ _ (by omega) (by omega)]; exact this

/-- The bytes stand for the volume. -/
structure Inv (b : Blk) (v : Vol) : Prop where
  hdr : PHdr b v.fossil v.uuid
  self : PSelf b v.self
  orig : POrig b v.origin
  vr : PVr b
  roots : PRoots b v.roots
  mains : PMains b v.mains
  ivs : PIvs b v.ivs
  ivlen : ∀ t, (v.ivs t).length = 16
  curr : PGauge b 4096 v.curr
  base : PGauge b 5120 v.base
  nums : PNums b v.cap v.gen
  bnum : PBnum b
  sane : Sane v
  cap : v.cap ≤ 4611686018427387903

/-! ### Lengths -/

theorem uaddr_len (u : Uaddr) (h : u.laddr.lsid.lvid.length = 16) : (uaddr64Htox u).length = 64 := by
  simp [uaddr64Htox, laddr48Htox, lsid32Htox, leBytes_length, h]

theorem good_len {u : Uaddr} (h : Good u) : (uaddr64Htox u).length = 64 := uaddr_len u h.fits.lsid.lvid.1

theorem good_round {u : Uaddr} (h : Good u) : uaddr64Xtoh (uaddr64Htox u) = u :=
  C27_uaddr_roundtrip u h.fits ⟨by have := h.voff0; omega, h.voff1⟩

theorem rd_len (b : Blk) (o n : Nat) : (rd b o n).length = n := by simp [rd]

theorem getRoot_len (b : Blk) (t : Nat) : (uaddr64Htox (getRoot b t)).length = 64 := by
  apply uaddr_len
  unfold getRoot
  split
  · rfl
  · simp only [uaddr64Xtoh, laddr48Xtoh, lsid32Xtoh, List.length_take, rd_len]; omega

theorem getIv_len (b : Blk) (t : Nat) : (getIv b t).length = 16 := by
  unfold getIv
  split
  · rfl
  · exact rd_len _ _ _

theorem vr_len : (vrange128Htox (Vrange.ofSpmap 7 0)).length = 16 := by decide +kernel

theorem none_round : uaddr64Htox (uaddr64Xtoh (uaddr64Htox uaddrNone)) = uaddr64Htox uaddrNone := by decide +kernel

theorem PRoots.stored {b f} (h : PRoots b f) (t o : Nat) (ho : rootOff t = some o) :
    uaddr64Htox (getRoot b t) = uaddr64Htox ((f t).getD uaddrNone) := by
  unfold getRoot
  rw [ho]
  simp only
  rw [h.bytes t o ho]
  cases e : f t with
  | none => exact none_round
  | some u => simp only [Option.getD_some]; rw [good_round (h.good t u e).1]

/-! ### Parts under the writes -/

theorem PRoots.set {b f} (h : PRoots b f) (t : Nat) (u : Uaddr) (hu : Good u)
    (hl : u.laddr.lsid.ltype = LTYPE_SPNODE) (hh : u.laddr.lsid.height = 6) :
    PRoots (setRoot b t u) (upd f t (some u)) := by
  refine ⟨fun s p hs => ?_, fun s a ha => ?_⟩
  · unfold setRoot
    rw [setAt_rd rootOff 64 rootOff_apart t _ (good_len hu) b s p hs]
    unfold upd
    split
    · rfl
    · exact h.bytes s p hs
  · unfold upd at ha
    split at ha
    · cases ha; exact ⟨hu, hl, hh⟩
    · exact h.good s a ha

theorem mem_vnodes {t : Nat} (h : Space.isVnode t = true) : t ∈ kinds.filter Space.isVnode := by
  rcases vnode_cases h with h | h | h | h | h | h | h | h <;> subst h <;> decide

theorem mem_kinds {t : Nat} (h : Space.isVnode t = true) : t ∈ kinds := (List.mem_filter.1 (mem_vnodes h)).1

theorem PRoots.clone {b f} (h : PRoots b f) : PRoots (cloneRoots b b) f := by
  refine ⟨fun s p hs => ?_, h.good⟩
  unfold cloneRoots
  rw [fold_rd rootOff _ 64 (fun t => getRoot_len b t) rootOff_apart s p hs, if_pos (mem_vnodes (rootOff_some hs).1)]
  exact h.stored s p hs

theorem PRoots.reset (b : Blk) : PRoots (resetRoots b) fun _ => none := by
  refine ⟨fun s p hs => ?_, fun s a ha => absurd ha (by simp)⟩
  unfold resetRoots
  rw [fold_rd rootOff _ 64 (fun t => uaddr_len uaddrNone rfl) rootOff_apart s p hs, if_pos (mem_kinds (rootOff_some hs).1)]
  rfl

theorem PMains.set {b f} (h : PMains b f) (t : Nat) (l : Lsid) (hl : l.Fits) (hn : l.isNull = false) :
    PMains (setMain b t l) (upd f t (some l)) := by
  refine ⟨fun s p hs => ?_, fun s a ha => ?_⟩
  · unfold setMain
    rw [setAt_rd mainOff 32 mainOff_apart t _ (lsid32Htox_length l hl) b s p hs]
    unfold upd
    split
    · rfl
    · exact h.bytes s p hs
  · unfold upd at ha
    split at ha
    · cases ha; exact ⟨hl, hn⟩
    · exact h.good s a ha

theorem PMains.reset (b : Blk) : PMains (resetMains b) fun _ => none := by
  refine ⟨fun s p hs => ?_, fun s a ha => absurd ha (by simp)⟩
  unfold resetMains
  rw [fold_rd mainOff _ 32 (fun t => by decide) mainOff_apart s p hs, if_pos (mem_kinds (mainOff_some hs).1)]
  rfl

theorem PIvs.set {b f} (h : PIvs b f) (t : Nat) (iv : List Nat) (hl : iv.length = 16) :
    PIvs (setIv b t iv) (upd f t iv) := by
  refine ⟨fun s p hs => ?_⟩
  unfold setIv
  rw [setAt_rd ivOff 16 ivOff_apart t _ hl b s p hs]
  unfold upd
  split
  · rfl
  · exact h.bytes s p hs

theorem PIvs.clone {b n f} (h : PIvs b f) : PIvs (cloneIvs b n) f := by
  refine ⟨fun s p hs => ?_⟩
  unfold cloneIvs
  rw [fold_rd ivOff _ 16 (fun t => getIv_len b t) ivOff_apart s p hs, if_pos (mem_vnodes (ivOff_some hs).1)]
  unfold getIv
  rw [hs]
  exact h.bytes s p hs

theorem PIvs.gen (b : Blk) (f : Nat → List Nat) (hf : ∀ t, (f t).length = 16) : PIvs (genIvs f b) f := by
  refine ⟨fun s p hs => ?_⟩
  unfold genIvs
  rw [fold_rd ivOff _ 16 hf ivOff_apart s p hs, if_pos]
  have := vnode_cases (ivOff_some hs).1
  exact List.mem_range.2 (by omega)

theorem gauge_val {b o c} (h : PGauge b o c) (w : Grp) (t : Nat) (k : 2 ≤ t ∧ t ≤ 12)
    (h1 : -9223372036854775808 < c w t) (h2 : c w t < 9223372036854775808) : gauge b o w t = c w t := by
  obtain ⟨x, hx⟩ := gaugeOff_kind k.1 k.2
  have hp : gaugeAt o w t = some (o + w.off + x) := by unfold gaugeAt; rw [hx]; rfl
  unfold gauge
  rw [hp]
  simp only
  rw [h w t _ hp]
  have := Space.C21_gauge (c w t) h1 h2
  rw [leVal_leBytes8 _ this.2, this.1]

theorem PGauge.take {b c} (h : PGauge b 4096 c) (w : Grp) (t : Nat) (n : Int) (k : 2 ≤ t ∧ t ≤ 12)
    (h1 : -9223372036854775808 < c w t) (h2 : c w t < 9223372036854775808) :
    PGauge (stiUpdate b w t n) 4096 (fun w' s => c w' s + if w' = w ∧ s = t then n else 0) := by
  unfold stiUpdate
  split
  · intro x s p hp
    unfold updTake
    rw [gauge_val h w t k h1 h2]
    cases e : gaugeAt 4096 w t with
    | none =>
      obtain ⟨y, hy⟩ := gaugeOff_kind k.1 k.2
      unfold gaugeAt at e
      rw [hy] at e
      exact absurd e (by simp)
    | some q =>
      simp only [setAt]
      rcases gaugeAt_apart e hp with ⟨a1, a2⟩ | a
      · subst a1; subst a2
        rw [e] at hp
        cases hp
        rw [rd_wr _ _ _ _ (leBytes_length _ _)]
        simp
      · rw [rd_wr_ne _ _ 8 _ (leBytes_length _ _) _ _ a]
        have ne : ¬ (x = w ∧ s = t) := by
          rintro ⟨a1, a2⟩
          subst a1; subst a2
          rw [e] at hp
          cases hp
          omega
        rw [if_neg ne, Int.add_zero]
        exact h x s p hp
  · rename_i e
    have e0 : n = 0 := by omega
    subst e0
    simpa using h

theorem stiUpdate_eqv (b : Blk) (w : Grp) (t : Nat) (n : Int) (lo hi : Nat) (h : hi ≤ 4352 ∨ 5120 ≤ lo) :
    Eqv lo hi b (stiUpdate b w t n) := by
  unfold stiUpdate
  split
  · unfold updTake
    refine setAt_eqv _ _ 8 _ (leBytes_length _ _) _ _ fun o ho => ?_
    obtain ⟨k, -, -, h1, h2⟩ := gaugeAt_some ho
    omega
  · exact Eqv.refl _

theorem account_eqv (b : Blk) (lo hi : Nat) (h : hi ≤ 4352 ∨ 5120 ≤ lo) : Eqv lo hi b (account b) :=
  ((stiUpdate_eqv _ _ _ _ _ _ h).trans (stiUpdate_eqv _ _ _ _ _ _ h)).trans (stiUpdate_eqv _ _ _ _ _ _ h)

theorem PGauge.account {b c} (h : PGauge b 4096 c)
    (hc : ∀ w, -9223372036854775808 < c w LTYPE_SUPER ∧ c w LTYPE_SUPER < 9223372036854775808) :
    PGauge (account b) 4096 (countSuper c) := by
  have h1 := h.take .lsegs LTYPE_SUPER 1 (by decide) (hc _).1 (hc _).2
  have h2 := h1.take .bks LTYPE_SUPER 1 (by decide) (by simpa using (hc .bks).1) (by simpa using (hc .bks).2)
  have h3 := h2.take .objs LTYPE_SUPER 1 (by decide) (by simpa using (hc .objs).1) (by simpa using (hc .objs).2)
  have e : (fun w' s => ((c w' s + if w' = Grp.lsegs ∧ s = LTYPE_SUPER then (1:Int) else 0) +
      if w' = Grp.bks ∧ s = LTYPE_SUPER then 1 else 0) + if w' = Grp.objs ∧ s = LTYPE_SUPER then 1 else 0)
      = countSuper c := by
    funext w t
    unfold countSuper
    cases w <;> by_cases x : t = LTYPE_SUPER <;> simp [x]
  rw [← e]
  exact h3

theorem wr_zero (b : Blk) (o n i : Nat) (h : o ≤ i) (h2 : i < o + n) : wr b o (List.replicate n 0) i = 0 := by
  unfold wr
  rw [List.length_replicate, if_pos ⟨h, h2⟩, List.getD_eq_getElem?_getD]
  rw [List.getElem?_replicate]
  split <;> rfl

theorem wr_out (b : Blk) (o : Nat) (l : List Nat) (i : Nat) (h : i < o ∨ o + l.length ≤ i) : wr b o l i = b i := by
  unfold wr
  rw [if_neg (by omega)]

theorem renew_zero (b : Blk) (o i : Nat) (h : o + 256 ≤ i) (h2 : i < o + 1024) : renew b o i = 0 := by
  unfold renew
  by_cases h3 : i < o + 512
  · exact wr_zero _ _ _ _ (by omega) (by omega)
  · rw [wr_out _ _ _ _ (by rw [List.length_replicate]; omega)]
    by_cases h4 : i < o + 768
    · exact wr_zero _ _ _ _ (by omega) (by omega)
    · rw [wr_out _ _ _ _ (by rw [List.length_replicate]; omega)]
      exact wr_zero _ _ _ _ (by omega) (by omega)

theorem rd_zero (b : Blk) (o n : Nat) (h : ∀ i, o ≤ i → i < o + n → b i = 0) : rd b o n = List.replicate n 0 := by
  apply List.ext_getElem
  · simp [rd]
  · intro j h1 h2
    simp only [rd, List.getElem_map, List.getElem_range, List.getElem_replicate]
    simp only [List.length_replicate] at h2
    exact h _ (by omega) (by omega)

theorem PGauge.zero {b o} (h : ∀ i, o + 256 ≤ i → i < o + 1024 → b i = 0) : PGauge b o fun _ _ => 0 := by
  intro w t p hp
  obtain ⟨k, -, -, h1, h2⟩ := gaugeAt_some hp
  rw [rd_zero b p 8 fun i a c => h i (by omega) (by omega)]
  show List.replicate 8 0 = leBytes 8 (Space.gaugeEnc 0)
  decide

theorem renew_eqv (b : Blk) (o lo hi : Nat) (h : hi ≤ o + 256 ∨ o + 1024 ≤ lo) : Eqv lo hi b (renew b o) :=
  ((wr_eqv _ _ 256 _ List.length_replicate _ _ (by omega)).trans (wr_eqv _ _ 256 _ List.length_replicate _ _ (by omega))).trans
    (wr_eqv _ _ 256 _ List.length_replicate _ _ (by omega))

/-! ### The export of statistics -/

def wrs (b : Blk) (fs : List (Nat × List Nat)) : Blk := fs.foldl (fun b f => wr b f.1 f.2) b

theorem wrs_eqv (fs : List (Nat × List Nat)) (lo hi : Nat) (h : ∀ f ∈ fs, f.1 + f.2.length ≤ lo ∨ hi ≤ f.1) (b : Blk) :
    Eqv lo hi b (wrs b fs) := by
  induction fs generalizing b with
  | nil => exact Eqv.refl _
  | cons f fs ih =>
    exact (wr_eqv _ _ _ _ rfl _ _ (h f (by simp))).trans (ih (fun g hg => h g (by simp [hg])) _)

theorem wrs_rd (fs : List (Nat × List Nat)) (b : Blk)
    (hp : fs.Pairwise fun f g => f.1 + f.2.length ≤ g.1 ∨ g.1 + g.2.length ≤ f.1) (f : Nat × List Nat) (hf : f ∈ fs) :
    rd (wrs b fs) f.1 f.2.length = f.2 := by
  induction fs generalizing b with
  | nil => exact absurd hf (by simp)
  | cons g fs ih =>
    rw [List.pairwise_cons] at hp
    rcases List.mem_cons.1 hf with e | e
    · subst e
      have := wrs_eqv fs f.1 (f.1 + f.2.length) (fun x hx => by have := hp.1 x hx; omega) (wr b f.1 f.2)
      exact (rd_eqv this _ _ (Nat.le_refl _) (Nat.le_refl _)).trans (rd_wr _ _ _ _ rfl)
    · exact ih _ hp.2 e

/-- Places and lengths of the exported fields. -/
def shape : List (Nat × Nat) :=
  [(5120, 8), (5128, 8), (5136, 8), (5144, 8), (5152, 8)] ++
  ([256, 512, 768].flatMap fun w => [0, 8, 16, 32, 40, 56, 48, 64, 72, 80, 88].map fun k => (5120 + w + k, 8))

theorem stats_shape (s : Rep.Stats) : (Rep.statsFields 5120 s).map (fun f => (f.1, f.2.length)) = shape := by
  rfl

theorem stats_pairwise (s : Rep.Stats) :
    (Rep.statsFields 5120 s).Pairwise fun f g => f.1 + f.2.length ≤ g.1 ∨ g.1 + g.2.length ≤ f.1 := by
  have h : shape.Pairwise fun f g => f.1 + f.2 ≤ g.1 ∨ g.1 + g.2 ≤ f.1 := by decide +kernel
  rw [← stats_shape s, List.pairwise_map] at h
  exact h

theorem stats_within (s : Rep.Stats) : ∀ f ∈ Rep.statsFields 5120 s, 5120 ≤ f.1 ∧ f.1 + f.2.length ≤ 6144 := by
  have h : ∀ x ∈ shape, 5120 ≤ x.1 ∧ x.1 + x.2 ≤ 6144 := by decide +kernel
  intro f hf
  exact h (f.1, f.2.length) (by rw [← stats_shape s]; exact List.mem_map_of_mem hf)

theorem spstExport_eqv (b : Blk) (s : Rep.Stats) (lo hi : Nat) (h : hi ≤ 5120 ∨ 6144 ≤ lo) :
    Eqv lo hi b (spstExport b 5120 s) :=
  (wr_eqv _ _ 1024 _ List.length_replicate _ _ (by omega)).trans
    (wrs_eqv _ _ _ (fun f hf => by have := stats_within s f hf; omega) _)

/-- The counters of a group. -/
def grp (s : Rep.Stats) : Grp → Rep.Gauges
  | .lsegs => s.lsegs
  | .bks => s.bks
  | .objs => s.objs

theorem gaugeFields_mem (o : Nat) (g : Rep.Gauges) (t k : Nat) (h : Rep.gaugeOff t = some k) :
    (o + k, leBytes 8 (Space.gaugeEnc (g t))) ∈ Rep.gaugeFields o g := by
  unfold Rep.gaugeFields
  rw [List.mem_filterMap]
  have := gaugeOff_some h
  exact ⟨t, by rw [List.mem_range'_1]; omega, by rw [h]; rfl⟩

theorem PGauge.export (b : Blk) (s : Rep.Stats) (c : Grp → Nat → Int)
    (hc : ∀ w t, 2 ≤ t → t ≤ 12 → grp s w t = c w t) : PGauge (spstExport b 5120 s) 5120 c := by
  intro w t p hp
  obtain ⟨k, hk, e, -, -⟩ := gaugeAt_some hp
  have hr := gaugeOff_some hk
  have hm : (5120 + w.off + k, leBytes 8 (Space.gaugeEnc (grp s w t))) ∈ Rep.statsFields 5120 s := by
    unfold Rep.statsFields
    cases w <;> simp only [Grp.off, grp, List.mem_append]
    · exact Or.inl (Or.inl (Or.inr (gaugeFields_mem _ _ _ _ hk)))
    · exact Or.inl (Or.inr (gaugeFields_mem _ _ _ _ hk))
    · exact Or.inr (gaugeFields_mem _ _ _ _ hk)
  have := wrs_rd _ (wr b 5120 (List.replicate 1024 0)) (stats_pairwise s) _ hm
  rw [hc w t hr.1 hr.2.1] at this
  rw [e]
  simp only [leBytes_length] at this
  exact this

theorem PBnum.export (b : Blk) (s : Rep.Stats) (h1 : s.capacity ≤ 4611686018427387903)
    (h2 : s.vspacesize ≤ 4611686018427387903) : PBnum (spstExport b 5120 s) := by
  have e1 := wrs_rd _ (wr b 5120 (List.replicate 1024 0)) (stats_pairwise s) (5136, leBytes 8 s.capacity)
    (by unfold Rep.statsFields; simp)
  have e2 := wrs_rd _ (wr b 5120 (List.replicate 1024 0)) (stats_pairwise s) (5144, leBytes 8 s.vspacesize)
    (by unfold Rep.statsFields; simp)
  simp only [leBytes_length] at e1 e2
  refine ⟨?_, ?_⟩
  · show leVal (rd _ 5136 8) ≤ _
    unfold spstExport
    unfold wrs at e1
    rw [e1, leVal_leBytes8 _ (by omega)]
    exact h1
  · show leVal (rd _ 5144 8) ≤ _
    unfold spstExport
    unfold wrs at e2
    rw [e2, leVal_leBytes8 _ (by omega)]
    exact h2

theorem renewStats_eqv (b : Blk) (lo hi : Nat) (h : hi ≤ 4352 ∨ 6144 ≤ lo) : Eqv lo hi b (renewStats b) :=
  (spstExport_eqv _ _ _ _ (by omega)).trans (renew_eqv _ _ _ _ (by omega))

theorem folds_eqv (off : Nat → Option Nat) (val : Nat → List Nat) (k a c : Nat) (hl : ∀ t, (val t).length = k)
    (h : ∀ t o, off t = some o → a ≤ o ∧ o + k ≤ c) (ks : List Nat) (b : Blk) (lo hi : Nat) (hd : hi ≤ a ∨ c ≤ lo) :
    Eqv lo hi b (ks.foldl (fun b t => setAt (off t) b (val t)) b) :=
  fold_eqv off val k lo hi hl (fun t o ho => by have := h t o ho; omega) ks b

theorem resetMains_eqv (b : Blk) (lo hi : Nat) (h : hi ≤ 2048 ∨ 2304 ≤ lo) : Eqv lo hi b (resetMains b) :=
  folds_eqv mainOff _ 32 2048 2304 (fun _ => by decide) (fun _ _ ho => (mainOff_some ho).2) _ _ _ _ h

theorem resetRoots_eqv (b : Blk) (lo hi : Nat) (h : hi ≤ 1088 ∨ 1600 ≤ lo) : Eqv lo hi b (resetRoots b) :=
  folds_eqv rootOff _ 64 1088 1600 (fun _ => uaddr_len uaddrNone rfl) (fun _ _ ho => (rootOff_some ho).2) _ _ _ _ h

theorem cloneRoots_eqv (s b : Blk) (lo hi : Nat) (h : hi ≤ 1088 ∨ 1600 ≤ lo) : Eqv lo hi b (cloneRoots s b) :=
  folds_eqv rootOff _ 64 1088 1600 (fun t => getRoot_len s t) (fun _ _ ho => (rootOff_some ho).2) _ _ _ _ h

theorem cloneIvs_eqv (s b : Blk) (lo hi : Nat) (h : hi ≤ 3088 ∨ 3216 ≤ lo) : Eqv lo hi b (cloneIvs s b) :=
  folds_eqv ivOff _ 16 3088 3216 (fun t => getIv_len s t) (fun _ _ ho => (ivOff_some ho).2) _ _ _ _ h

theorem genIvs_eqv (f : Nat → List Nat) (hf : ∀ t, (f t).length = 16) (b : Blk) (lo hi : Nat)
    (h : hi ≤ 3088 ∨ 3216 ≤ lo) : Eqv lo hi b (genIvs f b) :=
  folds_eqv ivOff _ 16 3088 3216 hf (fun _ _ ho => (ivOff_some ho).2) _ _ _ _ h

theorem setRoot_eqv (b : Blk) (t : Nat) (u : Uaddr) (hu : Good u) (lo hi : Nat) (h : hi ≤ 1088 ∨ 1600 ≤ lo) :
    Eqv lo hi b (setRoot b t u) :=
  setAt_eqv _ _ 64 _ (good_len hu) _ _ fun o ho => by have := (rootOff_some ho).2; omega

theorem setIv_eqv (b : Blk) (t : Nat) (iv : List Nat) (hl : iv.length = 16) (lo hi : Nat) (h : hi ≤ 3088 ∨ 3216 ≤ lo) :
    Eqv lo hi b (setIv b t iv) :=
  setAt_eqv _ _ 16 _ hl _ _ fun o ho => by have := (ivOff_some ho).2; omega

theorem setMain_eqv (b : Blk) (t : Nat) (l : Lsid) (hl : l.Fits) (lo hi : Nat) (h : hi ≤ 2048 ∨ 2304 ≤ lo) :
    Eqv lo hi b (setMain b t l) :=
  setAt_eqv _ _ 32 _ (lsid32Htox_length l hl) _ _ fun o ho => by have := (mainOff_some ho).2; omega

/-! ### The whole record under the writes -/

theorem Inv.setRoot {b v} (h : Inv b v) (t : Nat) (u : Uaddr) (hu : Good u)
    (hl : u.laddr.lsid.ltype = LTYPE_SPNODE) (hh : u.laddr.lsid.height = 6) :
    Inv (setRoot b t u) { v with roots := upd v.roots t (some u) } where
  hdr := h.hdr.frame (setRoot_eqv b t u hu _ _ (by omega))
  self := h.self.frame (setRoot_eqv b t u hu _ _ (by omega)) (setRoot_eqv b t u hu _ _ (by omega))
  orig := h.orig.frame (setRoot_eqv b t u hu _ _ (by omega))
  vr := h.vr.frame (setRoot_eqv b t u hu _ _ (by omega))
  roots := h.roots.set t u hu hl hh
  mains := h.mains.frame (setRoot_eqv b t u hu _ _ (by omega))
  ivs := h.ivs.frame (setRoot_eqv b t u hu _ _ (by omega))
  ivlen := h.ivlen
  curr := h.curr.frame (setRoot_eqv b t u hu _ _ (by omega))
  base := h.base.frame (setRoot_eqv b t u hu _ _ (by omega))
  nums := h.nums.frame (setRoot_eqv b t u hu _ _ (by omega))
  bnum := h.bnum.frame (setRoot_eqv b t u hu _ _ (by omega))
  sane := h.sane
  cap := h.cap

theorem Inv.setIv {b v} (h : Inv b v) (t : Nat) (iv : List Nat) (hl : iv.length = 16) :
    Inv (setIv b t iv) { v with ivs := upd v.ivs t iv } where
  hdr := h.hdr.frame (setIv_eqv b t iv hl _ _ (by omega))
  self := h.self.frame (setIv_eqv b t iv hl _ _ (by omega)) (setIv_eqv b t iv hl _ _ (by omega))
  orig := h.orig.frame (setIv_eqv b t iv hl _ _ (by omega))
  vr := h.vr.frame (setIv_eqv b t iv hl _ _ (by omega))
  roots := h.roots.frame (setIv_eqv b t iv hl _ _ (by omega))
  mains := h.mains.frame (setIv_eqv b t iv hl _ _ (by omega))
  ivs := h.ivs.set t iv hl
  ivlen := fun s => by simp only [upd]; split; exact hl; exact h.ivlen s
  curr := h.curr.frame (setIv_eqv b t iv hl _ _ (by omega))
  base := h.base.frame (setIv_eqv b t iv hl _ _ (by omega))
  nums := h.nums.frame (setIv_eqv b t iv hl _ _ (by omega))
  bnum := h.bnum.frame (setIv_eqv b t iv hl _ _ (by omega))
  sane := h.sane
  cap := h.cap

theorem Inv.setMain {b v} (h : Inv b v) (t : Nat) (l : Lsid) (hl : l.Fits) (hn : l.isNull = false) :
    Inv (setMain b t l) { v with mains := upd v.mains t (some l) } where
  hdr := h.hdr.frame (setMain_eqv b t l hl _ _ (by omega))
  self := h.self.frame (setMain_eqv b t l hl _ _ (by omega)) (setMain_eqv b t l hl _ _ (by omega))
  orig := h.orig.frame (setMain_eqv b t l hl _ _ (by omega))
  vr := h.vr.frame (setMain_eqv b t l hl _ _ (by omega))
  roots := h.roots.frame (setMain_eqv b t l hl _ _ (by omega))
  mains := h.mains.set t l hl hn
  ivs := h.ivs.frame (setMain_eqv b t l hl _ _ (by omega))
  ivlen := h.ivlen
  curr := h.curr.frame (setMain_eqv b t l hl _ _ (by omega))
  base := h.base.frame (setMain_eqv b t l hl _ _ (by omega))
  nums := h.nums.frame (setMain_eqv b t l hl _ _ (by omega))
  bnum := h.bnum.frame (setMain_eqv b t l hl _ _ (by omega))
  sane := h.sane
  cap := h.cap

theorem Inv.take {b v} (h : Inv b v) (w : Grp) (t : Nat) (n : Int) (k : 2 ≤ t ∧ t ≤ 12)
    (hs : Sane (Spec.step v (.take w t n))) : Inv (stiUpdate b w t n) (Spec.step v (.take w t n)) where
  hdr := h.hdr.frame (stiUpdate_eqv b w t n _ _ (by omega))
  self := h.self.frame (stiUpdate_eqv b w t n _ _ (by omega)) (stiUpdate_eqv b w t n _ _ (by omega))
  orig := h.orig.frame (stiUpdate_eqv b w t n _ _ (by omega))
  vr := h.vr.frame (stiUpdate_eqv b w t n _ _ (by omega))
  roots := h.roots.frame (stiUpdate_eqv b w t n _ _ (by omega))
  mains := h.mains.frame (stiUpdate_eqv b w t n _ _ (by omega))
  ivs := h.ivs.frame (stiUpdate_eqv b w t n _ _ (by omega))
  ivlen := h.ivlen
  curr := h.curr.take w t n k (by have := (h.sane.2 w t).1; omega) (by have := (h.sane.2 w t).1; omega)
  base := h.base.frame (stiUpdate_eqv b w t n _ _ (by omega))
  nums := h.nums.frame (stiUpdate_eqv b w t n _ _ (by omega))
  bnum := h.bnum.frame (stiUpdate_eqv b w t n _ _ (by omega))
  sane := hs
  cap := h.cap

theorem Inv.nextGen {b v} (h : Inv b v) (hs : Sane (Spec.step v .nextGen)) :
    Inv (nextGen b) (Spec.step v .nextGen) := by
  have hg : generation b 4096 = v.gen := by
    show leVal (rd b 4128 8) = _
    rw [h.nums.gen, leVal_leBytes8 _ h.sane.1]
  have e : Super.nextGen b = wr b 4128 (leBytes 8 (v.gen + 1)) := by unfold Super.nextGen; rw [hg]
  have eq := fun lo hi => wr_eqv b 4128 8 (leBytes 8 (v.gen + 1)) (leBytes_length _ _) lo hi
  rw [e]
  exact {
  hdr := h.hdr.frame (eq _ _ (by omega))
  self := h.self.frame (eq _ _ (by omega)) (eq _ _ (by omega))
  orig := h.orig.frame (eq _ _ (by omega))
  vr := h.vr.frame (eq _ _ (by omega))
  roots := h.roots.frame (eq _ _ (by omega))
  mains := h.mains.frame (eq _ _ (by omega))
  ivs := h.ivs.frame (eq _ _ (by omega))
  ivlen := h.ivlen
  curr := h.curr.frame (eq _ _ (by omega))
  base := h.base.frame (eq _ _ (by omega))
  nums := ⟨(rd_wr_ne _ _ 8 _ (leBytes_length _ _) _ _ (by omega)).trans h.nums.cap,
    (rd_wr_ne _ _ 8 _ (leBytes_length _ _) _ _ (by omega)).trans h.nums.vsz, rd_wr _ _ _ _ (leBytes_length _ _)⟩
  bnum := h.bnum.frame (eq _ _ (by omega))
  sane := hs
  cap := h.cap }

theorem Inv.addFlags {b v} (h : Inv b v) (f : Nat) (hf : f < 4294967296) :
    Inv (setFlags b (f ||| flags b)) (Spec.step v (.addFlags f)) := by
  have hg : flags b = v.fossil := by
    show leVal (rd b 32 4) = _
    rw [h.hdr.flags, leVal_leBytes4 _ h.hdr.small]
  rw [hg]
  have eq := fun lo hi => wr_eqv b 32 4 (leBytes 4 (f ||| v.fossil)) (leBytes_length _ _) lo hi
  exact {
  hdr := ⟨(rd_wr_ne _ _ 4 _ (leBytes_length _ _) _ _ (by omega)).trans h.hdr.magic,
    (rd_wr_ne _ _ 4 _ (leBytes_length _ _) _ _ (by omega)).trans h.hdr.version, rd_wr _ _ _ _ (leBytes_length _ _),
    (rd_wr_ne _ _ 4 _ (leBytes_length _ _) _ _ (by omega)).trans h.hdr.uuid,
    Nat.or_lt_two_pow (n := 32) hf h.hdr.small⟩
  self := h.self.frame (eq _ _ (by omega)) (eq _ _ (by omega))
  orig := h.orig.frame (eq _ _ (by omega))
  vr := h.vr.frame (eq _ _ (by omega))
  roots := h.roots.frame (eq _ _ (by omega))
  mains := h.mains.frame (eq _ _ (by omega))
  ivs := h.ivs.frame (eq _ _ (by omega))
  ivlen := h.ivlen
  curr := h.curr.frame (eq _ _ (by omega))
  base := h.base.frame (eq _ _ (by omega))
  nums := h.nums.frame (eq _ _ (by omega))
  bnum := h.bnum.frame (eq _ _ (by omega))
  sane := h.sane
  cap := h.cap }

theorem Inv.cloneRoots {b v} (h : Inv b v) : Inv (cloneRoots b b) v where
  hdr := h.hdr.frame (cloneRoots_eqv b b _ _ (by omega))
  self := h.self.frame (cloneRoots_eqv b b _ _ (by omega)) (cloneRoots_eqv b b _ _ (by omega))
  orig := h.orig.frame (cloneRoots_eqv b b _ _ (by omega))
  vr := h.vr.frame (cloneRoots_eqv b b _ _ (by omega))
  roots := h.roots.clone
  mains := h.mains.frame (cloneRoots_eqv b b _ _ (by omega))
  ivs := h.ivs.frame (cloneRoots_eqv b b _ _ (by omega))
  ivlen := h.ivlen
  curr := h.curr.frame (cloneRoots_eqv b b _ _ (by omega))
  base := h.base.frame (cloneRoots_eqv b b _ _ (by omega))
  nums := h.nums.frame (cloneRoots_eqv b b _ _ (by omega))
  bnum := h.bnum.frame (cloneRoots_eqv b b _ _ (by omega))
  sane := h.sane
  cap := h.cap

theorem Inv.cloneIvs {b v} (s : Blk) (hs : PIvs s v.ivs) (h : Inv b v) : Inv (cloneIvs s b) v where
  hdr := h.hdr.frame (cloneIvs_eqv s b _ _ (by omega))
  self := h.self.frame (cloneIvs_eqv s b _ _ (by omega)) (cloneIvs_eqv s b _ _ (by omega))
  orig := h.orig.frame (cloneIvs_eqv s b _ _ (by omega))
  vr := h.vr.frame (cloneIvs_eqv s b _ _ (by omega))
  roots := h.roots.frame (cloneIvs_eqv s b _ _ (by omega))
  mains := h.mains.frame (cloneIvs_eqv s b _ _ (by omega))
  ivs := hs.clone
  ivlen := h.ivlen
  curr := h.curr.frame (cloneIvs_eqv s b _ _ (by omega))
  base := h.base.frame (cloneIvs_eqv s b _ _ (by omega))
  nums := h.nums.frame (cloneIvs_eqv s b _ _ (by omega))
  bnum := h.bnum.frame (cloneIvs_eqv s b _ _ (by omega))
  sane := h.sane
  cap := h.cap

theorem Inv.resetMains {b v} (h : Inv b v) : Inv (resetMains b) { v with mains := fun _ => none } where
  hdr := h.hdr.frame (resetMains_eqv b _ _ (by omega))
  self := h.self.frame (resetMains_eqv b _ _ (by omega)) (resetMains_eqv b _ _ (by omega))
  orig := h.orig.frame (resetMains_eqv b _ _ (by omega))
  vr := h.vr.frame (resetMains_eqv b _ _ (by omega))
  roots := h.roots.frame (resetMains_eqv b _ _ (by omega))
  mains := PMains.reset b
  ivs := h.ivs.frame (resetMains_eqv b _ _ (by omega))
  ivlen := h.ivlen
  curr := h.curr.frame (resetMains_eqv b _ _ (by omega))
  base := h.base.frame (resetMains_eqv b _ _ (by omega))
  nums := h.nums.frame (resetMains_eqv b _ _ (by omega))
  bnum := h.bnum.frame (resetMains_eqv b _ _ (by omega))
  sane := h.sane
  cap := h.cap

theorem setSelf_eqv (b : Blk) (u : Uaddr) (hu : Good u) (lo hi : Nat)
    (h : (hi ≤ 640 ∨ 704 ≤ lo) ∧ (hi ≤ 768 ∨ 784 ≤ lo)) : Eqv lo hi b (setSelf b u) :=
  (wr_eqv _ _ 64 _ (good_len hu) _ _ (by omega)).trans (wr_eqv _ _ 16 _ hu.fits.lsid.lvid.1 _ _ (by omega))

theorem PSelf.set (b : Blk) (u : Uaddr) (hu : Good u) (hl : u.laddr.lsid.ltype = LTYPE_SUPER) :
    PSelf (setSelf b u) u :=
  ⟨(rd_wr_ne _ _ 16 _ hu.fits.lsid.lvid.1 _ _ (by omega)).trans (rd_wr _ _ _ _ (good_len hu)),
   rd_wr _ _ _ _ hu.fits.lsid.lvid.1, hu, hl⟩

theorem Inv.setSelf {b v} (h : Inv b v) (u : Uaddr) (hu : Good u) (hl : u.laddr.lsid.ltype = LTYPE_SUPER) :
    Inv (setSelf b u) { v with self := u } where
  hdr := h.hdr.frame (setSelf_eqv b u hu _ _ (by omega))
  self := PSelf.set b u hu hl
  orig := h.orig.frame (setSelf_eqv b u hu _ _ (by omega))
  vr := h.vr.frame (setSelf_eqv b u hu _ _ (by omega))
  roots := h.roots.frame (setSelf_eqv b u hu _ _ (by omega))
  mains := h.mains.frame (setSelf_eqv b u hu _ _ (by omega))
  ivs := h.ivs.frame (setSelf_eqv b u hu _ _ (by omega))
  ivlen := h.ivlen
  curr := h.curr.frame (setSelf_eqv b u hu _ _ (by omega))
  base := h.base.frame (setSelf_eqv b u hu _ _ (by omega))
  nums := h.nums.frame (setSelf_eqv b u hu _ _ (by omega))
  bnum := h.bnum.frame (setSelf_eqv b u hu _ _ (by omega))
  sane := h.sane
  cap := h.cap

theorem Inv.setOrigin {b v} (h : Inv b v) (u : Uaddr) (hu : Good u) (hl : u.laddr.lsid.ltype = LTYPE_SUPER) :
    Inv (setOrigin b u) { v with origin := some u } where
  hdr := h.hdr.frame (wr_eqv b 704 64 _ (good_len hu) _ _ (by omega))
  self := h.self.frame (wr_eqv b 704 64 _ (good_len hu) _ _ (by omega)) (wr_eqv b 704 64 _ (good_len hu) _ _ (by omega))
  orig := ⟨rd_wr _ _ _ _ (good_len hu), fun a ha => by cases ha; exact ⟨hu, hl⟩⟩
  vr := h.vr.frame (wr_eqv b 704 64 _ (good_len hu) _ _ (by omega))
  roots := h.roots.frame (wr_eqv b 704 64 _ (good_len hu) _ _ (by omega))
  mains := h.mains.frame (wr_eqv b 704 64 _ (good_len hu) _ _ (by omega))
  ivs := h.ivs.frame (wr_eqv b 704 64 _ (good_len hu) _ _ (by omega))
  ivlen := h.ivlen
  curr := h.curr.frame (wr_eqv b 704 64 _ (good_len hu) _ _ (by omega))
  base := h.base.frame (wr_eqv b 704 64 _ (good_len hu) _ _ (by omega))
  nums := h.nums.frame (wr_eqv b 704 64 _ (good_len hu) _ _ (by omega))
  bnum := h.bnum.frame (wr_eqv b 704 64 _ (good_len hu) _ _ (by omega))
  sane := h.sane
  cap := h.cap

theorem Inv.birth {b v} (h : Inv b v) (l : List Nat) (hl : l.length = 64) : Inv (wr b 576 l) v where
  hdr := h.hdr.frame (wr_eqv b 576 64 l hl _ _ (by omega))
  self := h.self.frame (wr_eqv b 576 64 l hl _ _ (by omega)) (wr_eqv b 576 64 l hl _ _ (by omega))
  orig := h.orig.frame (wr_eqv b 576 64 l hl _ _ (by omega))
  vr := h.vr.frame (wr_eqv b 576 64 l hl _ _ (by omega))
  roots := h.roots.frame (wr_eqv b 576 64 l hl _ _ (by omega))
  mains := h.mains.frame (wr_eqv b 576 64 l hl _ _ (by omega))
  ivs := h.ivs.frame (wr_eqv b 576 64 l hl _ _ (by omega))
  ivlen := h.ivlen
  curr := h.curr.frame (wr_eqv b 576 64 l hl _ _ (by omega))
  base := h.base.frame (wr_eqv b 576 64 l hl _ _ (by omega))
  nums := h.nums.frame (wr_eqv b 576 64 l hl _ _ (by omega))
  bnum := h.bnum.frame (wr_eqv b 576 64 l hl _ _ (by omega))
  sane := h.sane
  cap := h.cap

theorem grp_collect (b : Blk) (c d : Grp → Nat → Int) (hc : PGauge b 4096 c) (hd : PGauge b 5120 d)
    (hb : ∀ w t, (-4611686018427387903 ≤ c w t ∧ c w t ≤ 4611686018427387903) ∧
      (-4611686018427387903 ≤ d w t ∧ d w t ≤ 4611686018427387903)) (w : Grp) (t : Nat) (h1 : 2 ≤ t) (h2 : t ≤ 12) :
    grp (Rep.collect (spstOut b 4096) (spstOut b 5120)) w t = c w t + d w t := by
  obtain ⟨k, hk⟩ := gaugeOff_kind h1 h2
  have e1 := gauge_val hc w t ⟨h1, h2⟩ (by have := (hb w t).1; omega) (by have := (hb w t).1; omega)
  have e2 := gauge_val hd w t ⟨h1, h2⟩ (by have := (hb w t).2; omega) (by have := (hb w t).2; omega)
  cases w <;> simp only [grp, Rep.collect, spstOut, hk, Option.isSome_some, if_true, e1, e2]

theorem Inv.renewStats {b v} (h : Inv b v)
    (hs : Sane { v with base := fun w t => v.curr w t + v.base w t, curr := fun _ _ => 0 }) :
    Inv (renewStats b) { v with base := fun w t => v.curr w t + v.base w t, curr := fun _ _ => 0 } := by
  have hcap : capacity b 4096 = v.cap := by
    show leVal (rd b 4112 8) = _
    rw [h.nums.cap, leVal_leBytes8 _ (by have := h.cap; omega)]
  have hvsz : vspacesize b 4096 = 288230376151711744 := by
    show leVal (rd b 4120 8) = _
    rw [h.nums.vsz, leVal_leBytes8 _ (by omega)]
  exact {
  hdr := h.hdr.frame (renewStats_eqv b _ _ (by omega))
  self := h.self.frame (renewStats_eqv b _ _ (by omega)) (renewStats_eqv b _ _ (by omega))
  orig := h.orig.frame (renewStats_eqv b _ _ (by omega))
  vr := h.vr.frame (renewStats_eqv b _ _ (by omega))
  roots := h.roots.frame (renewStats_eqv b _ _ (by omega))
  mains := h.mains.frame (renewStats_eqv b _ _ (by omega))
  ivs := h.ivs.frame (renewStats_eqv b _ _ (by omega))
  ivlen := h.ivlen
  curr := PGauge.zero fun i h1 h2 => renew_zero _ _ _ h1 h2
  base := (PGauge.export _ _ _ (grp_collect b v.curr v.base h.curr h.base h.sane.2)).frame
    (renew_eqv _ _ _ _ (by omega))
  nums := h.nums.frame (renewStats_eqv b _ _ (by omega))
  bnum := (PBnum.export b (Rep.collect (spstOut b 4096) (spstOut b 5120))
    (by show capacity b 4096 ≤ _; rw [hcap]; exact h.cap) (by show vspacesize b 4096 ≤ _; rw [hvsz]; omega)).frame
    (renew_eqv _ _ _ _ (by omega))
  sane := hs
  cap := h.cap }

theorem Inv.account {b v} (h : Inv b v) (hs : Sane { v with curr := countSuper v.curr }) :
    Inv (account b) { v with curr := countSuper v.curr } where
  hdr := h.hdr.frame (account_eqv b _ _ (by omega))
  self := h.self.frame (account_eqv b _ _ (by omega)) (account_eqv b _ _ (by omega))
  orig := h.orig.frame (account_eqv b _ _ (by omega))
  vr := h.vr.frame (account_eqv b _ _ (by omega))
  roots := h.roots.frame (account_eqv b _ _ (by omega))
  mains := h.mains.frame (account_eqv b _ _ (by omega))
  ivs := h.ivs.frame (account_eqv b _ _ (by omega))
  ivlen := h.ivlen
  curr := h.curr.account fun w => by have := (h.sane.2 w LTYPE_SUPER).1; omega
  base := h.base.frame (account_eqv b _ _ (by omega))
  nums := h.nums.frame (account_eqv b _ _ (by omega))
  bnum := h.bnum.frame (account_eqv b _ _ (by omega))
  sane := hs
  cap := h.cap

theorem Inv.step {b v} (h : Inv b v) (op : Op) (ho : Ok op) (hs : Sane (Spec.step v op)) :
    Inv (Super.step b op) (Spec.step v op) := by
  cases op with
  | bindRoot t u iv => exact (h.setRoot t u ho.2.1 ho.2.2.1 ho.2.2.2.1).setIv t iv ho.2.2.2.2
  | bindMain t l => exact h.setMain t l ho.2.1 ho.2.2
  | take w t n => exact h.take w t n ho hs
  | nextGen => exact h.nextGen hs
  | addFlags f => exact h.addFlags f ho
  | fork self birth =>
    have hself : selfOf b = v.self := by unfold selfOf; rw [h.self.self, good_round h.self.good]
    show Inv (makeClone b self (selfOf b) birth) _
    rw [hself]
    have h1 := (h.cloneRoots.cloneIvs b h.ivs).resetMains
    have h2 := (h1.setSelf self ho.1 ho.2.1).setOrigin v.self h.self.good h.self.super
    have h3 := h2.renewStats ⟨h.sane.1, fun w t => ⟨by simp, (hs.2 w t).2⟩⟩
    exact (h3.birth birth ho.2.2).account hs

theorem Inv.run {b v ops v'} (h : Inv b v) (l : Life v ops v') : Inv (Super.run b ops) v' := by
  induction l with
  | nil => exact h
  | snoc l ho hs ih =>
    unfold Super.run at *
    rw [List.foldl_append]
    exact ih.step _ ho hs

end Silofs.Super
