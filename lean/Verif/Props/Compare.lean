import Verif.Model.Compare
import Verif.Props.Avl
/-
C42: comparison of addresses.
-/
set_option linter.unusedSimpArgs false
set_option linter.unusedVariables false
namespace Silofs.Compare
open Silofs.Addr
open Silofs.Avl (Order)

/-- Well-formed addresses: ids have 16 bytes, types are values of their enumeration. -/
def Lsid.Wf (x : Lsid) : Prop := x.lvid.length = 16
def PAddr.Wf (x : PAddr) : Prop := x.pvid.length = 16
def Vaddr.Wf (x : Vaddr) : Prop := x.ltype < 4294967296

theorem thn_zero (c d : Int) : thn c d = 0 ↔ c = 0 ∧ d = 0 := by
  unfold thn
  split
  · rename_i h
    exact ⟨fun e => absurd e h, fun e => e.1⟩
  · rename_i h
    have : c = 0 := by omega
    simp [this]

theorem memcmp_zero (x y : List Nat) (h : x.length = y.length) : memcmp x y = 0 ↔ x = y := by
  induction x generalizing y with
  | nil =>
    cases y with
    | nil => simp [memcmp]
    | cons b ys => simp at h
  | cons a xs ih =>
    cases y with
    | nil => simp at h
    | cons b ys =>
      simp only [memcmp]
      split
      · rename_i e
        subst e
        rw [ih ys (by simpa using h)]
        simp
      · rename_i e
        constructor
        · intro h'
          omega
        · intro h'
          exact absurd (List.cons.inj h').1 e

/-! ### Equality -/

/-- **C42** Addresses compare as equal exactly if they are the same. -/
theorem C42_laddr_equal (x y : Laddr) (hx : Lsid.Wf x.lsid) (hy : Lsid.Wf y.lsid) : laddrCompare x y = 0 ↔ x = y := by
  unfold laddrCompare lsidCompare
  simp only [thn_zero, uuidCompare]
  rw [memcmp_zero _ _ (hx.trans hy.symm)]
  obtain ⟨⟨l1, s1, v1, p1, h1, t1⟩, o1, n1⟩ := x
  obtain ⟨⟨l2, s2, v2, p2, h2, t2⟩, o2, n2⟩ := y
  simp only [Laddr.mk.injEq, Lsid.mk.injEq]
  constructor
  · rintro ⟨⟨e1, e2, e3, e4, e5, e6, _⟩, e7, e8, _⟩
    exact ⟨⟨e1, by omega, by omega, by omega, by omega, by omega⟩, by omega, by omega⟩
  · rintro ⟨⟨e1, e2, e3, e4, e5, e6⟩, e7, e8⟩
    exact ⟨⟨e1, by omega, by omega, by omega, by omega, by omega, trivial⟩, by omega, by omega, trivial⟩

theorem C42_uaddr_equal (x y : UAddr) (hx : Lsid.Wf x.laddr.lsid) (hy : Lsid.Wf y.laddr.lsid) :
    uaddrCompare x y = 0 ↔ x = y := by
  unfold uaddrCompare
  simp only [thn_zero]
  rw [C42_laddr_equal _ _ hx hy]
  obtain ⟨l1, o1⟩ := x
  obtain ⟨l2, o2⟩ := y
  simp only [UAddr.mk.injEq]
  constructor
  · rintro ⟨e1, e2, _⟩; exact ⟨e1, by omega⟩
  · rintro ⟨e1, e2⟩; exact ⟨e1, by omega, trivial⟩

theorem C42_paddr_equal (x y : PAddr) (hx : PAddr.Wf x) (hy : PAddr.Wf y) : paddrCompare x y = 0 ↔ x = y := by
  unfold paddrCompare
  simp only [thn_zero, uuidCompare]
  rw [memcmp_zero _ _ (hx.trans hy.symm)]
  obtain ⟨l1, i1, o1, n1, t1⟩ := x
  obtain ⟨l2, i2, o2, n2, t2⟩ := y
  simp only [PAddr.mk.injEq]
  constructor
  · rintro ⟨⟨e1, e2, _⟩, e3, e4, e5, _⟩; exact ⟨e1, by omega, by omega, by omega, by omega⟩
  · rintro ⟨e1, e2, e3, e4, e5⟩; exact ⟨⟨e1, by omega, trivial⟩, by omega, by omega, by omega, trivial⟩

theorem enumSub_zero (x y : Nat) (hx : x < 4294967296) (hy : y < 4294967296) : enumSub x y = 0 ↔ x = y := by
  unfold enumSub
  omega

theorem C42_vaddr_equal (x y : Vaddr) (hx : Vaddr.Wf x) (hy : Vaddr.Wf y) : vaddrCompare x y = 0 ↔ x = y := by
  unfold vaddrCompare
  simp only [thn_zero]
  rw [enumSub_zero _ _ hx hy]
  obtain ⟨t1, o1, n1⟩ := x
  obtain ⟨t2, o2, n2⟩ := y
  simp only [Vaddr.mk.injEq]
  constructor
  · rintro ⟨e1, e2, e3, _⟩; exact ⟨e1, by omega, by omega⟩
  · rintro ⟨e1, e2, e3⟩; exact ⟨e1, by omega, by omega, trivial⟩

theorem C42_blobid_equal (x y : List Nat) : blobidCompare x y = 0 ↔ x = y := by
  unfold blobidCompare
  split
  · exact memcmp_zero x y (by omega)
  · rename_i h
    constructor
    · intro e; exact absurd e h
    · rintro rfl; omega

def HKey.Wf : HKey → Prop
  | .none => True
  | .blobid _ => True
  | .paddr p => PAddr.Wf p
  | .uaddr u => Lsid.Wf u.laddr.lsid
  | .vaddr v => Vaddr.Wf v

/-- **C42** Keys of cached objects compare as equal exactly if they are the same address of the same kind. -/
theorem C42_key_equal (x y : HKey) (hx : x.Wf) (hy : y.Wf) : hkeyCompare x y = 0 ↔ x = y := by
  unfold hkeyCompare
  cases x <;> cases y <;> simp [HKey.type, hkeyCompareAs]
  · exact C42_blobid_equal _ _
  · exact C42_paddr_equal _ _ hx hy
  · exact C42_uaddr_equal _ _ hx hy
  · exact C42_vaddr_equal _ _ hx hy

/-! ### Order -/

theorem order_fwd : Order (fun x y : Int => x - y) := ⟨fun x y => by omega, fun x y z => by omega⟩
theorem order_rev : Order (fun x y : Int => y - x) := ⟨fun x y => by omega, fun x y z => by omega⟩
theorem order_zero {κ : Type} : Order (fun _ _ : κ => (0 : Int)) := ⟨fun x y => by omega, fun x y z => by omega⟩

theorem order_on {κ ι : Type} {cmp : κ → κ → Int} (o : Order cmp) (f : ι → κ) : Order (fun x y => cmp (f x) (f y)) :=
  ⟨fun x y => o.asym _ _, fun x y z => o.trans _ _ _⟩

theorem order_thn {κ : Type} {f g : κ → κ → Int} (of : Order f) (og : Order g) : Order (fun x y => thn (f x y) (g x y)) := by
  constructor
  · intro x y
    have a1 := of.asym x y
    have a2 := of.asym y x
    have a3 := og.asym x y
    show 0 < thn (f x y) (g x y) ↔ thn (f y x) (g y x) < 0
    unfold thn
    split <;> split <;> omega
  · intro x y z
    show 0 ≤ thn (f x y) (g x y) → 0 ≤ thn (f y z) (g y z) → 0 ≤ thn (f x z) (g x z)
    have t1 := of.trans x y z
    have t2 := of.trans z y x
    have t3 := og.trans x y z
    have a1 := of.asym x y
    have a2 := of.asym y x
    have a3 := of.asym y z
    have a4 := of.asym z y
    have a5 := of.asym x z
    have a6 := of.asym z x
    have t4 := of.trans y z x
    have t5 := of.trans z x y
    unfold thn
    split <;> split <;> split <;> omega

theorem memcmp_asym (x y : List Nat) : memcmp x y = - memcmp y x := by
  induction x generalizing y with
  | nil => cases y <;> simp [memcmp]
  | cons a xs ih =>
    cases y with
    | nil => simp [memcmp]
    | cons b ys =>
      simp only [memcmp]
      by_cases e : a = b
      · subst e
        simp only [if_true]
        exact ih ys
      · rw [if_neg e, if_neg (fun h => e h.symm)]
        omega

theorem memcmp_trans (x y z : List Nat) (h1 : x.length = y.length) (h2 : y.length = z.length) (a : memcmp x y ≤ 0)
    (b : memcmp y z ≤ 0) : memcmp x z ≤ 0 := by
  induction x generalizing y z with
  | nil => simp [memcmp]
  | cons p xs ih =>
    cases y with
    | nil => simp at h1
    | cons q ys =>
      cases z with
      | nil => simp at h2
      | cons r zs =>
        simp only [memcmp] at a b ⊢
        by_cases e1 : p = q
        · subst e1
          rw [if_pos rfl] at a
          by_cases e2 : p = r
          · subst e2
            rw [if_pos rfl] at b ⊢
            exact ih ys zs (by simpa using h1) (by simpa using h2) a b
          · rw [if_neg e2] at b ⊢
            exact b
        · rw [if_neg e1] at a
          by_cases e2 : q = r
          · subst e2
            rw [if_neg e1]
            exact a
          · rw [if_neg e2] at b
            by_cases e3 : p = r
            · omega
            · rw [if_neg e3]
              omega

/-- Buffers of one length -/
def Buf (n : Nat) := { l : List Nat // l.length = n }

theorem order_memcmp (n : Nat) : Order (fun x y : Buf n => memcmp x.1 y.1) := by
  constructor
  · intro x y
    have := memcmp_asym x.1 y.1
    show 0 < memcmp x.1 y.1 ↔ memcmp y.1 x.1 < 0
    omega
  · intro x y z h1 h2
    have a1 := memcmp_asym x.1 y.1
    have a2 := memcmp_asym y.1 z.1
    have a3 := memcmp_asym x.1 z.1
    have t := memcmp_trans z.1 y.1 x.1 (z.2.trans y.2.symm) (y.2.trans x.2.symm)
    show 0 ≤ memcmp x.1 z.1
    replace h1 : 0 ≤ memcmp x.1 y.1 := h1
    replace h2 : 0 ≤ memcmp y.1 z.1 := h2
    omega

def WLaddr := { a : Laddr // Lsid.Wf a.lsid }
def WUAddr := { a : UAddr // Lsid.Wf a.laddr.lsid }
def WPAddr := { a : PAddr // PAddr.Wf a }

/-- **C42** Comparison of logical addresses is an order. -/
theorem C42_laddr_order : Order (fun x y : WLaddr => laddrCompare x.1 y.1) := by
  have r := fun f : WLaddr → Nat => order_on order_rev (fun x => (f x : Int))
  have u : Order (fun x y : WLaddr => uuidCompare x.1.lsid.lvid y.1.lsid.lvid) :=
    order_on (order_memcmp 16) (fun x : WLaddr => (⟨x.1.lsid.lvid, x.2⟩ : Buf 16))
  exact order_thn (order_thn u (order_thn (r (·.1.lsid.height)) (order_thn (r (·.1.lsid.vindex))
    (order_thn (r (·.1.lsid.vspace)) (order_thn (r (·.1.lsid.ltype)) (order_thn (r (·.1.lsid.lsize)) order_zero))))))
    (order_thn (order_on order_fwd (fun x : WLaddr => x.1.pos))
      (order_thn (order_on order_fwd (fun x : WLaddr => (x.1.len : Int))) order_zero))

/-- **C42** Comparison of unode addresses is an order. -/
theorem C42_uaddr_order : Order (fun x y : WUAddr => uaddrCompare x.1 y.1) :=
  order_thn (order_on C42_laddr_order (fun x : WUAddr => (⟨x.1.laddr, x.2⟩ : WLaddr)))
    (order_thn (order_on order_fwd (fun x : WUAddr => x.1.voff)) order_zero)

/-- **C42** Comparison of persistent addresses is an order. -/
theorem C42_paddr_order : Order (fun x y : WPAddr => paddrCompare x.1 y.1) := by
  have u : Order (fun x y : WPAddr => uuidCompare x.1.pvid y.1.pvid) :=
    order_on (order_memcmp 16) (fun x : WPAddr => (⟨x.1.pvid, x.2⟩ : Buf 16))
  exact order_thn (order_thn u (order_thn (order_on order_rev (fun x : WPAddr => (x.1.index : Int))) order_zero))
    (order_thn (order_on order_fwd (fun x : WPAddr => x.1.off))
      (order_thn (order_on order_fwd (fun x : WPAddr => (x.1.len : Int)))
        (order_thn (order_on order_fwd (fun x : WPAddr => (x.1.ptype : Int))) order_zero)))

/-- **C42**, what holds of virtual addresses: among addresses of one type the comparison is an order. -/
theorem C42_vaddr_order_partial (t : Nat) : Order (fun x y : { v : Vaddr // v.ltype = t } => vaddrCompare x.1 y.1) := by
  have h : (fun x y : { v : Vaddr // v.ltype = t } => vaddrCompare x.1 y.1) =
      (fun x y => thn (x.1.off - y.1.off) (thn ((x.1.len : Int) - y.1.len) 0)) := by
    funext x y
    unfold vaddrCompare
    have : enumSub x.1.ltype y.1.ltype = 0 := by
      rw [x.2, y.2]
      unfold enumSub
      omega
    rw [this]
    simp [thn]
  rw [h]
  exact order_thn (order_on order_fwd (fun x : { v : Vaddr // v.ltype = t } => x.1.off))
    (order_thn (order_on order_fwd (fun x : { v : Vaddr // v.ltype = t } => (x.1.len : Int))) order_zero)

/-- **C42** fails for virtual addresses of two types: each of them compares as less than the other. -/
theorem C42_vaddr_order_violated (x y : Vaddr) (hx : Vaddr.Wf x) (hy : Vaddr.Wf y) (hne : x.ltype ≠ y.ltype) :
    0 < vaddrCompare x y ∧ 0 < vaddrCompare y x := by
  unfold Vaddr.Wf at hx hy
  have h1 : 0 < enumSub x.ltype y.ltype := by unfold enumSub; omega
  have h2 : 0 < enumSub y.ltype x.ltype := by unfold enumSub; omega
  unfold vaddrCompare thn
  constructor
  · rw [if_pos (by omega)]; exact h1
  · rw [if_pos (by omega)]; exact h2

/-- For instance an inode and a directory node -/
example : 0 < vaddrCompare (vaddrSetup LTYPE_INODE 65536) (vaddrSetup LTYPE_DTNODE 131072) ∧
    0 < vaddrCompare (vaddrSetup LTYPE_DTNODE 131072) (vaddrSetup LTYPE_INODE 65536) := by decide

/-! So the order of writing a set of dirty objects depends on the order in which they were found. -/

/-- The order of an iteration over a tree of objects after inserting them one by one (flush.c:135-139, 209-227) -/
def dsetOrder (l : List Vaddr) : Option (List Vaddr) :=
  match (Avl.Avl.empty : Avl.Avl Vaddr).run vaddrCompare id (l.map .insert) with
  | none => none
  | some v => some (Avl.walk v.root (l.length + 1) v.min)

/-- **C42** fails: the same three objects, found in two orders, are sorted into two different orders. -/
theorem C42_dirty_order_violated :
    ∃ a b c : Vaddr, Vaddr.Wf a ∧ Vaddr.Wf b ∧ Vaddr.Wf c ∧ dsetOrder [a, b, c] = some [a, b, c] ∧
      dsetOrder [c, b, a] = some [c, b, a] :=
  ⟨vaddrSetup LTYPE_INODE 65536, vaddrSetup LTYPE_XANODE 131072, vaddrSetup LTYPE_DTNODE 262144,
    (by decide : (5 : Nat) < 4294967296), (by decide : (6 : Nat) < 4294967296), (by decide : (8 : Nat) < 4294967296),
    by decide +kernel, by decide +kernel⟩

/-- **C42** With an order it does not: two trees with the same elements, no two of which compare as equal, are iterated
in the same order. -/
theorem C42_order_unique {α κ : Type} [DecidableEq α] {cmp : κ → κ → Int} {key : α → κ} (o : Order cmp) {v w : Avl.Avl α}
    {l m : List α} (hv : Avl.Holds cmp key v l) (hw : Avl.Holds cmp key w m) (hp : l.Perm m)
    (hne : ∀ a ∈ l, ∀ b ∈ l, cmp (key a) (key b) = 0 → a = b) : l = m := by
  apply List.Perm.eq_of_pairwise (le := fun a b => 0 ≤ cmp (key a) (key b)) _ hv.sorted hw.sorted hp
  intro a b ha hb h1 h2
  have := o.asym (key a) (key b)
  have := o.asym (key b) (key a)
  exact hne a ha b (hp.mem_iff.2 hb) (by omega)

end Silofs.Compare
