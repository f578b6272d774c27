import Verif.Model.Verify
import Verif.Props.XattrNode
import Verif.Props.FileMap
import Verif.Props.AllocProps
/-
C43, nodes of extended attributes, nodes of the tree of a file and leaves of the space map.
-/
set_option linter.unusedSimpArgs false
set_option linter.unusedVariables false

namespace Silofs.Xattr

/-! ### What is stored is accepted -/

theorem verifyRange_ok {buf : Nat → Nat} {tip : Nat} (ht : tip ≤ nentsMax) : ∀ {es : List Entry} {u : Nat},
    Rep buf u es tip → (∀ e ∈ es, 0 < e.1.length ∧ e.Ok) → verifyRange buf tip u = some true := by
  intro es
  induction es with
  | nil =>
    intro u h _
    have hu : u = tip := h
    rw [verifyRange, if_neg (by omega)]
  | cons e es ih =>
    intro u h ho
    have hle := h.2.le
    have hp := units_pos e
    obtain ⟨o1, o2, o3⟩ := ho e (by simp)
    unfold nameMax at o2
    rw [verifyRange, if_pos (by omega), if_pos (by omega), if_pos (by
      unfold entOk
      rw [h.1.nameLen, h.1.valSize]
      simp only [Bool.and_eq_true, decide_eq_true_eq]
      omega), h.1.units, if_neg (by omega)]
    exact ih h.2 (fun x hx => ho x (by simp [hx]))

/-- Calls on a node. -/
inductive NOp where
  | insert (name value : Bytes)
  | remove (name : Bytes)

/-- Names and values as checked by the callers (xattr.c:636-660). -/
def NOp.Valid : NOp → Prop
  | .insert name value => 0 < name.length ∧ name.length ≤ nameMax ∧ value.length ≤ valueMax
  | .remove _ => True

def Node.step (n : Node) : NOp → Node
  | .insert name value => (n.insert name value).getD n
  | .remove name => match n.search name with
    | none => n
    | some u => n.remove u

def Node.run (n : Node) : List NOp → Node
  | [] => n
  | o :: os => (n.step o).run os

theorem run_holds (os : List NOp) (ho : ∀ o ∈ os, o.Valid) : ∀ (n : Node) (es : List Entry), n.Rep es →
    n.nents ≤ nentsMax → (∀ e ∈ es, 0 < e.1.length ∧ e.Ok) →
    ∃ es', (n.run os).Rep es' ∧ (n.run os).nents ≤ nentsMax ∧ ∀ e ∈ es', 0 < e.1.length ∧ e.Ok := by
  induction os with
  | nil => intro n es h1 h2 h3; exact ⟨es, h1, h2, h3⟩
  | cons o os ih =>
    intro n es h1 h2 h3
    have ih' := ih (fun x hx => ho x (by simp [hx]))
    have hv := ho o (by simp)
    show ∃ es', ((n.step o).run os).Rep es' ∧ ((n.step o).run os).nents ≤ nentsMax ∧ _
    cases o with
    | insert name value =>
      have hi := h1.insert (name := name) (value := value) hv.2.1 hv.2.2
      have hstep : n.step (.insert name value) = (n.insert name value).getD n := rfl
      rw [hstep]
      cases hc : n.insert name value with
      | none => exact ih' n es h1 h2 h3
      | some n' =>
        rw [hc] at hi
        refine ih' n' _ hi.1 (hi.2 h2) ?_
        intro e he
        rcases List.mem_append.1 he with h | h
        · exact h3 e h
        · obtain rfl := List.mem_singleton.1 h
          exact ⟨hv.1, hv.2.1, hv.2.2⟩
    | remove name =>
      have hs := h1.search name
      have hstep : n.step (.remove name) = match n.search name with
        | none => n
        | some u => n.remove u := rfl
      rw [hstep]
      cases hc : n.search name with
      | none => exact ih' n es h1 h2 h3
      | some w =>
        rw [hc] at hs
        obtain ⟨es1, e, es2, rfl, _, _, r1, r2, r3⟩ := hs
        obtain ⟨q1, q2⟩ := Node.Rep.remove r1 r2 r3
        refine ih' _ _ q1 (Nat.le_trans q2 h2) ?_
        intro x hx
        refine h3 x ?_
        rcases List.mem_append.1 hx with h | h
        · exact List.mem_append_left _ h
        · exact List.mem_append_right _ (List.mem_cons_of_mem _ h)

/-- **C43** (nodes of attributes are accepted).  Whatever is set and removed in a fresh node, it is accepted when
loaded again. -/
theorem C43_xattr_accepts (os : List NOp) (ho : ∀ o ∈ os, o.Valid) (ino : Nat) (hi : 0 < ino) :
    (emptyNode.run os).verify ino = some true := by
  obtain ⟨es, h1, h2, h3⟩ := run_holds os ho emptyNode [] emptyNode_rep (Nat.zero_le _) (by intro e h; cases h)
  unfold Node.verify
  rw [if_neg (by omega)]
  exact verifyRange_ok h2 h1 h3

example : ∀ o ∈ [NOp.insert [97] [1, 2, 3], .insert [98] [], .remove [97]], o.Valid := by
  intro o ho
  simp only [List.mem_cons, List.not_mem_nil, or_false] at ho
  rcases ho with rfl | rfl | rfl
  · exact ⟨by decide, by decide, by decide⟩
  · exact ⟨by decide, by decide, by decide⟩
  · trivial

/-! ### What is accepted is safe, where entries end within the node -/

/-- Units at which a walk of the node meets an entry. -/
inductive Met (buf : Nat → Nat) (tip : Nat) : Nat → Prop
  | zero : Met buf tip 0
  | next {u : Nat} : Met buf tip u → u < tip → Met buf tip (u + entUnits buf u)

theorem searchIn_safe {buf : Nat → Nat} {tip : Nat} (ht : tip ≤ nentsMax) (name : Bytes)
    (hend : ∀ u, Met buf tip u → u < tip → u + entUnits buf u ≤ tip) : ∀ m u, m = tip - u → Met buf tip u →
    ∃ r, searchIn buf name u tip = some r ∧ ∀ w, r = some w → (∃ v, valueIn buf w = some v) := by
  intro m
  induction m using Nat.strongRecOn with
  | _ m ih =>
    intro u hm hu
    rw [searchIn]
    by_cases h : u < tip
    · have he := hend u hu h
      have hp : 1 ≤ entUnits buf u := by unfold entUnits units; omega
      have hun : 8 * entUnits buf u = 8 + up8 (nameLen buf u) + up8 (valSize buf u) := up8_div _ _
      have l1 := up8_le (nameLen buf u)
      have l2 := up8_le (valSize buf u)
      have hrec := ih (tip - (u + entUnits buf u)) (by omega) (u + entUnits buf u) rfl (.next hu h)
      rw [if_pos h, if_pos (by omega)]
      by_cases hl : name.length = nameLen buf u
      · rw [if_pos hl, if_pos (by omega)]
        split
        · refine ⟨_, rfl, ?_⟩
          intro w hw
          cases hw
          refine ⟨valueOf buf u, ?_⟩
          unfold valueIn
          rw [if_pos (by omega)]
        · exact hrec
      · rw [if_neg hl]
        exact hrec
    · rw [if_neg h]
      exact ⟨none, rfl, by intro w hw; cases hw⟩

/-- **C43** (partial: only when every entry ends within the used units and these are at most 504, neither of which
is verified, see `C43_xattr_safe_violated` and `C43_xattr_count_violated`).  Whatever the bytes of a node are, looking
for any name and reading the value found stay within the node. -/
theorem C43_xattr_safe_partial (n : Node) (ht : n.nents ≤ nentsMax)
    (hend : ∀ u, Met n.buf n.nents u → u < n.nents → u + entUnits n.buf u ≤ n.nents) (name : Bytes) :
    ∃ r, searchIn n.buf name 0 n.nents = some r ∧ ∀ w, r = some w → (∃ v, valueIn n.buf w = some v) :=
  searchIn_safe ht name hend _ 0 rfl .zero

/-- Two entries; the first takes 257 units, the second pretends to take 289. -/
def badBuf (x : Nat) : Nat :=
  if x = 0 then 1 else if x = 4 then 248 else if x = 5 then 7
  else if x = 2056 then 255 else if x = 2061 then 8 else if x < 2064 then 0 else 97

/-- The claim is false of the code: an entry whose value goes beyond the node is accepted, because its size is
compared with the distance to the beginning of the node. -/
theorem C43_xattr_safe_violated :
    ∃ n : Node, n.nents = nentsMax ∧ n.verify 3 = some true ∧
      searchIn n.buf (List.replicate 255 97) 0 n.nents = some (some 257) ∧ valueIn n.buf 257 = none := by
  refine ⟨⟨badBuf, nentsMax⟩, rfl, ?_, ?_, by decide +kernel⟩
  · unfold Node.verify
    rw [if_neg (by decide), verifyRange, if_pos (by decide), if_pos (by decide), if_pos (by decide),
      if_neg (by decide), show 0 + entUnits badBuf 0 = 257 by decide, verifyRange, if_pos (by decide),
      if_pos (by decide), if_pos (by decide), if_neg (by decide), show 257 + entUnits badBuf 257 = 546 by decide,
      verifyRange, if_neg (by decide)]
  · rw [searchIn, if_pos (by decide), if_pos (by decide), if_neg (by decide +kernel),
      show 0 + entUnits badBuf 0 = 257 by decide, searchIn, if_pos (by decide), if_pos (by decide),
      if_pos (by decide +kernel), if_pos (by decide +kernel), if_pos (by decide +kernel)]

/-- Two entries that fill the node. -/
def fullBuf (x : Nat) : Nat :=
  if x = 0 then 1 else if x = 4 then 248 else if x = 5 then 7
  else if x = 2056 then 1 else if x = 2060 then 168 else if x = 2061 then 7 else if x < 2064 then 0 else 97

/-- Nor is the number of units verified: a node that claims to use more than there are makes verification itself
read beyond the node. -/
theorem C43_xattr_count_violated : ∃ n : Node, nentsMax < n.nents ∧ n.nents < 65536 ∧ n.verify 3 = none := by
  refine ⟨⟨fullBuf, 505⟩, by decide, by decide, ?_⟩
  unfold Node.verify
  rw [if_neg (by decide), verifyRange, if_pos (by decide), if_pos (by decide), if_pos (by decide),
    if_neg (by decide), show 0 + entUnits fullBuf 0 = 257 by decide, verifyRange, if_pos (by decide),
    if_pos (by decide), if_pos (by decide), if_neg (by decide), show 257 + entUnits fullBuf 257 = 504 by decide,
    verifyRange, if_pos (by decide), if_neg (by decide)]

/-- A node in which every entry ends within the used units. -/
example : ∃ n : Node, 0 < n.nents ∧ n.nents ≤ nentsMax ∧
    ∀ u, Met n.buf n.nents u → u < n.nents → u + entUnits n.buf u ≤ n.nents := by
  refine ⟨⟨fullBuf, 504⟩, by decide, by decide, ?_⟩
  have key : ∀ u, Met fullBuf 504 u → u = 0 ∨ u = 257 ∨ u = 504 := by
    intro u h
    induction h with
    | zero => exact Or.inl rfl
    | next h1 h2 ih =>
      rcases ih with rfl | rfl | rfl
      · exact Or.inr (Or.inl (by decide))
      · exact Or.inr (Or.inr (by decide))
      · omega
  intro u hu hlt
  rcases key u hu with rfl | rfl | rfl
  · decide
  · decide
  · exact absurd hlt (by decide)

end Silofs.Xattr

namespace Silofs.File

/-- **C43** (nodes of the tree of a file are accepted).  Every node made for an offset of a file, at any height
trees have, is accepted when loaded again. -/
theorem C43_ftree_accepts (ino off h : Nat) (hi : 0 < ino) (h1 : 2 ≤ h) (h2 : h ≤ 5) :
    (FNode.init ino off h).verify = some true := by
  have hs : 0 < spanOf h := by
    unfold spanOf
    rw [if_pos (by omega)]
    exact Nat.mul_pos (by decide) (Nat.pow_pos (by decide))
  unfold FNode.verify FNode.init
  simp only
  generalize offAlign off (spanOf h) = a
  rw [if_neg (by omega), if_neg (by omega), if_neg (by omega), if_neg (by omega), if_neg (by omega),
    if_neg (by simp), if_pos h2]
  congr 1
  simp

/-- **C43** (what is accepted is safe).  Whatever a node of the tree of a file says, if it passes verification then
every offset in its range belongs to one of its 1024 children. -/
theorem C43_ftree_safe (n : FNode) (h : n.verify = some true) (off : Nat) (h1 : n.beg ≤ off) (h2 : (off : Int) < n.end_) :
    n.slotOf off < 1024 := by
  unfold FNode.verify at h
  split at h
  · cases h
  split at h
  · cases h
  split at h
  · cases h
  split at h
  · cases h
  rename_i hh
  split at h
  · cases h
  rename_i hspan
  split at h
  · cases h
  split at h
  case isFalse => cases h
  rename_i h5
  have hsp : n.end_ - n.beg = (spanOf n.height : Nat) := Classical.byContradiction fun hc => hspan hc
  have hd : spanOf n.height = 1024 * (64 * 2 ^ ((n.height - 1) * 10)) := by
    unfold spanOf
    rw [if_pos (by omega)]
    omega
  have hp : 0 < 64 * 2 ^ ((n.height - 1) * 10) := Nat.mul_pos (by decide) (Nat.pow_pos (by decide))
  generalize 64 * 2 ^ ((n.height - 1) * 10) = w at hd hp
  unfold FNode.slotOf slotBy
  rw [hsp, Int.toNat_natCast, hd, Nat.mul_div_cancel_left _ (by decide)]
  rw [Nat.div_lt_iff_lt_mul hp]
  have hr : off - n.beg.toNat < 1024 * w := by omega
  have : (off - n.beg.toNat) / 1024 < w := by
    rw [Nat.div_lt_iff_lt_mul (by decide)]; omega
  rw [Nat.mul_comm 1024 w]
  exact Nat.mul_lt_mul_of_pos_right this (by decide)

example : (FNode.init 7 (2 ^ 40) 4).verify = some true ∧ (FNode.init 7 (2 ^ 40) 4).beg ≤ (2 ^ 40 : Nat) ∧
    ((2 ^ 40 : Nat) : Int) < (FNode.init 7 (2 ^ 40) 4).end_ := by decide +kernel

/-- Heights of 6 and 7 pass the check of heights, and then the process dies by an expectation in place of refusing
the node. -/
theorem C43_ftree_dies_violated : ∃ n : FNode, n.height = 6 ∧ n.verify = none :=
  ⟨⟨7, 0, 2 ^ 63 - 1, 6, false⟩, rfl, by decide +kernel⟩

end Silofs.File

namespace Silofs.Space
open Silofs.Addr

/-- **C43** (partial: while every block has fewer than 2^31 - 1 users).  In every reachable state of the allocator
every leaf of the space maps is accepted when loaded again. -/
theorem C43_leaf_accepts_partial {cap vend cm sp : Nat} {s : Sys} {b : Book}
    (h : Reach (initSys cap vend cm sp) s b) (t k : Nat) (hk : isVnode t = true)
    (hr : ∀ off, b.r t off < 2147483647) : (s.vs t).verifyLeaf k = true := by
  obtain ⟨hi, _⟩ := reach_inv h
  unfold VSpace.verifyLeaf
  rw [List.all_eq_true]
  intro i _
  unfold Bkr.verify
  rw [(hi.v t hk).db]
  apply decide_eq_true
  split
  · have := hr ((256 * k + i) * 65536); omega
  · omega

/-- An oracle without failures. -/
def okO : Oracle := ⟨fun _ => ⟨none, 0, true, true⟩, ⟨none, 0, true, true⟩, none, true, true⟩

/-- A new file-system of 2G. -/
def sys0 : Sys := initSys 2147483648 1099511627776 1000 1000

theorem claim_ok : ∃ s, claim sys0 LTYPE_DATABK okO = some (s, .ok 0) ∧ (s.vs LTYPE_DATABK).spawned 0 = true ∧
    (s.vs LTYPE_DATABK).nused 0 = LBK := by
  have h : (match claim sys0 LTYPE_DATABK okO with
    | some (s, .ok off) => decide (off = 0) && (s.vs LTYPE_DATABK).spawned 0 &&
        decide ((s.vs LTYPE_DATABK).nused 0 = LBK)
    | _ => false) = true := by decide +kernel
  cases hc : claim sys0 LTYPE_DATABK okO with
  | none => rw [hc] at h; cases h
  | some v =>
    obtain ⟨s, r⟩ := v
    rw [hc] at h
    cases r with
    | error e => cases h
    | ok off =>
      simp only [Bool.and_eq_true, decide_eq_true_eq] at h
      obtain ⟨⟨rfl, h2⟩, h3⟩ := h
      exact ⟨s, rfl, h2, h3⟩

theorem addref_ok {s : Sys} {t off : Nat} (ht : isBk t = true) (h1 : (s.vs t).spawned (leafOf off) = true)
    (h2 : (s.vs t).nused (leafOf off) = LBK) :
    ∃ s', addref s t off okO = some (s', none) ∧ (s'.vs t).spawned (leafOf off) = true ∧
      (s'.vs t).nused (leafOf off) = LBK := by
  have hr : require s t (leafOf off) okO.last =
      some ({ s with objs := upd s.objs LTYPE_SPNODE (s.objs LTYPE_SPNODE + 0) }, none) := by
    unfold require okO
    simp only
    rw [if_pos h1]
    rfl
  unfold addref
  rw [hr]
  simp only [okO]
  rw [if_neg (by rw [h2]; exact fun hc => hc ⟨ht, Nat.le_refl _, by decide⟩)]
  refine ⟨_, rfl, ?_, ?_⟩
  · simp only [upd_same]; exact h1
  · simp only [upd_same]; exact h2

/-- One block shared `n` times more. -/
theorem share_many (n : Nat) : ∃ s b, Reach sys0 s b ∧ b.r LTYPE_DATABK 0 = n + 1 ∧
    (s.vs LTYPE_DATABK).spawned (leafOf 0) = true ∧ (s.vs LTYPE_DATABK).nused (leafOf 0) = LBK := by
  induction n with
  | zero =>
    obtain ⟨s, h1, h2, h3⟩ := claim_ok
    refine ⟨s, Book.empty.claimed LTYPE_DATABK 0, .step .init (op := .claim LTYPE_DATABK okO)
      (show isVnode LTYPE_DATABK = true by decide)
      (out := some (0, ltypeSize LTYPE_DATABK)) ?_, ?_, h2, h3⟩
    · simp only [exec, h1]
    · simp only [Book.claimed, upd_same, Book.empty]
  | succ n ih =>
    obtain ⟨s, b, hr, hb, h2, h3⟩ := ih
    obtain ⟨s', q1, q2, q3⟩ := addref_ok (s := s) (t := LTYPE_DATABK) (off := 0) (by decide) h2 h3
    refine ⟨s', b.shared LTYPE_DATABK 0, .step hr (op := .addref LTYPE_DATABK 0 okO)
      ⟨by decide, by decide, by omega⟩ (out := none) ?_, ?_, q2, q3⟩
    · simp only [exec, q1]
    · simp only [Book.shared, upd_same, hb]

/-- The claim that whatever is stored is accepted is false of the code: the number of users of a block is not
limited when the block is shared once more, but a leaf of the space maps with a block of 2^31 - 1 users is refused. -/
theorem C43_refs_violated : ∃ s b, Reach sys0 s b ∧ b.r LTYPE_DATABK 0 = 2147483647 ∧
    (s.vs LTYPE_DATABK).verifyLeaf 0 = false := by
  obtain ⟨s, b, hr, hb, _, _⟩ := share_many 2147483646
  refine ⟨s, b, hr, hb, ?_⟩
  have hd := C20_refcount hr LTYPE_DATABK 0 (by decide) (by decide) ⟨0, rfl⟩
  rw [hb] at hd
  have hd' : ((s.vs LTYPE_DATABK).bk 0).dbkref = 2147483647 := hd
  unfold VSpace.verifyLeaf
  rw [List.all_eq_false]
  refine ⟨0, by simp, ?_⟩
  unfold Bkr.verify
  rw [show 256 * 0 + 0 = 0 from rfl, hd']
  simp

end Silofs.Space
