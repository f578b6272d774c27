import Verif.Model.SymBlocks
/-
The blocks of a symbolic link (C38).
-/
set_option linter.unusedSimpArgs false
set_option linter.unusedVariables false
namespace Silofs.Symlink
open Silofs.Xattr (Bytes bytesAt blit)

/-- The nodes a link refers to. -/
def Link.used (l : Link) : Nat := ((List.range nparts).filter fun j => (l.tail j).isSome).length

theorem used_set (l : Link) (j a : Nat) (hj : j < nparts) (h : l.tail j = none) :
    ({ l with tail := fun j' => if j' = j then some a else l.tail j' } : Link).used = l.used + 1 := by
  unfold nparts at hj
  unfold Link.used nparts
  have hr : List.range 2 = [0, 1] := rfl
  rw [hr]
  rcases (by omega : j = 0 ∨ j = 1) with rfl | rfl
  · cases h1 : l.tail 1 <;> simp [List.filter, h, h1]
  · cases h0 : l.tail 0 <;> simp [List.filter, h, h0]

theorem partsKb_used {alloc : Nat → Option Nat} {i : Nat} (ns : List Nat) (j : Nat) (v : Bytes) (s : St) (l : Link) (b : Int)
    (hl : s.link i = some l) (ht : ∀ j', j ≤ j' → l.tail j' = none) (hn : j + ns.length ≤ nparts) (hb : b = 4 * l.used) :
    ∃ l', (assignParts alloc i ns j v s).1.link i = some l' ∧ partsKb alloc i ns j v s b = 4 * l'.used := by
  induction ns generalizing j v s l b with
  | nil => exact ⟨l, hl, hb⟩
  | cons n ns ih =>
    rw [assignParts, partsKb]
    rw [List.length_cons] at hn
    cases ha : alloc j with
    | none => exact ⟨l, hl, hb⟩
    | some a =>
      rw [hl]
      dsimp only
      by_cases hx : s.node a = none
      · rw [if_pos hx, if_pos hx]
        refine ih (j + 1) (v.drop n) _ { l with tail := fun j' => if j' = j then some a else l.tail j' } (b + 4) ?_ ?_
          (by omega) ?_
        · show (if i = i then _ else _) = _
          rw [if_pos rfl]
        · intro j' hj'
          show (if j' = j then some a else l.tail j') = none
          rw [if_neg (by omega)]
          exact ht j' (by omega)
        · rw [used_set l j a (by omega) (ht j (Nat.le_refl j)), hb]; omega
      · rw [if_neg hx, if_neg hx]; exact ⟨l, hl, hb⟩

theorem partLens_len {k : Nat} : ∀ {n : Nat} {ns : List Nat}, partLens k n = some ns → ns.length ≤ k := by
  induction k with
  | zero =>
    intro n ns h
    unfold partLens at h
    split at h
    · cases h; exact Nat.le_refl 0
    · cases h
  | succ k ih =>
    intro n ns h
    unfold partLens at h
    split at h
    · cases h; exact Nat.zero_le _
    · simp only [Option.map_eq_some_iff] at h
      obtain ⟨ns', h1, h2⟩ := h
      have := ih h1
      rw [← h2, List.length_cons]
      omega

/-- C38 for symbolic links.  Whatever the target, and whichever of its nodes could not be taken, st_blocks of the
new link is 8 for each node the link refers to. -/
theorem C38_symlink_blocks (alloc : Nat → Option Nat) (i : Nat) (v : Bytes) (s s' : St) (hs : s.link i = none)
    (h : symlink alloc i v s = (s', none)) :
    ∃ l, s'.link i = some l ∧
      symStatBlocks (symKb alloc i v s) = 8 * ((List.range 2).filter fun j => (l.tail j).isSome).length := by
  unfold symlink at h
  by_cases h1 : v.length = 0
  · rw [if_pos h1] at h; cases h
  rw [if_neg h1] at h
  by_cases h2 : targetMax < v.length
  · rw [if_pos h2] at h; cases h
  rw [if_neg h2, hs] at h
  injection h with h _
  subst h
  unfold symStatBlocks symKb bindSymval
  cases hp : partLens nparts (v.length - min v.length headMax) with
  | none =>
    refine ⟨freshLink, ?_, by dsimp only; decide⟩
    show (if i = i then _ else _) = _
    rw [if_pos rfl]
  | some ns =>
    dsimp only
    have hf : (s.setLink i (some freshLink)).link i = some freshLink := by
      show (if i = i then _ else _) = _
      rw [if_pos rfl]
    rw [hf]
    dsimp only
    have hst : (s.setLink i (some freshLink)).setLink i
        (some { freshLink with head := blit freshLink.head 0 (v.take (min v.length headMax)) }) =
        s.setLink i (some { freshLink with head := blit freshLink.head 0 (v.take (min v.length headMax)) }) := by
      unfold St.setLink
      dsimp only
      congr 1
      funext i'
      by_cases hi : i' = i
      · rw [if_pos hi, if_pos hi]
      · rw [if_neg hi, if_neg hi, if_neg hi]
    rw [hst]
    obtain ⟨l, hl, hk⟩ := partsKb_used (alloc := alloc) (i := i) ns 0 (v.drop (min v.length headMax))
      (s.setLink i (some { freshLink with head := blit freshLink.head 0 (v.take (min v.length headMax)) }))
      { freshLink with head := blit freshLink.head 0 (v.take (min v.length headMax)) } 0
      (by show (if i = i then _ else _) = _; rw [if_pos rfl]) (fun _ _ => rfl)
      (by have := partLens_len hp; omega) (by show (0 : Int) = 4 * (0 : Int); rfl)
    rw [hk]
    revert hl
    generalize assignParts alloc i ns 0 (v.drop (min v.length headMax))
      (s.setLink i (some { freshLink with head := blit freshLink.head 0 (v.take (min v.length headMax)) })) = y
    obtain ⟨t, r⟩ := y
    intro hl
    dsimp only at hl
    cases r with
    | false => exact ⟨l, hl, by unfold Link.used nparts; omega⟩
    | true =>
      dsimp only
      rw [hl]
      refine ⟨{ l with size := v.length }, ?_, by unfold Link.used nparts; dsimp only; omega⟩
      show (if i = i then _ else _) = _
      rw [if_pos rfl]; rfl

/-- A long target of which only the first node could be taken. -/
example : symStatBlocks (symKb (fun j => if j = 0 then some 7 else none) 3 (List.replicate 4096 97) fresh) = 8 := by
  decide +kernel

end Silofs.Symlink
