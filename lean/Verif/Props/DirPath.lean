/-
C12: which nodes of the directory tree a name may stand in, by its hash.
-/
import Verif.Props.DirBase

namespace Silofs.Dir

/-- C12: two names share their node at depth `k` exactly when the low `6 * k`
bits of their hashes agree; so all 24 bits that the four levels can take are
used, each of them at one level only. -/
theorem C12_path_bits (h h' : Nat) : ∀ k : Nat,
    pathIdx h k = pathIdx h' k ↔ h % 2 ^ (6 * k) = h' % 2 ^ (6 * k)
  | 0 => by simp [pathIdx, Nat.mod_one]
  | k + 1 => by
    have hs : ∀ x : Nat, x % 2 ^ (6 * (k + 1)) = x % 2 ^ (6 * k) + 2 ^ (6 * k) * hashOrd x (k + 1) := by
      intro x
      have e : 2 ^ (6 * (k + 1)) = 2 ^ (6 * k) * 64 := by
        rw [show 6 * (k + 1) = 6 * k + 6 by omega, Nat.pow_add]
      rw [e, Nat.mod_mul]
      rfl
    rw [hs h, hs h', ← C12_path_bits_aux h h' k (C12_path_bits h h' k)]
where
  C12_path_bits_aux (h h' k : Nat)
      (ih : pathIdx h k = pathIdx h' k ↔ h % 2 ^ (6 * k) = h' % 2 ^ (6 * k)) :
      pathIdx h (k + 1) = pathIdx h' (k + 1) ↔
        h % 2 ^ (6 * k) + 2 ^ (6 * k) * hashOrd h (k + 1) =
        h' % 2 ^ (6 * k) + 2 ^ (6 * k) * hashOrd h' (k + 1) := by
    have hp : 0 < 2 ^ (6 * k) := Nat.pow_pos (by decide)
    constructor
    · intro e
      have := C12_child_inj _ _ _ _ (pathIdx_pos h k) (pathIdx_pos h' k) (hashOrd_lt h (k + 1))
        (hashOrd_lt h' (k + 1)) e
      rw [ih.1 this.1, this.2]
    · intro e
      have l1 := Nat.mod_lt h hp
      have l2 := Nat.mod_lt h' hp
      have e1 : h % 2 ^ (6 * k) = h' % 2 ^ (6 * k) := by
        have := congrArg (· % 2 ^ (6 * k)) e
        simpa [Nat.add_mul_mod_self_left] using this
      have e2 : hashOrd h (k + 1) = hashOrd h' (k + 1) := by
        rw [e1] at e
        exact Nat.eq_of_mul_eq_mul_left hp (Nat.add_left_cancel e)
      rw [pathIdx, pathIdx, ih.2 e1, e2]

-- The low six bits choose among the children of the root, the next six among
-- theirs.
example : pathIdx 65 1 = pathIdx 1 1 ∧ pathIdx 65 2 ≠ pathIdx 1 2 ∧ pathIdx 2 1 ≠ pathIdx 1 1 ∧
    pathIdx (2 ^ 24 + 7) 4 = pathIdx 7 4 := by decide +kernel

end Silofs.Dir
