import Verif.Model.Meta
/-!
C26: tampering with a stored metadata node is detected when it is loaded.
-/
set_option linter.unusedSimpArgs false
namespace Silofs.Meta
open Silofs Silofs.Addr

/-- **C26 (no false alarm)**: every node that was set up with its type and sealed before
being written passes verification when read back unchanged, whatever its
content and whatever the checksum function. -/
theorem C26_sealed_verifies (H : List Nat → Nat) (n : Node) (ltype fl : Nat) (payload : List Nat) :
    viewVerify H (sealNode H { setup n ltype (ltypeSize ltype) fl with payload := payload }) ltype = .ok := by
  simp [viewVerify, verify, verifyBase, sealNode, setup, hasFlags, verifyCsum, calcSum, HDRF_CSUM, HDRF_LTYPE]

/-- Accepted nodes carry the magic, the expected type and the expected size. -/
theorem C26_accepted_identity (H : List Nat → Nat) (n : Node) (ltype : Nat)
    (h : viewVerify H n ltype = .ok) :
    n.magic = MAGIC ∧ n.type = ltype % 256 ∧ n.size = ltypeSize ltype := by
  unfold viewVerify verify verifyBase at h
  by_cases h1 : n.magic = MAGIC
  · by_cases h2 : n.type = ltype % 256
    · by_cases h3 : n.size = ltypeSize ltype
      · exact ⟨h1, h2, h3⟩
      · simp [h1, h2, h3] at h
    · simp [h1, h2] at h
  · simp [h1] at h

/-- **C26 (payload tampering, partial)**: after sealing, any replacement of the node's
payload that leaves its header untouched is reported, unless the new payload has
the same checksum.  Missing for the full claim (any modification of the stored
bytes is reported up to collisions): the header's own flags are not covered,
see `C26_flags_violated`. -/
theorem C26_payload_tamper_partial (H : List Nat → Nat) (n : Node) (ltype fl : Nat)
    (payload payload' : List Nat)
    (hH : H (payload'.take (ltypeSize ltype - HEADER_SIZE)) ≠
      H (payload.take (ltypeSize ltype - HEADER_SIZE))) :
    viewVerify H { sealNode H { setup n ltype (ltypeSize ltype) fl with payload := payload } with
      payload := payload' } ltype = .badcrc := by
  simp [viewVerify, verify, verifyBase, sealNode, setup, hasFlags, verifyCsum, calcSum, HDRF_CSUM, HDRF_LTYPE, hH]

/-- **C26 (header tampering)**: a changed magic, type or size is reported. -/
theorem C26_header_tamper (H : List Nat → Nat) (n : Node) (ltype : Nat)
    (h : n.magic ≠ MAGIC ∨ n.type ≠ ltype % 256 ∨ n.size ≠ ltypeSize ltype) :
    viewVerify H n ltype = .corrupted := by
  unfold viewVerify verify verifyBase
  by_cases h1 : n.magic = MAGIC
  · by_cases h2 : n.type = ltype % 256
    · by_cases h3 : n.size = ltypeSize ltype
      · simp [h1, h2, h3] at h
      · simp [h1, h2, h3]
    · simp [h1, h2]
  · simp [h1]

/-- Clearing every flag is reported. -/
theorem C26_flags_cleared (H : List Nat → Nat) (n : Node) (ltype : Nat) (h : n.flags = 0) :
    viewVerify H n ltype ≠ .ok := by
  unfold viewVerify verify verifyBase hasFlags
  simp [h]
  repeat' split
  all_goals simp_all

/-- The full claim is violated: a node whose flags say "has a logical type" but not
"has a checksum" is accepted with an arbitrary payload and checksum, for every
checksum function. -/
theorem C26_flags_violated (H : List Nat → Nat) (ltype : Nat) (payload : List Nat) (csum : Nat) :
    viewVerify H ⟨MAGIC, ltype % 256, HDRF_LTYPE, ltypeSize ltype, csum, payload⟩ ltype = .ok := by
  simp [viewVerify, verify, verifyBase, verifyCsum, hasFlags, HDRF_LTYPE, HDRF_CSUM]

/-- In particular verification does not imply the checksum matches. -/
theorem C26_full_violated : ¬ ∀ (H : List Nat → Nat) (n : Node) (ltype : Nat),
    viewVerify H n ltype = .ok → calcSum H n = n.csum := by
  intro h
  have := h (fun _ => 0) ⟨MAGIC, 5, HDRF_LTYPE, 1024, 1, []⟩ 5 (by decide)
  exact absurd this (by decide)

/-! Non-vacuity of `C26_payload_tamper_partial`. -/
example : ∃ (H : List Nat → Nat) (p p' : List Nat),
    H (p'.take (ltypeSize 5 - HEADER_SIZE)) ≠ H (p.take (ltypeSize 5 - HEADER_SIZE)) :=
  ⟨List.sum, [1], [2], by decide⟩

end Silofs.Meta
