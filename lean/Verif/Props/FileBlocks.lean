/-
Disk usage reported for a regular file (C38).
-/
import Verif.Props.FileCopy

namespace Silofs.File

/-- What `st_blocks` has to be: the 512-byte units of the leaves that hold data of the file.  `L`
lists each range of file positions backed by an allocated block once. -/
structure Usage (s : St) (f : Nat) (L : List Key) : Prop where
  once : L.Nodup
  all : ∀ k, k ∈ L ↔ ∃ b, (s.file f).leaf k = some b
  blocks : statBlocks (s.file f) * 512 = (L.map fun k => ((k.size : Nat) : Int)).sum

theorem Counted.usage {s : St} {f : Nat} (h : Counted (s.file f)) : ∃ L, Usage s f L := by
  obtain ⟨L, hn, hm, hs⟩ := h
  refine ⟨L, hn, fun k => by rw [← hm, Option.isSome_iff_exists], ?_⟩
  rw [← hs]
  unfold statBlocks
  omega

/-- C38: after any history of requests, failing or not, on any files, and of range copies within
the conditions of `C04_copy_partial`, `st_blocks` of every file counts exactly the space of the
blocks mapped by the file.  Missing for the full claim: range copies outside of `Plain`, and the
blocks of tree nodes, which the code does not count. -/
theorem C38_blocks_partial {raw : Nat → Nat → Nat} {s : St} (h : Reached raw s) (f : Nat) :
    ∃ L, Usage s f L :=
  (h.inv.ok.cnt f).usage

theorem sum_size_nonneg : ∀ L : List Key, 0 ≤ (L.map fun k => ((k.size : Nat) : Int)).sum
  | [] => by simp
  | k :: L => by
    have := sum_size_nonneg L
    simp only [List.map_cons, List.sum_cons]
    omega

theorem sum_size_mem {k : Key} : ∀ {L : List Key}, k ∈ L →
    (k.size : Int) ≤ (L.map fun k => ((k.size : Nat) : Int)).sum
  | k' :: L, h => by
    simp only [List.map_cons, List.sum_cons]
    have h0 := sum_size_nonneg L
    rcases List.mem_cons.1 h with e | h
    · subst e; omega
    · have := sum_size_mem h
      omega

/-- C38: the reported number is never negative, and a file reported to use no space reads as
zeros everywhere. -/
theorem C38_no_blocks_partial {raw : Nat → Nat → Nat} {s : St} (h : Reached raw s) (f : Nat) :
    0 ≤ statBlocks (s.file f) ∧ (statBlocks (s.file f) = 0 → ∀ p, (abs s f).byte p = 0) := by
  obtain ⟨L, hu⟩ := C38_blocks_partial h f
  have h0 := sum_size_nonneg L
  have hb := hu.blocks
  refine ⟨by omega, fun hz p => ?_⟩
  show byteAt s f p = 0
  apply byteAt_none
  rcases hl : (s.file f).leaf (keyOf (s.file f).ft2 p) with _ | b
  · rfl
  · have := sum_size_mem ((hu.all _).2 ⟨b, hl⟩)
    have hp := (keyOf (s.file f).ft2 p).size_pos
    rw [hz] at hb
    omega

/-- Two bytes in file 0 and one in file 1 take one leaf of 64K each. -/
example : Reached (fun _ _ => 0) plainCase ∧ statBlocks (plainCase.file 0) = 128 ∧
    statBlocks (plainCase.file 1) = 128 ∧ statBlocks (plainCase.file 2) = 0 :=
  ⟨.op _ _ _ (.op _ _ _ (.op _ _ _ (.op _ _ _ (.op _ _ _ .init trivial) trivial) trivial)
    (by unfold FOp.Arg Off64; decide)) (by unfold FOp.Arg Off64; decide),
    by decide +kernel, by decide +kernel, by decide +kernel⟩

/-- The space is given back by truncation. -/
example : statBlocks (((FOp.run 0 (.truncate 0) plainCase (granted 40)).2).file 0) = 0 := by decide +kernel

end Silofs.File
