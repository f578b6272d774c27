import Verif.Props.Fsck
/-
C79: what `fsck` and `view` do not tell.
-/
set_option linter.unusedSimpArgs false
set_option linter.unusedVariables false
namespace Silofs.Fk.Case
open Silofs Silofs.Addr Silofs.Pack

/-- Segment `k` of a volume. -/
def lsid (k : Nat) : Lsid := ⟨List.replicate 16 0, 65536, k, 2, 0, 12⟩

def adr (k v : Nat) : Laddr := ⟨lsid k, v, 1⟩

def br : Laddr := ⟨⟨List.replicate 16 0, 65536, 0, 2, 0, 1⟩, 0, 1024⟩

/-- The map at level `d` is in segment `d + 1`, and has one child; the leaf has two blocks, in segment 7. -/
def e : Env where
  slots d _ := if d = 0 then [some (adr 7 0), some (adr 7 1)] else [some (adr d 0), none]
  good d _ b := b == [d + 1]

/-- The maps of `ks`, and the data if `dat`. -/
def repo (ks : List Nat) (dat : Bool) : Repo where
  seg l := if l = lsid l.vindex then
      if ks.contains l.vindex then some ⟨8, fun _ => l.vindex⟩
      else if l.vindex = 7 ∧ dat = true then some ⟨8, fun _ => 7⟩ else none
    else none
  boot _ := none
  pack _ := none

def roots : List (Option Laddr) := [none, some (adr 5 0), none]

theorem strict : Strict e := by
  intro d a
  show (List.replicate a.len 0 == [d + 1]) = false
  cases h : a.len with
  | zero => rfl
  | succ n =>
    cases n with
    | zero =>
      rw [beq_eq_false_iff_ne]
      intro h
      simp at h
    | succ n => rfl

/-- A map at level `d ≥ 1` that loads has the one child. -/
theorem map_is {r : Repo} {d : Nat} {k : Laddr} {l : List (Option Laddr)} (h : e.map r d k = some l) (hd : 0 < d) :
    l = [some (adr d 0), none] := by
  unfold Env.map at h
  cases hb : r.read k with
  | error x => rw [hb] at h; cases h
  | ok b =>
    rw [hb] at h
    simp only at h
    split at h
    · cases h
      show (if d = 0 then _ else _) = _
      rw [if_neg (by omega)]
    · cases h

theorem noGap (r : Repo) : NoGap e r roots := by
  intro a ha d k u hd l hl c hc
  rw [map_is hl hd] at hc ⊢
  simp only [List.mem_cons, Option.some.injEq, List.not_mem_nil, or_false, reduceCtorEq] at hc
  rw [hc]
  simp [front]

/-- The hypotheses of the theorems are met, and a whole file-system passes. -/
example : Strict e ∧ NoGap e (repo [1, 2, 3, 4, 5] true) roots ∧
    (fsck e roots (adr 6 0) br (repo [1, 2, 3, 4, 5] true)).2 = true := ⟨strict, noGap _, by decide +kernel⟩

/-- A missing leaf is found. -/
example : (fsck e roots (adr 6 0) br (repo [2, 3, 4, 5] true)).2 = false := by decide +kernel

theorem leaf_met (r : Repo) (h : ∀ d, d ≤ 4 → 0 < d → e.map r d (adr (d + 1) 0) = some [some (adr d 0), none]) :
    Met e r 4 (adr 5 0) 0 (adr 1 0) := by
  refine .down (c := adr 4 0) (h 4 (by omega) (by omega)) (by simp [front]) ?_
  refine .down (c := adr 3 0) (h 3 (by omega) (by omega)) (by simp [front]) ?_
  refine .down (c := adr 2 0) (h 2 (by omega) (by omega)) (by simp [front]) ?_
  exact .down (c := adr 1 0) (h 1 (by omega) (by omega)) (by simp [front]) .self

/-- **C79 is violated** for data: `fsck` says that all is well although the segment with the blocks in use is lost.
(`C79_blind`: this is so for every file-system and every damage outside of the space maps.) -/
theorem C79_data_violated : ∃ (e : Env) (roots : List (Option Laddr)) (sb br : Laddr) (r : Repo) (a leaf c : Laddr)
    (l : List (Option Laddr)), Strict e ∧ NoGap e r roots ∧ some a ∈ roots ∧ Met e r 4 a 0 leaf ∧
    e.map r 0 leaf = some l ∧ some c ∈ l ∧ r.seg c.lsid = none ∧ (fsck e roots sb br r).2 = true := by
  refine ⟨e, roots, adr 6 0, br, repo [1, 2, 3, 4, 5] false, adr 5 0, adr 1 0, adr 7 0, [some (adr 7 0), some (adr 7 1)],
    strict, noGap _, by simp [roots], leaf_met _ (fun d h1 h2 => ?_), by decide +kernel, by simp, by decide +kernel,
    by decide +kernel⟩
  have : d = 1 ∨ d = 2 ∨ d = 3 ∨ d = 4 := by omega
  rcases this with rfl | rfl | rfl | rfl <;> decide +kernel

/-- **C79 is violated** for a check that should change nothing: where a space map is lost, `fsck` fails, and leaves an
empty segment in its place. -/
theorem C79_lost_violated : ∃ (e : Env) (roots : List (Option Laddr)) (sb br : Laddr) (r : Repo) (s : Lsid),
    Strict e ∧ NoGap e r roots ∧ (fsck e roots sb br r).2 = false ∧ r.seg s = none ∧
      ((fsck e roots sb br r).1.seg s).map (·.size) = some s.lsize :=
  ⟨e, roots, adr 6 0, br, repo [1, 2, 4, 5] true, lsid 3, strict, noGap _, by decide +kernel, by decide +kernel,
    by decide +kernel⟩

/-- As `e`, with one more child of the top map, behind a gap. -/
def eg : Env where
  slots d _ := if d = 0 then [some (adr 7 0), some (adr 7 1)] else if d = 4 then [some (adr 4 0), none, some (adr 9 0)]
    else [some (adr d 0), none]
  good d _ b := b == [d + 1]

/-- **C79 is violated** for maps behind a gap: the walk ends at the first empty slot, so that a lost map after it is not
found; and `view` does not list what is below it. -/
theorem C79_gap_violated : ∃ (e : Env) (roots : List (Option Laddr)) (sb br : Laddr) (r : Repo) (a k : Laddr),
    Strict e ∧ some a ∈ roots ∧ Under e r 4 a 3 k ∧ e.map r 3 k = none ∧ (fsck e roots sb br r).2 = true := by
  have hs : Strict eg := fun d a => strict d a
  have h4 : eg.map (repo [1, 2, 3, 4, 5] true) 4 (adr 5 0) = some [some (adr 4 0), none, some (adr 9 0)] := by
    decide +kernel
  exact ⟨eg, roots, adr 6 0, br, repo [1, 2, 3, 4, 5] true, adr 5 0, adr 9 0, hs, by simp [roots],
    .down h4 (by simp) .self, by decide +kernel, by decide +kernel⟩

/-- **C79 is violated** for the list: when the output cannot take it (a full disk, say), `view` stops printing but ends with
success. -/
theorem C79_view_full_violated : ∃ (e : Env) (roots : List (Option Laddr)) (sb br : Laddr) (r : Repo) (room : Nat),
    Strict e ∧ NoGap e r roots ∧ (view e roots sb br r room).2.2 = true ∧
      (view e roots sb br r room).2.1.length = room ∧ room < (view e roots sb br r 10000).2.1.length :=
  ⟨e, roots, adr 6 0, br, repo [1, 2, 3, 4, 5] true, 100, strict, noGap _, by decide +kernel, by decide +kernel,
    by decide +kernel⟩

/-- What is printed for the whole file-system: eight lines, the two blocks of data being one. -/
example : (view e roots (adr 6 0) br (repo [1, 2, 3, 4, 5] true) 10000).2.1.length = 8 * 80 := by decide +kernel

end Silofs.Fk.Case
