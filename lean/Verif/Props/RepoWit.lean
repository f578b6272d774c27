import Verif.Props.RepoLive
/-
Where the repository is not the map from names to contents one would like, by executions of the
model; and executions that meet the hypotheses of the theorems.
-/
set_option linter.unusedSimpArgs false
namespace Silofs.Repo
open Silofs Silofs.Addr Silofs.Sysio

/-! ### A small world -/

def c0 : Cfg := ⟨fun l => l, fun _ => 5, fun _ => 6, fun _ => 7⟩
def l0 : Lsid := ⟨List.replicate 16 1, 65536, 0, 0, 0, 0⟩
def p0 : Psid := ⟨List.replicate 16 2, 3⟩
def h0 : List Nat := List.replicate 32 4
def d0 : Disk := ⟨fun _ => none, fun _ => ⟨noBytes, noBytes, false, false⟩, 0⟩
def U0 (nm : Name) : Prop := nm = .lseg l0 ∨ nm = .pseg p0 ∨ nm = .cobj h0

theorem inj0 : PathInj c0 U0 := by
  refine C54_paths_distinct c0 U0 ?_ ?_ (fun a b _ _ h => h)
  · rintro nm (rfl | rfl | rfl)
    · exact ⟨⟨by decide, by decide⟩, by decide, by decide, by decide, by decide, by decide⟩
    · exact ⟨by decide, by decide⟩
    · exact ⟨by decide, by decide⟩
  · rintro l (h | h | h) <;> cases h
    exact ⟨by decide, by decide⟩

theorem dok0 : DOk d0 := by
  refine ⟨?_, ?_, ?_, ?_⟩
  · intro p q n h; cases h
  · intro p n h; cases h
  · intro n i _; rfl
  · intro n _ i; rfl

theorem stable0 : Stable d0 := fun _ => ⟨rfl, rfl⟩

/-- A program of well-formed operations on the names of the small world. -/
def Wf0 (xs : List (K × Op)) : Prop := AllWF U0 xs

theorem wf_nil : Wf0 [] := fun _ h => by cases h
theorem wf_cons {k : K} {op : Op} {xs : List (K × Op)} (h : WellFormed U0 k op) (hs : Wf0 xs) : Wf0 ((k, op) :: xs) := by
  intro x hx
  rcases List.mem_cons.mp hx with rfl | hx
  · exact h
  · exact hs x hx

theorem tl {op : Op} {nm : Name} (h : target op = some nm) (hu : U0 nm) : ∀ nm', target op = some nm' → U0 nm' := by
  intro nm' h'; rw [h] at h'; cases h'; exact hu
theorem tn {op : Op} (h : target op = none) : ∀ nm', target op = some nm' → U0 nm' := by
  intro nm' h'; rw [h] at h'; cases h'

def run0 (ro : Bool) (xs : List (K × Op)) : List Res × Repo := ((run c0 (fresh d0 ro) xs).1.map (·.res), (run c0 (fresh d0 ro) xs).2)

/-! ### Storing safely -/

/-- The kernel fails to store (EIO). -/
def badSync : K := { sync := fun _ => 5 }

def prog1 : List (K × Op) := [({}, .spawn l0), ({}, .write l0 0 [[7]]), (badSync, .relax), ({}, .sync)]

/-- C54: an error of storing a segment which is evicted is dropped: no operation reports it, storing
everything then answers success, and the bytes are not on stable storage. -/
theorem C54_sync_violated : ∃ c U d xs l, PathInj c U ∧ DOk d ∧ Stable d ∧ AllWF U xs ∧ (xs.getLast?.map (·.2)) = some .sync ∧
    (∀ o, o ∈ (run c (fresh d false) xs).1 → o.res = .ok) ∧
    stored c (run c (fresh d false) xs).2.disk (.lseg l) ≠ content c (run c (fresh d false) xs).2.disk (.lseg l) := by
  refine ⟨c0, U0, d0, prog1, l0, inj0, dok0, stable0, ?_, rfl, ?_, ?_⟩
  · refine wf_cons ⟨tl rfl (Or.inl rfl), by decide, by decide, trivial⟩ (wf_cons ⟨tl rfl (Or.inl rfl), by decide, by decide, Or.inl rfl⟩
      (wf_cons ⟨tn rfl, by decide, by decide, trivial⟩ (wf_cons ⟨tn rfl, by decide, by decide, trivial⟩ wf_nil)))
  · have : ∀ o, o ∈ (run c0 (fresh d0 false) prog1).1 → o.res = .ok := by decide +kernel
    exact this
  · intro h
    have h2 := congrArg (Option.map (fun f : File => f.byte 0)) h
    revert h2
    decide +kernel

def prog2 : List (K × Op) := [({}, .pcreate p0), ({}, .psave p0 0 [7]), ({}, .relax), ({}, .sync)]

/-- C54: segments of the physical store are closed without being stored: with no failure at all,
storing everything answers success and the bytes are not on stable storage. -/
theorem C54_sync_pseg_violated : ∃ c U d xs p, PathInj c U ∧ DOk d ∧ Stable d ∧ AllWF U xs ∧ (∀ x, x ∈ xs → NoErr x.1) ∧ (xs.getLast?.map (·.2)) = some .sync ∧
    (∀ o, o ∈ (run c (fresh d false) xs).1 → o.res = .ok) ∧
    stored c (run c (fresh d false) xs).2.disk (.pseg p) ≠ content c (run c (fresh d false) xs).2.disk (.pseg p) := by
  refine ⟨c0, U0, d0, prog2, p0, inj0, dok0, stable0, ?_, ?_, rfl, ?_, ?_⟩
  · refine wf_cons ⟨tl rfl (Or.inr (Or.inl rfl)), by decide, by decide, trivial⟩ (wf_cons ⟨tl rfl (Or.inr (Or.inl rfl)), by decide, by decide, trivial⟩
      (wf_cons ⟨tn rfl, by decide, by decide, trivial⟩ (wf_cons ⟨tn rfl, by decide, by decide, trivial⟩ wf_nil)))
  · intro x hx n
    simp only [prog2, List.mem_cons, List.not_mem_nil, or_false] at hx
    rcases hx with rfl | rfl | rfl | rfl <;> rfl
  · have : ∀ o, o ∈ (run c0 (fresh d0 false) prog2).1 → o.res = .ok := by decide +kernel
    exact this
  · intro h
    have h2 := congrArg (Option.map (fun f : File => f.byte 0)) h
    revert h2
    decide +kernel

def prog3 : List (K × Op) := [({}, .spawn l0), ({}, .write l0 0 [[7]]), (badSync, .sync)]

/-- C54: when storing everything fails the answer is 1 (EPERM), whatever error the kernel reported. -/
theorem C54_sync_code_violated : ∃ c U d xs k, PathInj c U ∧ DOk d ∧ AllWF U xs ∧ (∀ n, k.sync n = 5) ∧
    (step c (run c (fresh d false) xs).2 k .sync).1.res = .err 1 := by
  refine ⟨c0, U0, d0, [({}, .spawn l0), ({}, .write l0 0 [[7]])], badSync, inj0, dok0, ?_, fun _ => rfl, by decide +kernel⟩
  exact wf_cons ⟨tl rfl (Or.inl rfl), by decide, by decide, trivial⟩ (wf_cons ⟨tl rfl (Or.inl rfl), by decide, by decide, Or.inl rfl⟩ wf_nil)

/-! ### Reading and writing -/

def prog4 : List (K × Op) := [({}, .spawn l0), ({}, .relax), ({}, .read l0 0 4)]

/-- C54: reading a segment that is not in the cache opens it for reading only; from then on, until
it is evicted, writes to it fail (EBADF) although nothing is wrong with the host. -/
theorem C54_writable_violated : ∃ c U d xs l, PathInj c U ∧ DOk d ∧ AllWF U xs ∧ (∀ o, o ∈ (run c (fresh d false) xs).1 → o.res = .ok) ∧
    (∃ f, content c (run c (fresh d false) xs).2.disk (.lseg l) = some f ∧ Fit l f) ∧ Fine {} ∧
    (step c (run c (fresh d false) xs).2 {} (.write l 0 [[7]])).1.res = .err EBADF := by
  refine ⟨c0, U0, d0, prog4, l0, inj0, dok0, ?_, ?_, ?_, ⟨rfl, rfl, rfl, fun a h => by cases h⟩, by decide +kernel⟩
  · exact wf_cons ⟨tl rfl (Or.inl rfl), by decide, by decide, trivial⟩ (wf_cons ⟨tn rfl, by decide, by decide, trivial⟩
      (wf_cons ⟨tl rfl (Or.inl rfl), by decide, by decide, trivial⟩ wf_nil))
  · have : ∀ o, o ∈ (run c0 (fresh d0 false) prog4).1 → o.res = .ok := by decide +kernel
    exact this
  · have h : (content c0 (run c0 (fresh d0 false) prog4).2.disk (.lseg l0)).map (·.size) = some 65536 := by decide +kernel
    cases hc : content c0 (run c0 (fresh d0 false) prog4).2.disk (.lseg l0) with
    | none => rw [hc] at h; cases h
    | some f =>
      rw [hc] at h
      injection h with h
      dsimp only at h
      exact ⟨f, rfl, by rw [h], by rw [h]; decide⟩

def cutK : K := { punch := 95, trunc2 := 5 }
def prog5 : List (K × Op) := [({}, .spawn l0), ({}, .write l0 0 [[7, 8]]), (cutK, .punch l0), ({}, .write l0 0 [[7, 8]])]

/-- C54: on a host without hole punching, when the file of a segment was cut to nothing and could
not grow again (which is reported), later reads may return zeros for bytes which a later write,
reported as successful, has stored. -/
theorem C54_cut_violated : ∃ c U d xs l, PathInj c U ∧ DOk d ∧ (∀ x, x ∈ xs → ∀ nm, target x.2 = some nm → U nm) ∧
    (run c (fresh d false) xs).1.map (·.res) = [.ok, .ok, .err 5, .ok] ∧ (xs.getLast?.map (·.2)) = some (.write l 0 [[7, 8]]) ∧
    (step c (run c (fresh d false) xs).2 {} (.read l 0 4)).1.res = .ok ∧
    (step c (run c (fresh d false) xs).2 {} (.read l 0 4)).1.bytes = [0, 0, 0, 0] := by
  refine ⟨c0, U0, d0, prog5, l0, inj0, dok0, ?_, by decide +kernel, rfl, by decide +kernel, by decide +kernel⟩
  intro x hx nm hnm
  simp only [prog5, List.mem_cons, List.not_mem_nil, or_false] at hx
  rcases hx with rfl | rfl | rfl | rfl <;> (cases hnm; exact Or.inl rfl)

/-! ### Objects -/

def prog6 : List (K × Op) := [({}, .save (.cobj h0) [1, 2, 3]), ({}, .save (.cobj h0) [9])]

/-- C54: an object saved over a longer one keeps the end of the longer one. -/
theorem C54_save_shorter_violated : ∃ c U d xs nm, PathInj c U ∧ DOk d ∧ AllWF U xs ∧ (xs.getLast?.map (·.2)) = some (.save nm [9]) ∧
    (∀ o, o ∈ (run c (fresh d false) xs).1 → o.res = .ok) ∧
    (step c (run c (fresh d false) xs).2 {} (.size nm)).1.num = 3 ∧
    (step c (run c (fresh d false) xs).2 {} (.load nm 3)).1.bytes = [9, 2, 3] := by
  refine ⟨c0, U0, d0, prog6, .cobj h0, inj0, dok0, ?_, rfl, ?_, by decide +kernel, by decide +kernel⟩
  · exact wf_cons ⟨tl rfl (Or.inr (Or.inr rfl)), by decide, by decide, by simp, by simp⟩
      (wf_cons ⟨tl rfl (Or.inr (Or.inr rfl)), by decide, by decide, by simp, by simp⟩ wf_nil)
  · have : ∀ o, o ∈ (run c0 (fresh d0 false) prog6).1 → o.res = .ok := by decide +kernel
    exact this

/-! ### Repositories opened for reading only -/

/-- Operations which a repository opened for reading only refuses. -/
def Refused : Op → Prop
  | .spawn _ | .remove _ | .punch _ | .write _ _ _ | .pcreate _ | .psave _ _ _ | .premove _ | .pflush _ => True
  | _ => False

/-- C54: a repository opened for reading only refuses to make, remove, punch and write segments, and
nothing changes. -/
theorem C54_readonly_partial (c : Cfg) (r : Repo) (hr : r.ro = true) (ho : r.opened = true) (k : K) (op : Op) (h : Refused op) :
    (step c r k op).1.res = .err SEPERM ∧ (step c r k op).2 = r := by
  have hc : checkOpen r true = .err SEPERM := by
    unfold checkOpen
    rw [if_neg (by simp [ho]), if_pos ⟨rfl, hr⟩]
  cases op with
  | spawn l => simp only [step, spawn, hc, and_self]
  | remove l => simp only [step, remove, hc, and_self]
  | punch l => simp only [step, punch, hc, and_self]
  | write l pos bufs => simp only [step, write, hc, and_self]
  | pcreate p => simp only [step, pcreate, hc, and_self]
  | psave p off l => simp only [step, psave, hc, and_self]
  | premove p => simp only [step, premove, hc, and_self]
  | pflush p => simp only [step, pflush, hc, and_self]
  | _ => exact absurd h (by simp [Refused])

/-- C54: but it saves and removes objects. -/
theorem C54_readonly_violated : ∃ c U d nm, PathInj c U ∧ DOk d ∧ U nm ∧ (fresh d true).ro = true ∧
    (step c (fresh d true) {} (.save nm [1])).1.res = .ok ∧ content c d nm = none ∧
    (content c (step c (fresh d true) {} (.save nm [1])).2.disk nm).isSome = true ∧
    (step c (step c (fresh d true) {} (.save nm [1])).2 {} (.unlink nm)).1.res = .ok ∧
    content c (step c (step c (fresh d true) {} (.save nm [1])).2 {} (.unlink nm)).2.disk nm = none := by
  refine ⟨c0, U0, d0, .cobj h0, inj0, dok0, Or.inr (Or.inr rfl), rfl, by decide +kernel, rfl, by decide +kernel, by decide +kernel, ?_⟩
  have : (content c0 (step c0 (step c0 (fresh d0 true) {} (.save (.cobj h0) [1])).2 {} (.unlink (.cobj h0))).2.disk (.cobj h0)).isNone = true := by decide +kernel
  exact Option.isNone_iff_eq_none.mp this

/-! ### The hypotheses are met -/

/-- A longer execution: failures, evictions, several names. -/
def prog7 : List (K × Op) :=
  [({}, .require l0), ({}, .write l0 65536 [[1, 2], [3]]), ({}, .relax), ({}, .pcreate p0), ({ openf := 13 }, .stage true l0), ({}, .psave p0 10 [4, 5]),
   ({}, .save (.cobj h0) [6]), ({ trunc := 28 }, .requireAt l0 0 65536), ({}, .punch l0), ({}, .write l0 65530 [[8]]), ({}, .drop), ({}, .read l0 65530 1), ({}, .sync)]

theorem prog7_wf : AllWF U0 prog7 := by
  have a : ∀ {op : Op}, target op = some (.lseg l0) → ∀ nm', target op = some nm' → U0 nm' := fun h => tl h (Or.inl rfl)
  have b : ∀ {op : Op}, target op = some (.pseg p0) → ∀ nm', target op = some nm' → U0 nm' := fun h => tl h (Or.inr (Or.inl rfl))
  refine wf_cons ⟨a rfl, by decide, by decide, trivial⟩ <| wf_cons ⟨a rfl, by decide, by decide, Or.inr ⟨by decide, fun x h => by cases h⟩⟩ <|
    wf_cons ⟨tn rfl, by decide, by decide, trivial⟩ <| wf_cons ⟨b rfl, by decide, by decide, trivial⟩ <| wf_cons ⟨a rfl, by decide, by decide, trivial⟩ <|
    wf_cons ⟨b rfl, by decide, by decide, trivial⟩ <| wf_cons ⟨tl rfl (Or.inr (Or.inr rfl)), by decide, by decide, by simp, by simp⟩ <|
    wf_cons ⟨a rfl, by decide, by decide, trivial⟩ <| wf_cons ⟨a rfl, by decide, by decide, rfl⟩ <|
    wf_cons ⟨a rfl, by decide, by decide, Or.inl rfl⟩ <| wf_cons ⟨tn rfl, by decide, by decide, trivial⟩ <| wf_cons ⟨a rfl, by decide, by decide, trivial⟩ <|
    wf_cons ⟨tn rfl, by decide, by decide, trivial⟩ wf_nil

example : PathInj c0 U0 ∧ DOk d0 ∧ Stable d0 ∧ AllWF U0 prog7 ∧ (∀ x, x ∈ prog7 → NoErr x.1) ∧
    (run c0 (fresh d0 false) prog7).1.map (·.res) = [.ok, .ok, .ok, .ok, .err 13, .ok, .ok, .ok, .ok, .ok, .ok, .ok, .ok] := by
  refine ⟨inj0, dok0, stable0, prog7_wf, ?_, by decide +kernel⟩
  intro x hx n
  simp only [prog7, List.mem_cons, List.not_mem_nil, or_false] at hx
  rcases hx with rfl | rfl | rfl | rfl | rfl | rfl | rfl | rfl | rfl | rfl | rfl | rfl | rfl <;> rfl

example : Blocky U0 ∧ AllFit U0 (content c0 d0) := by
  refine ⟨?_, fun l f _ h => by cases h⟩
  rintro l (h | h | h) <;> cases h
  decide

/-- The read after other operations returns what was written. -/
example : (step c0 (run c0 (fresh d0 false) prog7).2 {} (.read l0 65530 1)).1.bytes = [8] := by decide +kernel

end Silofs.Repo
