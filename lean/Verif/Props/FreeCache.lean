import Verif.Model.FreeCache
/-
C23: ranges popped from the free-range cache are ranges that were added and not
popped since.  The specification counts, for every byte of the address space,
how many added / popped / cached ranges cover it.
-/
set_option linter.unusedSimpArgs false
namespace Silofs.FreeCache

/-- Number of ranges (0 or 1) of `[off, off+len)` covering byte `x`. -/
def covers (off len x : Nat) : Nat := if off ≤ x ∧ x < off + len then 1 else 0

/-- How many ranges of a list cover `x`. -/
def covL (l : List (Nat × Nat)) (x : Nat) : Nat := (l.map (fun e => covers e.1 e.2 x)).sum

/-- How often the cache covers byte `x`. -/
def cov (c : Cache) (x : Nat) : Nat := covL (c.lifo.map (fun o => (o, c.ulen))) x + covL c.avl x

@[simp] theorem covL_nil (x : Nat) : covL [] x = 0 := rfl
@[simp] theorem covL_cons (e : Nat × Nat) (l : List (Nat × Nat)) (x : Nat) :
    covL (e :: l) x = covers e.1 e.2 x + covL l x := by simp [covL]
@[simp] theorem covL_append (a b : List (Nat × Nat)) (x : Nat) :
    covL (a ++ b) x = covL a x + covL b x := by simp [covL]

theorem covers_split (o a b x : Nat) : covers o (a + b) x = covers o a x + covers (o + a) b x := by
  unfold covers
  split <;> split <;> split <;> omega

theorem covL_split (a : List (Nat × Nat)) (p : Nat × Nat → Bool) (x : Nat) :
    covL (a.takeWhile p) x + covL (a.dropWhile p) x = covL a x := by
  rw [← covL_append, List.takeWhile_append_dropWhile]

theorem covL_insertNode (a : List (Nat × Nat)) (o l x : Nat) :
    covL (insertNode a o l) x = covL a x + covers o l x := by
  unfold insertNode
  have := covL_split a (fun e => e.1 ≤ o) x
  simp only [covL_append, covL_cons] at *
  omega

theorem covL_last {lo : List (Nat × Nat)} {e : Nat × Nat} (h : lo.getLast? = some e) (x : Nat) :
    covL lo x = covL lo.dropLast x + covers e.1 e.2 x := by
  obtain ⟨ys, rfl⟩ := List.getLast?_eq_some_iff.mp h
  simp

/-- A pop takes exactly the returned range out of the cache. -/
theorem C23_pop (c c' : Cache) (len off : Nat) (h : pop c len = some (off, c')) (x : Nat) :
    cov c x = cov c' x + covers off len x := by
  unfold pop at h
  split at h
  · rename_i off' rest hl hu
    simp only [decide_eq_true_eq] at hu
    simp only [Option.some.injEq, Prod.mk.injEq] at h
    obtain ⟨rfl, rfl⟩ := h
    simp only [cov, hl, List.map_cons, covL_cons, hu]
    omega
  · split at h
    · exact absurd h (by simp)
    · rename_i o l tl ha
      split at h
      · exact absurd h (by simp)
      · split at h
        · simp only [Option.some.injEq, Prod.mk.injEq] at h
          obtain ⟨rfl, rfl⟩ := h
          have := covers_split o len (l - len) x
          rw [show len + (l - len) = l by omega] at this
          simp only [cov, ha, covL_cons, this]
          omega
        · simp only [Option.some.injEq, Prod.mk.injEq] at h
          obtain ⟨rfl, rfl⟩ := h
          have : l = len := by omega
          simp only [cov, ha, covL_cons, this]
          omega

theorem merge_cov (a : List (Nat × Nat)) (off len : Nat) (m : Bool) (rc : Rc)
    (a' : List (Nat × Nat)) (h : merge a off len m = (rc, a')) (x : Nat) :
    (rc = .ok → covL a' x = covL a x + covers off len x) ∧
    (rc = .enoent → a' = a) ∧ (rc ≠ .enospc) ∧
    covL a' x ≤ covL a x + covers off len x ∧ (m = true → rc ≠ .enomem) := by
  have hs := covL_split a (fun e => e.1 < off) x
  change covL (below a off) x + covL (above a off) x = covL a x at hs
  unfold merge at h
  simp only [] at h
  split at h
  · rename_i po pl h1 h2
    have hl := covL_last h1 x
    rw [h2] at hs
    split at h <;> simp only [Prod.mk.injEq] at h <;> obtain ⟨rfl, rfl⟩ := h
    · rename_i he
      subst he
      have := covers_split po pl len x
      simp [this] at *; omega
    · simp
  · rename_i po pl no nl tl h1 h2
    have hl := covL_last h1 x
    rw [h2] at hs
    split at h
    · rename_i he
      have h3 := covers_split po pl len x
      split at h <;> simp only [Prod.mk.injEq] at h <;> obtain ⟨rfl, rfl⟩ := h
      · rename_i hn
        have h4 := covers_split po (pl + len) nl x
        rw [show po + (pl + len) = no by omega] at h4
        rw [he] at h3
        simp [h4, h3] at *; omega
      · rw [he] at h3
        simp [h3] at *; omega
    · split at h
      · rename_i hn
        have h4 := covers_split off len nl x
        rw [hn] at h4
        split at h <;> simp only [Prod.mk.injEq] at h <;> obtain ⟨rfl, rfl⟩ := h
        · simp [covL_insertNode, h4] at *; omega
        · simp at *; refine ⟨by omega, ?_⟩; simp_all
      · simp only [Prod.mk.injEq] at h; obtain ⟨rfl, rfl⟩ := h; simp
  · simp only [Prod.mk.injEq] at h; obtain ⟨rfl, rfl⟩ := h; simp
  · rename_i no nl tl h1 h2
    have h0 : below a off = [] := by simpa using h1
    rw [h0, h2] at hs
    split at h
    · rename_i hn
      have h4 := covers_split off len nl x
      rw [hn] at h4
      split at h <;> simp only [Prod.mk.injEq] at h <;> obtain ⟨rfl, rfl⟩ := h
      · simp [covL_insertNode, h4] at *; omega
      · simp at *; refine ⟨by omega, ?_⟩; simp_all
    · simp only [Prod.mk.injEq] at h; obtain ⟨rfl, rfl⟩ := h; simp

/-- Adding a range never makes the cache cover a byte that was neither cached nor
in the added range; when it reports success the range is cached exactly once more. -/
theorem C23_add (c c' : Cache) (off len : Nat) (m i : Bool) (rc : Rc)
    (h : add c off len m i = .done rc c') (x : Nat) :
    cov c' x ≤ cov c x + covers off len x ∧
    (rc = .ok → cov c' x = cov c x + covers off len x) ∧
    c'.ulen = c.ulen ∧ c'.hint = c.hint := by
  unfold add at h
  split at h
  · rename_i c1 hl
    simp only [AddRes.done.injEq] at h; obtain ⟨rfl, rfl⟩ := h
    unfold lifoAdd at hl
    split at hl
    · exact absurd hl (by simp)
    · rename_i hc
      have : c.ulen = len := by
        by_cases hh : c.ulen = len
        · exact hh
        · exact absurd (Or.inr hh) hc
      simp only [Option.some.injEq] at hl; subst hl
      simp [cov, this]; omega
  · split at h
    · rename_i hm
      split at h
      · unfold insertVspace at h
        split at h
        · simp only [AddRes.done.injEq] at h; obtain ⟨rfl, rfl⟩ := h
          simp [cov, covL_insertNode]; omega
        · split at h
          · simp only [AddRes.done.injEq] at h; obtain ⟨rfl, rfl⟩ := h; simp
          · split at h
            · simp only [AddRes.done.injEq] at h; obtain ⟨rfl, rfl⟩ := h; simp
            · exact absurd h (by simp)
      · simp only [AddRes.done.injEq] at h; obtain ⟨rfl, rfl⟩ := h; simp
    · rename_i rc' a hne hm
      simp only [AddRes.done.injEq] at h; obtain ⟨rfl, rfl⟩ := h
      obtain ⟨h1, h2, h3, h4, h5⟩ := merge_cov _ _ _ _ _ _ hm x
      refine ⟨?_, ?_, rfl, rfl⟩
      · simp only [cov]; omega
      · intro hok; have := h1 hok; simp only [cov]; omega

/-- The ranges given to the cache by a history, counted at byte `x`. -/
def addedCov : List Op → Nat → Nat
  | [], _ => 0
  | .add off len _ _ :: r, x => covers off len x + addedCov r x
  | _ :: r, x => addedCov r x

/-- Run a history, collecting the ranges handed out; `none` is undefined behaviour. -/
def run (c : Cache) : List Op → Option (Cache × List (Nat × Nat))
  | [] => some (c, [])
  | op :: r =>
    match step c op with
    | none => none
    | some (c', out) =>
      match run c' r with
      | none => none
      | some (c'', outs) => some (c'', out.toList ++ outs)

theorem step_cov (c c' : Cache) (op : Op) (out : Option (Nat × Nat))
    (h : step c op = some (c', out)) (x : Nat) :
    covL out.toList x + cov c' x ≤ cov c x + addedCov [op] x := by
  cases op with
  | add off len m i =>
    simp only [step] at h
    split at h
    · rename_i rc c1 ha
      simp only [Option.some.injEq, Prod.mk.injEq] at h; obtain ⟨rfl, rfl⟩ := h
      have := (C23_add _ _ _ _ _ _ _ ha x).1
      simp [addedCov]; omega
    · exact absurd h (by simp)
  | pop len =>
    simp only [step] at h
    split at h
    · rename_i off c1 hp
      simp only [Option.some.injEq, Prod.mk.injEq] at h; obtain ⟨rfl, rfl⟩ := h
      have := C23_pop _ _ _ _ hp x
      simp [addedCov]; omega
    · simp only [Option.some.injEq, Prod.mk.injEq] at h; obtain ⟨rfl, rfl⟩ := h
      simp
  | clear =>
    simp only [step, Option.some.injEq, Prod.mk.injEq] at h; obtain ⟨rfl, rfl⟩ := h
    simp [clear, cov]

theorem addedCov_cons (op : Op) (r : List Op) (x : Nat) :
    addedCov (op :: r) x = addedCov [op] x + addedCov r x := by
  cases op <;> simp [addedCov]

/-- C23: over any history, every byte is handed out at most as often as it was
given to the cache (counting also what is still cached). -/
theorem C23_conserve (ops : List Op) (c c' : Cache) (outs : List (Nat × Nat))
    (h : run c ops = some (c', outs)) (x : Nat) :
    covL outs x + cov c' x ≤ cov c x + addedCov ops x := by
  induction ops generalizing c c' outs with
  | nil =>
    simp only [run, Option.some.injEq, Prod.mk.injEq] at h; obtain ⟨rfl, rfl⟩ := h
    simp
  | cons op r ih =>
    simp only [run] at h
    split at h
    · exact absurd h (by simp)
    · rename_i c1 out hs
      split at h
      · exact absurd h (by simp)
      · rename_i c2 outs2 hr
        simp only [Option.some.injEq, Prod.mk.injEq] at h; obtain ⟨rfl, rfl⟩ := h
        have h1 := step_cov _ _ _ _ hs x
        have h2 := ih _ _ _ hr
        rw [addedCov_cons]
        simp only [covL_append]
        omega

/-- Two ranges share a byte. -/
def Overlap (a b : Nat × Nat) : Prop := ∃ x, covers a.1 a.2 x = 1 ∧ covers b.1 b.2 x = 1

theorem pairwise_of_cov (l : List (Nat × Nat)) (h : ∀ x, covL l x ≤ 1) :
    l.Pairwise (fun a b => ¬ Overlap a b) := by
  induction l with
  | nil => exact .nil
  | cons a r ih =>
    refine .cons ?_ (ih fun x => ?_)
    · intro b hb hov
      obtain ⟨x, h1, h2⟩ := hov
      obtain ⟨s, t, rfl⟩ := List.append_of_mem hb
      have := h x
      simp at this
      omega
    · have := h x; simp at this; omega

/-- C23: starting from an empty cache, if no byte is given to the cache twice then
the ranges handed out are pairwise disjoint and every byte handed out was given. -/
theorem C23_disjoint (ops : List Op) (c c' : Cache) (outs : List (Nat × Nat))
    (h0 : ∀ x, cov c x = 0) (h : run c ops = some (c', outs))
    (hadd : ∀ x, addedCov ops x ≤ 1) :
    outs.Pairwise (fun a b => ¬ Overlap a b) ∧
    ∀ x, covL outs x = 1 → addedCov ops x = 1 ∧ cov c' x = 0 := by
  have hc := fun x => C23_conserve ops c c' outs h x
  refine ⟨pairwise_of_cov _ fun x => ?_, fun x hx => ?_⟩
  · have := hc x; have := h0 x; have := hadd x; omega
  · have := hc x; have := h0 x; have := hadd x; omega

/-- With memory available the cache never reaches undefined behaviour. -/
theorem C23_defined_partial (c : Cache) (op : Op)
    (hm : ∀ off len m i, op = .add off len m i → i = true) : (step c op).isSome := by
  cases op with
  | add off len m i =>
    have hi := hm _ _ _ _ rfl
    subst hi
    simp only [step, add]
    split
    · rfl
    · rename_i hub
      split at hub
      · exact absurd hub (by simp)
      · split at hub
        · split at hub
          · simp [insertVspace] at hub
          · exact absurd hub (by simp)
        · exact absurd hub (by simp)
  | pop len => simp only [step]; split <;> rfl
  | clear => rfl

/-- C23 is violated when memory runs out: with one cached range, adding a lower,
non-adjacent range whose bookkeeping entry can not be allocated frees the cached
entry but leaves it linked in the tree. -/
theorem C23_oom_violated :
    step { ulen := 1024, capMax := 4194304, speSize := 48, avl := [(1048576, 16384)] }
      (.add 0 16384 true false) = none := by
  decide

/-- A non-trivial history meeting the hypotheses of `C23_disjoint`: add a big range
and two units, pop three times. -/
example : run { ulen := 4, capMax := 1000, speSize := 10 }
    [.add 100 12 true true, .add 0 4 true true, .pop 4, .pop 4, .pop 4, .add 92 8 true true]
    = some ({ ulen := 4, capMax := 1000, speSize := 10, avl := [(92, 8), (108, 4)] },
            [(0, 4), (100, 4), (104, 4)]) := by decide

end Silofs.FreeCache
