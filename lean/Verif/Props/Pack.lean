import Verif.Props.PackIndex
/-
C45: what an archive holds, and that restoring it gives the file-system back.
-/
set_option linter.unusedSimpArgs false
set_option linter.unusedVariables false
namespace Silofs.Pack
open Silofs Silofs.Addr

/-! ### Specification -/

/-- What is stored at a path of slots from a node at `a`, `n` levels above the data. -/
def at' (slots : Nat → Bytes → List (Option Laddr)) (r : Repo) : Nat → Laddr → List Nat → Option Bytes
  | _, a, [] => (r.read a).toOption
  | 0, _, _ :: _ => none
  | n + 1, a, c :: p =>
    match r.read a with
    | .error _ => none
    | .ok b =>
      match (slots n b)[c]? with
      | some (some k) => at' slots r n k p
      | _ => none

/-- An address that is in range, and stored. -/
structure Ok (r : Repo) (a : Laddr) : Prop where
  fits : a.Fits
  valid : a.pos + a.len ≤ a.lsid.lsize
  ltype : a.lsid.ltype ≠ LTYPE_BOOTREC
  read : ∃ b, r.read a = .ok b

/-- Slots with children come first. -/
def Dense (l : List (Option Laddr)) : Prop := ∃ (as : List Laddr) (n : Nat), l = as.map some ++ List.replicate n none

/-- A tree of `n` levels above the data is stored completely. -/
def Tree (slots : Nat → Bytes → List (Option Laddr)) (r : Repo) : Nat → Laddr → Prop
  | 0, a => Ok r a
  | n + 1, a => Ok r a ∧ ∀ b, r.read a = .ok b →
      (1 ≤ n → n ≤ 4 → Dense (slots n b)) ∧ ∀ k, some k ∈ slots n b → Tree slots r n k

theorem Tree.ok {slots : Nat → Bytes → List (Option Laddr)} {r : Repo} {n : Nat} {a : Laddr} (h : Tree slots r n a) :
    Ok r a := by
  cases n with
  | zero => exact h
  | succ n => exact h.1

/-! ### Segments -/

theorem read_ok {r : Repo} {a : Laddr} {b : Bytes} : r.read a = .ok b ↔
    ∃ g, r.seg a.lsid = some g ∧ 0 ≤ a.pos ∧ a.pos + a.len ≤ g.size ∧
      b = (List.range a.len).map fun i => g.dat (a.pos.toNat + i) := by
  unfold Repo.read
  cases hg : r.seg a.lsid with
  | none => simp
  | some g =>
    simp only [Option.some.injEq, exists_eq_left']
    by_cases hc : a.pos < 0 ∨ (g.size : Int) < a.pos + a.len
    · rw [if_pos hc]
      constructor
      · intro h; cases h
      · rintro ⟨h1, h2, _⟩; omega
    · rw [if_neg hc]
      constructor
      · intro h; cases h; exact ⟨by omega, by omega, rfl⟩
      · rintro ⟨_, _, rfl⟩; rfl

theorem read_length {r : Repo} {a : Laddr} {b : Bytes} (h : r.read a = .ok b) : b.length = a.len := by
  obtain ⟨g, _, _, _, rfl⟩ := read_ok.1 h
  simp

/-- The range of `k` is in that of `a`. -/
def In (k a : Laddr) : Prop := k.lsid = a.lsid ∧ a.pos ≤ k.pos ∧ k.pos + k.len ≤ a.pos + a.len

def Cov (L : List Laddr) (k : Laddr) : Prop := ∃ a ∈ L, In k a

theorem In.refl (a : Laddr) : In a a := ⟨rfl, Int.le_refl _, Int.le_refl _⟩

theorem In.trans {a b c : Laddr} (h : In a b) (h' : In b c) : In a c :=
  ⟨h.1.trans h'.1, Int.le_trans h'.2.1 h.2.1, Int.le_trans h.2.2 h'.2.2⟩

/-! ### Lists of addresses -/

theorem merge_ok {r : Repo} {p a : Laddr} (hp : Ok r p) (ha : Ok r a) (hn : isNext p a = true) :
    Ok r { p with len := p.len + a.len } ∧ In p { p with len := p.len + a.len } ∧
      In a { p with len := p.len + a.len } := by
  simp only [isNext, Bool.and_eq_true, beq_iff_eq, decide_eq_true_eq] at hn
  obtain ⟨⟨h1, h2⟩, h3⟩ := hn
  have hv := ha.valid
  have hf := hp.fits
  have hl := hf.lsid.lsize
  have h0 := hf.pos0
  rw [← h1] at hv
  refine ⟨⟨⟨hf.lsid, hf.pos0, hf.pos1, ?_⟩, ?_, hp.ltype, ?_⟩, ⟨rfl, Int.le_refl _, ?_⟩, ⟨h1.symm, ?_, ?_⟩⟩
  · show p.len + a.len < 4294967296
    omega
  · show p.pos + ((p.len + a.len : Nat) : Int) ≤ p.lsid.lsize
    omega
  · obtain ⟨b, hb⟩ := ha.read
    obtain ⟨g, g1, g2, g3, _⟩ := read_ok.1 hb
    obtain ⟨b', hb'⟩ := hp.read
    exact ⟨_, read_ok.2 ⟨g, by rw [← g1, ← h1], h0, by
      show p.pos + ((p.len + a.len : Nat) : Int) ≤ g.size
      omega, rfl⟩⟩
  · show p.pos + p.len ≤ p.pos + ((p.len + a.len : Nat) : Int)
    omega
  · show p.pos ≤ a.pos
    omega
  · show a.pos + a.len ≤ p.pos + ((p.len + a.len : Nat) : Int)
    omega

theorem lmapAdd_ok {r : Repo} {acc : List Laddr} {a : Laddr} (h : ∀ k ∈ acc, Ok r k) (ha : Ok r a) :
    (∀ k ∈ lmapAdd acc a, Ok r k) ∧ Cov (lmapAdd acc a) a ∧ ∀ k, Cov acc k → Cov (lmapAdd acc a) k := by
  cases acc with
  | nil =>
    refine ⟨?_, ⟨a, by simp [lmapAdd], In.refl a⟩, ?_⟩
    · intro k hk; simp [lmapAdd] at hk; rw [hk]; exact ha
    · rintro k ⟨x, hx, _⟩; cases hx
  | cons p acc =>
    unfold lmapAdd
    by_cases hn : isNext p a = true
    · obtain ⟨m1, m2, m3⟩ := merge_ok (h p (List.mem_cons_self ..)) ha hn
      simp only [hn, if_true]
      refine ⟨?_, ⟨_, List.mem_cons_self .., m3⟩, ?_⟩
      · intro k hk
        rcases List.mem_cons.1 hk with rfl | hk
        · exact m1
        · exact h k (List.mem_cons_of_mem _ hk)
      · rintro k ⟨x, hx, hi⟩
        rcases List.mem_cons.1 hx with rfl | hx
        · exact ⟨_, List.mem_cons_self .., hi.trans m2⟩
        · exact ⟨x, List.mem_cons_of_mem _ hx, hi⟩
    · simp only [hn]
      refine ⟨?_, ⟨a, List.mem_cons_self .., In.refl a⟩, ?_⟩
      · intro k hk
        rcases List.mem_cons.1 hk with rfl | hk
        · exact ha
        · exact h k hk
      · rintro k ⟨x, hx, hi⟩
        exact ⟨x, List.mem_cons_of_mem _ hx, hi⟩

theorem lmap_fold {r : Repo} (l : List Laddr) : ∀ acc : List Laddr, (∀ k ∈ acc, Ok r k) → (∀ k ∈ l, Ok r k) →
    (∀ k ∈ l.foldl lmapAdd acc, Ok r k) ∧ (∀ k ∈ l, Cov (l.foldl lmapAdd acc) k) ∧
      ∀ k, Cov acc k → Cov (l.foldl lmapAdd acc) k := by
  induction l with
  | nil => intro acc h _; exact ⟨h, fun k hk => (nomatch hk), fun k hk => hk⟩
  | cons a l ih =>
    intro acc h hl
    obtain ⟨a1, a2, a3⟩ := lmapAdd_ok h (hl a (List.mem_cons_self ..))
    obtain ⟨i1, i2, i3⟩ := ih (lmapAdd acc a) a1 (fun k hk => hl k (List.mem_cons_of_mem _ hk))
    refine ⟨i1, ?_, fun k hk => i3 k (a3 k hk)⟩
    intro k hk
    rcases List.mem_cons.1 hk with rfl | hk
    · exact i3 _ a2
    · exact i2 k hk

/-- The list of ranges covers every child, and all of it is stored. -/
theorem lmap_spec {r : Repo} {l : List (Option Laddr)} (h : ∀ k, some k ∈ l → Ok r k) :
    (∀ k ∈ lmap l, Ok r k) ∧ ∀ k, some k ∈ l → Cov (lmap l) k := by
  have hm : ∀ k, k ∈ l.filterMap id ↔ some k ∈ l := by intro k; simp
  obtain ⟨i1, i2, _⟩ := lmap_fold (r := r) (l.filterMap id) [] (fun k hk => (nomatch hk))
    (fun k hk => h k ((hm k).1 hk))
  refine ⟨fun k hk => i1 k (List.mem_reverse.1 hk), fun k hk => ?_⟩
  obtain ⟨x, hx, hi⟩ := i2 k ((hm k).2 hk)
  exact ⟨x, List.mem_reverse.2 hx, hi⟩

/-! ### The traversal -/

/-- The ranges visited below a node with `d` levels of space maps below it. -/
def visit (slots : Nat → Bytes → List (Option Laddr)) (r : Repo) : Nat → Laddr → List Laddr
  | 0, a =>
    match r.read a with
    | .error _ => []
    | .ok b => lmap (slots 0 b)
  | d + 1, a =>
    match r.read a with
    | .error _ => []
    | .ok b => ((slots (d + 1) b).filterMap id).flatMap (visit slots r d) ++ lmap (slots (d + 1) b)

def run (f : Laddr → Ex → Ex × Option Err) (L : List Laddr) (x : Ex) : Ex := L.foldl (fun x a => (f a x).1) x

theorem run_append (f : Laddr → Ex → Ex × Option Err) (L L' : List Laddr) (x : Ex) :
    run f (L ++ L') x = run f L' (run f L x) := List.foldl_append

def Always (f : Laddr → Ex → Ex × Option Err) (L : List Laddr) : Prop := ∀ a ∈ L, ∀ x, (f a x).2 = none

theorem cbList_run {f : Laddr → Ex → Ex × Option Err} {L : List Laddr} : ∀ x, Always f L → cbList f L x = (run f L x, none) := by
  induction L with
  | nil => intro x _; rfl
  | cons a L ih =>
    intro x h
    have ha := h a (List.mem_cons_self ..) x
    have : f a x = ((f a x).1, none) := by rw [← ha]
    rw [cbList, this]
    simp only
    rw [ih _ (fun b hb => h b (List.mem_cons_of_mem _ hb))]
    rfl

theorem loop_run {f : Laddr → Ex → Ex × Option Err} {t : Laddr → Ex → Ex × Option Err} {v : Laddr → List Laddr}
    {as : List Laddr} {n : Nat} (ht : ∀ a ∈ as, ∀ x, t a x = (run f (v a) x, none)) :
    ∀ x, loop t (as.map some ++ List.replicate n none) x = (run f (as.flatMap v) x, none) := by
  induction as with
  | nil =>
    intro x
    cases n with
    | zero => rfl
    | succ n => rfl
  | cons a as ih =>
    intro x
    rw [List.map_cons, List.cons_append, loop, ht a (List.mem_cons_self ..) x]
    simp only
    rw [ih (fun b hb => ht b (List.mem_cons_of_mem _ hb)), List.flatMap_cons, run_append]

theorem dense_map {as : List Laddr} {n : Nat} : (as.map some ++ List.replicate n none).filterMap id = as := by
  rw [List.filterMap_append, List.filterMap_map]
  have : (List.replicate n (none : Option Laddr)).filterMap id = [] := by
    induction n with
    | zero => rfl
    | succ n ih => rw [List.replicate_succ, List.filterMap_cons_none (by rfl), ih]
  rw [this, List.append_nil]
  induction as with
  | nil => rfl
  | cons a as ih => rw [List.filterMap_cons_some (b := a) (by rfl), ih]

theorem trav_run {slots : Nat → Bytes → List (Option Laddr)} {r : Repo} {f : Laddr → Ex → Ex × Option Err} {d : Nat} (hd : d ≤ 4) :
    ∀ a x, Tree slots r (d + 1) a → Always f (visit slots r d a) →
      trav slots r f d a x = (run f (visit slots r d a) x, none) := by
  induction d with
  | zero =>
    intro a x h hf
    obtain ⟨b, hb⟩ := h.1.read
    unfold trav
    unfold visit at hf ⊢
    rw [hb] at hf ⊢
    exact cbList_run x hf
  | succ d ih =>
    intro a x h hf
    obtain ⟨b, hb⟩ := h.1.read
    obtain ⟨hD, hk⟩ := h.2 b hb
    obtain ⟨as, n, hl⟩ := hD (by omega) (by omega)
    unfold trav
    unfold visit at hf ⊢
    rw [hb] at hf ⊢
    simp only at hf ⊢
    have hfm : (slots (d + 1) b).filterMap id = as := by rw [hl]; exact dense_map
    rw [hfm] at hf ⊢
    have e := loop_run (f := f) (t := trav slots r f d) (v := visit slots r d) (as := as) (n := n)
      (fun k hk' x => ih (by omega) k x (hk k (by rw [hl]; simp [hk'])) (fun q hq => hf q
        (List.mem_append_left _ (List.mem_flatMap.2 ⟨k, hk', hq⟩)))) x
    rw [← hl] at e
    rw [e]
    simp only
    rw [cbList_run _ (fun q hq => hf q (List.mem_append_right _ hq)), run_append]

theorem visit_ok {slots : Nat → Bytes → List (Option Laddr)} {r : Repo} {d : Nat} :
    ∀ a, Tree slots r (d + 1) a → ∀ k ∈ visit slots r d a, Ok r k := by
  induction d with
  | zero =>
    intro a h k hk
    obtain ⟨b, hb⟩ := h.1.read
    unfold visit at hk
    rw [hb] at hk
    exact (lmap_spec (fun k hk => ((h.2 b hb).2 k hk).ok)).1 k hk
  | succ d ih =>
    intro a h k hk
    obtain ⟨b, hb⟩ := h.1.read
    unfold visit at hk
    rw [hb] at hk
    rcases List.mem_append.1 hk with hk | hk
    · obtain ⟨q, hq, hk⟩ := List.mem_flatMap.1 hk
      exact ih q ((h.2 b hb).2 q (by simpa using hq)) k hk
    · exact (lmap_spec (fun k hk => ((h.2 b hb).2 k hk).ok)).1 k hk

/-- Everything below a node can be read where the ranges visited can. -/
theorem at_same {slots : Nat → Bytes → List (Option Laddr)} {r r' : Repo} {d : Nat} :
    ∀ a, Tree slots r (d + 1) a → r'.read a = r.read a →
      (∀ k, Ok r k → Cov (visit slots r d a) k → r'.read k = r.read k) →
      ∀ p, at' slots r' (d + 1) a p = at' slots r (d + 1) a p := by
  induction d with
  | zero =>
    intro a h ha hc p
    obtain ⟨b, hb⟩ := h.1.read
    cases p with
    | nil => simp only [at', ha]
    | cons c p =>
      simp only [at', ha, hb]
      cases hs : (slots 0 b)[c]? with
      | none => rfl
      | some o =>
        cases o with
        | none => rfl
        | some k =>
          have hm : some k ∈ slots 0 b := List.mem_of_getElem? hs
          have hk := (h.2 b hb).2 k hm
          have := (lmap_spec (fun k hk => ((h.2 b hb).2 k hk).ok)).2 k hm
          cases p with
          | nil =>
            simp only [at']
            rw [hc k hk.ok (by unfold visit; rw [hb]; exact this)]
          | cons _ _ => rfl
  | succ d ih =>
    intro a h ha hc p
    obtain ⟨b, hb⟩ := h.1.read
    cases p with
    | nil => simp only [at', ha]
    | cons c p =>
      simp only [at', ha, hb]
      cases hs : (slots (d + 1) b)[c]? with
      | none => rfl
      | some o =>
        cases o with
        | none => rfl
        | some k =>
          have hm : some k ∈ slots (d + 1) b := List.mem_of_getElem? hs
          have hk := (h.2 b hb).2 k hm
          have hcov := (lmap_spec (fun k hk => ((h.2 b hb).2 k hk).ok)).2 k hm
          have hv : visit slots r (d + 1) a =
              ((slots (d + 1) b).filterMap id).flatMap (visit slots r d) ++ lmap (slots (d + 1) b) := by
            rw [visit, hb]
          refine ih k hk (hc k hk.ok ?_) (fun q hq hcq => hc q hq ?_) p
          · obtain ⟨x, hx, hi⟩ := hcov
            exact ⟨x, by rw [hv]; exact List.mem_append_right _ hx, hi⟩
          · obtain ⟨x, hx, hi⟩ := hcq
            exact ⟨x, by rw [hv]; exact List.mem_append_left _ (List.mem_flatMap.2 ⟨k, by simpa using hm, hx⟩), hi⟩

theorem spaces_run {slots : Nat → Bytes → List (Option Laddr)} {r : Repo} {f : Laddr → Ex → Ex × Option Err} {l : List (Option Laddr)} :
    ∀ x, (∀ k, some k ∈ l → Tree slots r 5 k) → Always f ((l.filterMap id).flatMap (visit slots r 4)) →
      spaces (trav slots r f 4) l x = (run f ((l.filterMap id).flatMap (visit slots r 4)) x, none) := by
  induction l with
  | nil => intro x _ _; rfl
  | cons o l ih =>
    intro x ht hf
    cases o with
    | none =>
      rw [spaces, ih x (fun k hk => ht k (List.mem_cons_of_mem _ hk)) hf]
      rfl
    | some a =>
      have e : (some a :: l).filterMap id = a :: l.filterMap id := rfl
      rw [e, List.flatMap_cons] at hf ⊢
      rw [spaces, trav_run (by omega) a x (ht a (List.mem_cons_self ..)) (fun k hk => hf k (List.mem_append_left _ hk))]
      simp only
      rw [ih _ (fun k hk => ht k (List.mem_cons_of_mem _ hk)) (fun k hk => hf k (List.mem_append_right _ hk)), run_append]

/-- All ranges of a file-system but the boot record. -/
def ranges (slots : Nat → Bytes → List (Option Laddr)) (r : Repo) (sb : Laddr) (b : Bytes) : List Laddr :=
  ((slots 5 b).filterMap id).flatMap (visit slots r 4) ++ ((slots 5 b).filterMap id ++ [sb])

theorem inspect_run {slots : Nat → Bytes → List (Option Laddr)} {r : Repo} {f : Laddr → Ex → Ex × Option Err} {sb br : Laddr} {b : Bytes}
    (h : Tree slots r 6 sb) (hb : r.read sb = .ok b) (hf : Always f (ranges slots r sb b ++ [br])) (x : Ex) :
    inspect slots r f sb br b x = (run f (ranges slots r sb b ++ [br]) x, none) := by
  unfold inspect
  unfold ranges at hf ⊢
  rw [spaces_run x (h.2 b hb).2 (fun k hk => hf k (by simp only [List.mem_append]; exact Or.inl (Or.inl hk)))]
  simp only
  rw [cbList_run _ (fun k hk => hf k (by
    simp only [List.mem_append, List.mem_cons, List.not_mem_nil, or_false] at hk ⊢
    rcases hk with h1 | h1 | h1
    · exact Or.inl (Or.inr (Or.inl h1))
    · exact Or.inl (Or.inr (Or.inr h1))
    · exact Or.inr h1))]
  rw [← run_append]
  simp [List.append_assoc]

theorem ranges_ok {slots : Nat → Bytes → List (Option Laddr)} {r : Repo} {sb : Laddr} {b : Bytes}
    (h : Tree slots r 6 sb) (hb : r.read sb = .ok b) : ∀ k ∈ ranges slots r sb b, Ok r k := by
  intro k hk
  unfold ranges at hk
  simp only [List.mem_append, List.mem_singleton] at hk
  rcases hk with hk | hk | hk
  · obtain ⟨q, hq, hk⟩ := List.mem_flatMap.1 hk
    exact visit_ok q ((h.2 b hb).2 q (by simpa using hq)) k hk
  · exact ((h.2 b hb).2 k (by simpa using hk)).ok
  · rw [hk]; exact h.ok

theorem tree_same {slots : Nat → Bytes → List (Option Laddr)} {r r' : Repo} {sb : Laddr} {b : Bytes}
    (h : Tree slots r 6 sb) (hb : r.read sb = .ok b)
    (hc : ∀ k, Ok r k → Cov (ranges slots r sb b) k → r'.read k = r.read k) (p : List Nat) :
    at' slots r' 6 sb p = at' slots r 6 sb p := by
  have hs : r'.read sb = r.read sb := hc sb h.ok ⟨sb, by simp [ranges], In.refl sb⟩
  cases p with
  | nil => simp only [at', hs]
  | cons c p =>
    simp only [at', hs, hb]
    cases hq : (slots 5 b)[c]? with
    | none => rfl
    | some o =>
      cases o with
      | none => rfl
      | some k =>
        have hm : some k ∈ slots 5 b := List.mem_of_getElem? hq
        have hk := (h.2 b hb).2 k hm
        refine at_same k hk (hc k hk.ok ⟨k, ?_, In.refl k⟩) (fun q hq hcq => hc q hq ?_) p
        · simp only [ranges, List.mem_append]
          exact Or.inr (Or.inl (by simpa using hm))
        · obtain ⟨x, hx, hi⟩ := hcq
          refine ⟨x, ?_, hi⟩
          simp only [ranges, List.mem_append]
          exact Or.inl (List.mem_flatMap.2 ⟨k, by simpa using hm, hx⟩)

end Silofs.Pack
