import Verif.Model.Passwd
import Verif.Spec.Passwd
import Verif.Spec.Text
set_option linter.unusedSimpArgs false
set_option linter.unusedVariables false
/-
C67: the password is what the user gave, in whatever way.
-/
namespace Silofs.Pw
open Silofs.PwSpec

theorem isSkip_iff (c : Nat) : isSkip c = true ↔ c ∈ around := by
  simp [isSkip, isSpace, around]
  omega

theorem charOk_iff (c : Nat) : charOk c = true ↔ 33 ≤ c ∧ c ≤ 126 := by
  simp [charOk, isSpace]
  omega

theorem dropWhile_skip {l r : List Nat} (hl : ∀ c ∈ l, isSkip c = true) (hr : ∀ c ∈ r.head?, isSkip c = false) :
    (l ++ r).dropWhile isSkip = r := by
  rw [List.dropWhile_append_of_pos hl]
  cases r with
  | nil => rfl
  | cons a r => rw [List.dropWhile_cons_of_neg (by simp [hr a (by simp)])]

theorem trimSkip_of {l p r : List Nat} (hl : ∀ c ∈ l, isSkip c = true) (hr : ∀ c ∈ r, isSkip c = true)
    (h1 : ∀ c ∈ p.head?, isSkip c = false) (h2 : ∀ c ∈ p.getLast?, isSkip c = false) (hne : p ≠ []) :
    trimSkip (l ++ p ++ r) = p := by
  unfold trimSkip
  obtain ⟨a, p, rfl⟩ := List.exists_cons_of_ne_nil hne
  rw [List.append_assoc, dropWhile_skip hl (by simpa using h1 a (by simp))]
  rw [List.reverse_append, dropWhile_skip (fun c hc => hr c (List.mem_reverse.mp hc)) (by
    rw [List.head?_reverse]; exact h2), List.reverse_reverse]

theorem trimSkip_stripped (b : List Nat) : Text.Stripped around b (trimSkip b) := by
  refine ⟨b.takeWhile isSkip, ((b.dropWhile isSkip).reverse.takeWhile isSkip).reverse, ?_, ?_, ?_, ?_, ?_⟩
  · unfold trimSkip
    rw [List.append_assoc, ← List.reverse_append, List.takeWhile_append_dropWhile, List.reverse_reverse,
      List.takeWhile_append_dropWhile]
  · intro x hx
    exact (isSkip_iff x).mp (by
      have := List.all_takeWhile (p := isSkip) (l := b)
      exact List.all_eq_true.mp this x hx)
  · intro x hx
    have := List.all_takeWhile (p := isSkip) (l := (b.dropWhile isSkip).reverse)
    exact (isSkip_iff x).mp (List.all_eq_true.mp this x (List.mem_reverse.mp hx))
  · intro x hx hs
    -- the front of what is left
    have key : ∀ (l : List Nat), (∀ y ∈ l.head?, isSkip y = false) →
        ∀ y ∈ ((l.reverse.dropWhile isSkip).reverse).head?, isSkip y = false := by
      intro l hl y hy
      have hpre : (l.reverse.dropWhile isSkip).reverse <+: l := by
        have := List.dropWhile_suffix (l := l.reverse) isSkip
        have := List.reverse_prefix.mpr this
        rwa [List.reverse_reverse] at this
      obtain ⟨t, ht⟩ := hpre
      cases hz : (l.reverse.dropWhile isSkip).reverse with
      | nil => rw [hz] at hy; exact absurd hy (by simp)
      | cons a z =>
        rw [hz] at hy ht
        simp only [List.head?_cons, Option.mem_def, Option.some.injEq] at hy
        subst hy
        exact hl a (by rw [← ht]; simp)
    have hh : ∀ y ∈ (b.dropWhile isSkip).head?, isSkip y = false := by
      intro y hy
      have := List.head?_dropWhile_not isSkip b
      cases hz : b.dropWhile isSkip with
      | nil => rw [hz] at hy; exact absurd hy (by simp)
      | cons a z =>
        rw [hz] at hy this
        simp only [List.head?_cons, Option.mem_def, Option.some.injEq] at hy
        subst hy
        simpa using this
    have := key _ hh x hx
    rw [(isSkip_iff x).mpr hs] at this
    exact absurd this (by decide)
  · intro x hx hs
    unfold trimSkip at hx
    rw [List.getLast?_reverse] at hx
    have := List.head?_dropWhile_not isSkip (b.dropWhile isSkip).reverse
    cases hz : (b.dropWhile isSkip).reverse.dropWhile isSkip with
    | nil => rw [hz] at hx; exact absurd hx (by simp)
    | cons a z =>
      rw [hz] at hx this
      simp only [List.head?_cons, Option.mem_def, Option.some.injEq] at hx
      subst hx
      have this : isSkip a = false := this
      rw [(isSkip_iff a).mpr hs] at this
      exact absurd this (by simp)

theorem legal_noskip {p : List Nat} (h : Legal p) : ∀ c ∈ p, isSkip c = false := by
  intro c hc
  have := h.2.2 c hc
  cases hs : isSkip c with
  | false => rfl
  | true =>
    have := (isSkip_iff c).mp hs
    simp [around] at this
    omega

/-- Exactly the texts which are a password with blanks around are taken, and give that password. -/
theorem C67_accept (b p : List Nat) : parseDup b = .ok p ↔ Text.Stripped around b p ∧ Legal p := by
  constructor
  · intro h
    unfold parseDup at h
    split at h
    · cases h
    · rename_i h0
      split at h
      · cases h
      · rename_i h1
        split at h
        · rename_i h2
          cases h
          refine ⟨trimSkip_stripped b, by omega, by unfold PASSWORD_MAX at h1; omega, fun c hc => ?_⟩
          exact (charOk_iff c).mp (List.all_eq_true.mp h2 c hc)
        · cases h
  · rintro ⟨⟨l, r, rfl, hl, hr, _, _⟩, hp⟩
    have hne : p ≠ [] := by intro e; have := hp.1; rw [e] at this; simp at this
    have ht : trimSkip (l ++ p ++ r) = p := trimSkip_of (fun c hc => (isSkip_iff c).mpr (hl c hc))
      (fun c hc => (isSkip_iff c).mpr (hr c hc))
      (fun c hc => legal_noskip hp c (List.mem_of_mem_head? hc))
      (fun c hc => legal_noskip hp c (List.mem_of_getLast? hc)) hne
    unfold parseDup
    rw [ht, if_neg (by have := hp.1; omega), if_neg (by have := hp.2.1; unfold PASSWORD_MAX; omega),
      if_pos (List.all_eq_true.mpr (fun c hc => (charOk_iff c).mpr (hp.2.2 c hc)))]

theorem parse_line {p : List Nat} (h : Legal p) (tl : List Nat) (ht : tl = [] ∨ tl = [10]) : parseDup (p ++ tl) = .ok p := by
  refine (C67_accept _ p).mpr ⟨⟨[], tl, rfl, by simp, ?_, ?_, ?_⟩, h⟩
  · rcases ht with rfl | rfl <;> simp [around]
  · intro x hx hs
    have := legal_noskip h x (List.mem_of_mem_head? hx)
    rw [(isSkip_iff x).mpr hs] at this
    cases this
  · intro x hx hs
    have := legal_noskip h x (List.mem_of_getLast? hx)
    rw [(isSkip_iff x).mpr hs] at this
    cases this

/-- A password typed as a line, kept in a file, written to a pipe in one go, or given with `-p` (each
with or without a newline, the terminal with it) is the same password. -/
theorem C67_ways (p : List Nat) (h : Legal p) (tl : List Nat) (ht : tl = [] ∨ tl = [10]) (more : List Ev) :
    doGetpass false (.tty (.data (p ++ [10]) :: more)) = .ok p ∧
    doGetpass false (.reg (p ++ tl) 0) = .ok p ∧
    doGetpass false (.other (.data (p ++ tl) :: more)) = .ok p ∧
    optPass p = some (.ok p) := by
  have h1 := h.1
  have h2 := h.2.1
  have hl : (p ++ tl).length ≤ 256 := by
    rcases ht with rfl | rfl <;> simp only [List.length_append, List.length_cons, List.length_nil] <;> omega
  have hl0 : 0 < (p ++ tl).length := by rw [List.length_append]; omega
  refine ⟨?_, ?_, ?_, ?_⟩
  · have hr : getpassFrom (.tty (.data (p ++ [10]) :: more)) = (parseDup (p ++ [10]), .tty more) := by
      have e : readFrom (.tty (.data (p ++ [10]) :: more)) 1024 = (.ok (p ++ [10]), .tty more) := by
        unfold readFrom readTty
        have e : read 1024 (.tty (.data (p ++ [10]) :: more)) = (.ok (p ++ [10]), .tty more) := by
          simp only [read, readEvs]
          rw [if_pos (by rw [List.length_append]; simp only [List.length_cons, List.length_nil]; omega)]
        simp only [e]
        rw [if_neg (by rw [List.length_append]; simp), if_pos (by simp)]
      unfold getpassFrom
      rw [e]
    unfold doGetpass
    rw [hr, parse_line h [10] (Or.inr rfl)]
    rfl
  · have hr : (getpassFrom (.reg (p ++ tl) 0)).1 = parseDup (p ++ tl) := by
      have e : (readFrom (.reg (p ++ tl) 0) 1024).1 = .ok (p ++ tl) := by
        unfold readFrom
        simp only
        unfold readFile
        rw [if_neg (by omega), if_neg (by omega)]
        unfold readBuf
        simp only [read, List.drop_zero, List.take_length]
        rw [if_neg (by omega), if_pos trivial]
        rw [show (p ++ tl).drop (0 + min (p ++ tl).length ((p ++ tl).length - 0)) = [] from
          List.drop_eq_nil_of_le (by omega), List.take_nil]
      unfold getpassFrom
      rw [e]
    unfold doGetpass
    rw [hr, parse_line h tl ht]
    rfl
  · have hr : (getpassFrom (.other (.data (p ++ tl) :: more))).1 = parseDup (p ++ tl) := by
      have e : (readFrom (.other (.data (p ++ tl) :: more)) 1024).1 = .ok (p ++ tl) := by
        unfold readFrom readBuf
        simp only [read, readEvs]
        rw [if_pos (by omega)]
        simp only
        rw [if_neg (by omega), if_neg (by omega)]
      unfold getpassFrom
      rw [e]
    unfold doGetpass
    rw [hr, parse_line h tl ht]
    rfl
  · unfold optPass dupPass
    rw [if_neg (by omega)]
    have := parse_line h [] (Or.inl rfl)
    rw [List.append_nil] at this
    simp only
    rw [this]

/-- A file: the password is all of it but blanks around.  Nothing is cut off. -/
theorem C67_file (f p : List Nat) (h : doGetpass false (.reg f 0) = .ok p) :
    Text.Stripped around f p ∧ Legal p := by
  rw [← C67_accept]
  unfold doGetpass at h
  have hr : (getpassFrom (.reg f 0)).1 = .ok p := by
    split at h
    · cases h
    · rename_i q hq
      rw [if_neg (by decide)] at h
      cases h
      exact hq
  have e : ∀ l, (readFrom (.reg f 0) 1024).1 = .ok l → l = f := by
    intro l hl
    unfold readFrom at hl
    simp only at hl
    unfold readFile at hl
    split at hl
    · cases hl
    · split at hl
      · cases hl
      · unfold readBuf at hl
        simp only [read, List.drop_zero, List.take_length] at hl
        split at hl
        · cases hl
        · rw [if_pos trivial] at hl
          split at hl
          · cases hl
          · cases hl
            rfl
  unfold getpassFrom at hr
  split at hr
  · cases hr
  · rename_i l hl
    rw [e l hl] at hr
    exact hr

/-- A terminal: the password is all of one line, which ended, but blanks around.  A line which is too
long is refused, not cut. -/
theorem C67_tty (evs : List Ev) (hline : ∀ l, Ev.data l ∈ evs → 10 ∉ l.dropLast) (p : List Nat)
    (h : doGetpass false (.tty evs) = .ok p) :
    ∃ l more, evs = .data (l ++ [10]) :: more ∧ Text.Stripped around (l ++ [10]) p ∧ Legal p := by
  unfold doGetpass at h
  have hr : (getpassFrom (.tty evs)).1 = .ok p := by
    split at h
    · cases h
    · rename_i q hq
      rw [if_neg (by decide)] at h
      cases h
      exact hq
  unfold getpassFrom at hr
  split at hr
  · cases hr
  · rename_i l hl
    unfold readFrom readTty at hl
    simp only [read] at hl
    cases evs with
    | nil => simp [readEvs] at hl
    | cons v more =>
      cases v with
      | fail e => simp [readEvs] at hl
      | data d =>
        simp only [readEvs] at hl
        by_cases hd : d.length ≤ 1024
        · rw [if_pos hd] at hl
          simp only at hl
          split at hl
          · cases hl
          · split at hl
            · rename_i h10
              cases hl
              obtain ⟨z, hz⟩ := List.getLast?_eq_some_iff.mp h10
              subst hz
              exact ⟨z, more, rfl, (C67_accept _ _).mp hr⟩
            · cases hl
        · rw [if_neg hd] at hl
          simp only at hl
          split at hl
          · cases hl
          · split at hl
            · rename_i h10
              exfalso
              refine hline d (by simp) ?_
              have := List.mem_of_getLast? h10
              rw [List.dropLast_eq_take]
              exact List.take_subset_take_left d (by omega) this
            · cases hl

/-- A pipe: when all was written in one go (at most 1024 bytes), the password is all of it but blanks
around.  Missing for the full claim: what is written in more goes (`C67_pipe_violated`). -/
theorem C67_pipe_partial (d p : List Nat) (h : doGetpass false (.other [.data d]) = .ok p) :
    Text.Stripped around d p ∧ Legal p := by
  rw [← C67_accept]
  unfold doGetpass at h
  have hr : (getpassFrom (.other [.data d])).1 = .ok p := by
    split at h
    · cases h
    · rename_i q hq
      rw [if_neg (by decide)] at h
      cases h
      exact hq
  unfold getpassFrom at hr
  split at hr
  · cases hr
  · rename_i l hl
    have : l = d := by
      unfold readFrom readBuf at hl
      simp only [read, readEvs] at hl
      by_cases hd : d.length ≤ 1024
      · rw [if_pos hd] at hl
        simp only at hl
        split at hl
        · cases hl
        · split at hl
          · cases hl; rfl
          · cases hl; rfl
      · rw [if_neg hd] at hl
        simp only at hl
        rw [if_neg (by rw [List.length_take]; omega), if_pos (by rw [List.length_take]; omega)] at hl
        have h1 : 0 < (d.drop 1024).length := by rw [List.length_drop]; omega
        obtain ⟨a, z, hz⟩ := List.exists_cons_of_length_pos h1
        rw [hz] at hl
        exfalso
        by_cases hz1 : (a :: z).length ≤ 1
        · rw [if_pos hz1] at hl
          simp only at hl
          cases hl
        · rw [if_neg hz1] at hl
          simp only [List.take_succ_cons] at hl
          cases hl
    rw [this] at hr
    exact hr

/-- The password "abcd" written to a pipe in two goes is taken as "ab". -/
theorem C67_pipe_violated : doGetpass false (.other [.data [97, 98], .data [99, 100, 10]]) = .ok [97, 98] := rfl

/-! ### Asked twice -/

/-- mkfs takes a password only when both times the same one was given. -/
theorem C67_again (i : In) (p : List Nat) (h : doGetpass true i = .ok p) :
    (getpassFrom i).1 = .ok p ∧ (getpassFrom (getpassFrom i).2).1 = .ok p := by
  unfold doGetpass at h
  split at h
  · cases h
  · rename_i q hq
    rw [if_pos rfl] at h
    split at h
    · cases h
    · rename_i r hr
      split at h
      · rename_i e
        cases h
        subst e
        exact ⟨hq, hr⟩
      · cases h

/-- Typed twice at a terminal it is taken; two different lines are not. -/
theorem C67_again_tty (p q : List Nat) (hp : Legal p) (hq : Legal q) (more : List Ev) :
    doGetpass true (.tty (.data (p ++ [10]) :: .data (q ++ [10]) :: more)) = if p = q then .ok p else .error 0 := by
  have hr : ∀ (p : List Nat) (hp : Legal p) (more : List Ev),
      getpassFrom (.tty (.data (p ++ [10]) :: more)) = (.ok p, .tty more) := by
    intro p hp more
    have h1 := hp.1
    have h2 := hp.2.1
    have e : readFrom (.tty (.data (p ++ [10]) :: more)) 1024 = (.ok (p ++ [10]), .tty more) := by
      unfold readFrom readTty
      have e : read 1024 (.tty (.data (p ++ [10]) :: more)) = (.ok (p ++ [10]), .tty more) := by
        simp only [read, readEvs]
        rw [if_pos (by rw [List.length_append]; simp only [List.length_cons, List.length_nil]; omega)]
      simp only [e]
      rw [if_neg (by rw [List.length_append]; simp), if_pos (by simp)]
    unfold getpassFrom
    rw [e]
    simp only
    rw [parse_line hp [10] (Or.inr rfl)]
  unfold doGetpass
  rw [hr p hp]
  simp only
  rw [if_pos trivial, hr q hq]

/-- mkfs with its input redirected from a file never gets a password, whatever is in the file. -/
theorem C67_again_file_violated (f : List Nat) (p : List Nat) : doGetpass true (.reg f 0) ≠ .ok p := by
  intro h
  obtain ⟨h1, h2⟩ := C67_again _ _ h
  have hs : (getpassFrom (.reg f 0)).2 = .reg f f.length ∨ ∃ e, (getpassFrom (.reg f 0)).1 = .error e := by
    unfold getpassFrom readFrom
    simp only
    unfold readFile
    by_cases hz : f.length = 0
    · rw [if_pos hz]; exact Or.inr ⟨_, rfl⟩
    · rw [if_neg hz]
      by_cases hb : 1024 < f.length
      · rw [if_pos hb]; exact Or.inr ⟨_, rfl⟩
      · rw [if_neg hb]
        left
        unfold readBuf
        simp only [read, List.drop_zero, List.take_length]
        rw [if_neg hz, if_pos trivial]
        rw [show f.drop (0 + min f.length (f.length - 0)) = [] from
          List.drop_eq_nil_of_le (by omega), List.take_nil]
        simp only
        congr 1
        omega
  rcases hs with hs | ⟨e, he⟩
  · rw [hs] at h2
    unfold getpassFrom readFrom at h2
    simp only at h2
    unfold readFile at h2
    by_cases hz : f.length = 0
    · rw [if_pos hz] at h2; cases h2
    · rw [if_neg hz] at h2
      by_cases hb : 1024 < f.length
      · rw [if_pos hb] at h2; cases h2
      · rw [if_neg hb] at h2
        unfold readBuf at h2
        simp only [read, List.drop_length, List.take_nil, List.length_nil, if_pos] at h2
        cases h2
  · rw [he] at h1
    cases h1

/-- mkfs fed by a pipe with the password twice, written in one go, refuses it. -/
theorem C67_again_pipe_violated : doGetpass true (.other [.data [97, 98, 10, 97, 98, 10]]) = .error 22 := rfl

/-! ### Kept -/

/-- A password which was accepted is kept whole, and keys are derived from all of it and nothing
else. -/
theorem C67_kept (p : List Nat) (h : Legal p) : ∃ w, setup (some p) = .ok w ∧ keyInput w = some p := by
  have h1 := h.1
  have h2 := h.2.1
  refine ⟨_, by unfold setup; rw [if_neg (by simp only [Option.getD_some]; omega)], ?_⟩
  unfold keyInput
  simp only [Option.getD_some]
  rw [if_neg (by omega), List.take_left]

/-- Different passwords give different input to the keys. -/
theorem C67_kept_apart (p q : List Nat) (w v : Password) (hp : setup (some p) = .ok w) (hq : setup (some q) = .ok v)
    (hn : p ≠ []) (h : keyInput w = keyInput v) : p = q := by
  unfold setup at hp hq
  simp only [Option.getD_some] at hp hq
  split at hp
  · cases hp
  · split at hq
    · cases hq
    · cases hp
      cases hq
      unfold keyInput at h
      simp only at h
      have : 0 < p.length := List.length_pos_iff.mpr hn
      rw [if_neg (by omega)] at h
      split at h
      · cases h
      · rw [List.take_left, List.take_left] at h
        exact Option.some.inj h

/-- No password: nothing is derived. -/
theorem C67_none : ∃ w, setup none = .ok w ∧ keyInput w = none := ⟨_, rfl, rfl⟩

end Silofs.Pw
