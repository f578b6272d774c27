import Verif.Props.Passwd
set_option linter.unusedSimpArgs false
set_option linter.unusedVariables false
/-
C67: the options of mount.
-/
namespace Silofs.Pw
open Silofs.PwSpec

/-- What one option does. -/
def apply1 (f : Flags) : Opt → Flags
  | .ro => { f with rdonly := true }
  | .rw => { f with rdonly := false }
  | .dev => { f with nodev := false }
  | .nodev => { f with nodev := true }
  | .suid => { f with nosuid := false }
  | .nosuid => { f with nosuid := true }
  | .exec => { f with noexec := false }
  | .noexec => { f with noexec := true }
  | .hostids => { f with hostids := true }
  | .passwd p => { f with password := some p }

def OptOk : Opt → Prop
  | .passwd p => Legal p ∧ 44 ∉ p
  | _ => True

theorem text_ne (o : Opt) : o.text ≠ [] := by
  cases o <;> simp [Opt.text]

theorem text_nocomma (o : Opt) (h : OptOk o) : 44 ∉ o.text := by
  cases o with
  | passwd p =>
    simp only [Opt.text, List.mem_append, not_or]
    exact ⟨by decide, h.2⟩
  | _ => simp [Opt.text]

/-- Cutting off the first option. -/
theorem cut_first (t r : List Nat) (ht : 44 ∉ t) :
    (t ++ 44 :: r).takeWhile (· ≠ 44) = t ∧ ((t ++ 44 :: r).dropWhile (· ≠ 44)).drop 1 = r := by
  have hp : ∀ x ∈ t, (decide (x ≠ 44)) = true := fun x hx => by
    have : x ≠ 44 := fun e => ht (e ▸ hx)
    simpa using this
  rw [List.takeWhile_append_of_pos hp, List.dropWhile_append_of_pos hp, List.takeWhile_cons_of_neg (by simp),
    List.dropWhile_cons_of_neg (by simp)]
  exact ⟨List.append_nil t, rfl⟩

theorem cut_last (t : List Nat) (ht : 44 ∉ t) :
    t.takeWhile (· ≠ 44) = t ∧ (t.dropWhile (· ≠ 44)).drop 1 = [] := by
  induction t with
  | nil => exact ⟨rfl, rfl⟩
  | cons a t ih =>
    have ha : a ≠ 44 := fun e => ht (by simp [e])
    have ih := ih (fun e => ht (by simp [e]))
    rw [List.takeWhile_cons_of_pos (by simpa using ha), List.dropWhile_cons_of_pos (by simpa using ha), ih.1]
    exact ⟨rfl, ih.2⟩

/-- What follows an option: nothing, or a comma and the others. -/
theorem commas_cons (o : Opt) (os : List Opt) :
    (os = [] ∧ commas (o :: os) = o.text) ∨ (os ≠ [] ∧ commas (o :: os) = o.text ++ 44 :: commas os) := by
  cases os with
  | nil => exact Or.inl ⟨rfl, rfl⟩
  | cons a os => exact Or.inr ⟨by simp, rfl⟩

theorem commas_cut (o : Opt) (os : List Opt) (h : OptOk o) :
    (commas (o :: os)).takeWhile (· ≠ 44) = o.text ∧ ((commas (o :: os)).dropWhile (· ≠ 44)).drop 1 = commas os := by
  rcases commas_cons o os with ⟨rfl, e⟩ | ⟨_, e⟩
  · rw [e]; exact cut_last _ (text_nocomma o h)
  · rw [e]; exact cut_first _ _ (text_nocomma o h)

theorem suboptLoop_any (o : Opt) (h : OptOk o) (x rest : List Nat) (h1 : x.takeWhile (· ≠ 44) = o.text)
    (h2 : (x.dropWhile (· ≠ 44)).drop 1 = rest) (k : Nat) (f : Flags) :
    suboptLoop (k + 1) x f = suboptLoop k rest (apply1 f o) := by
  have hne : x ≠ [] := by
    intro e
    rw [e] at h1
    exact text_ne o h1.symm
  obtain ⟨c, s, hs⟩ := List.exists_cons_of_ne_nil hne
  have hg : getsubopt (c :: s) = (toks.findIdx? (· == (o.text.takeWhile (· ≠ 61))),
      (if 61 ∈ o.text then some ((o.text.dropWhile (· ≠ 61)).drop 1) else none), rest) := by
    rw [← hs]
    unfold getsubopt
    rw [h1, h2]
  rw [hs]
  conv => lhs; unfold suboptLoop
  simp only
  rw [hg]
  cases o with
  | passwd p =>
    have e1 : (Opt.passwd p).text.takeWhile (· ≠ 61) = [112, 97, 115, 115, 119, 100] := by
      simp [Opt.text]
    have e2 : ((Opt.passwd p).text.dropWhile (· ≠ 61)).drop 1 = p := by
      simp [Opt.text]
    have e3 : 61 ∈ (Opt.passwd p).text := by simp [Opt.text]
    rw [e1, e2, if_pos e3]
    have e4 : toks.findIdx? (· == ([112, 97, 115, 115, 119, 100] : List Nat)) = some 9 := by decide
    rw [e4]
    simp only [dupPass]
    have := parse_line h.1 [] (Or.inl rfl)
    rw [List.append_nil] at this
    rw [this]
    rfl
  | ro => rfl
  | rw => rfl
  | dev => rfl
  | nodev => rfl
  | suid => rfl
  | nosuid => rfl
  | exec => rfl
  | noexec => rfl
  | hostids => rfl

theorem suboptLoop_step (o : Opt) (h : OptOk o) (os : List Opt) (k : Nat) (f : Flags) :
    suboptLoop (k + 1) (commas (o :: os)) f = suboptLoop k (commas os) (apply1 f o) :=
  suboptLoop_any o h _ _ (commas_cut o os h).1 (commas_cut o os h).2 k f

theorem suboptLoop_fold (os : List Opt) (h : ∀ o ∈ os, OptOk o) (k : Nat) (hk : os.length < k) (f : Flags) :
    suboptLoop k (commas os) f = .flags (os.foldl apply1 f) := by
  induction os generalizing k f with
  | nil =>
    obtain ⟨k, rfl⟩ : ∃ j, k = j + 1 := ⟨k - 1, by simp at hk; omega⟩
    rfl
  | cons o os ih =>
    obtain ⟨k, rfl⟩ : ∃ j, k = j + 1 := ⟨k - 1, by simp at hk; omega⟩
    rw [suboptLoop_step o (h o (by simp)), ih (fun o ho => h o (by simp [ho])) k (by simp at hk; omega)]
    rfl

theorem commas_length (os : List Opt) : os.length ≤ (commas os).length := by
  induction os with
  | nil => exact Nat.le_refl _
  | cons o os ih =>
    have := List.length_pos_iff.mpr (text_ne o)
    rcases commas_cons o os with ⟨rfl, e⟩ | ⟨_, e⟩
    · rw [e]; simp only [List.length_cons, List.length_nil]; omega
    · rw [e, List.length_append, List.length_cons, List.length_cons]; omega

theorem fold_fields (os : List Opt) (f : Flags) :
    os.foldl apply1 f =
      { rdonly := last .rw .ro os f.rdonly, nodev := last .dev .nodev os f.nodev
        nosuid := last .suid .nosuid os f.nosuid, noexec := last .exec .noexec os f.noexec
        hostids := f.hostids || decide (Opt.hostids ∈ os), password := lastPass os f.password } := by
  induction os generalizing f with
  | nil => simp [last, lastPass]
  | cons o os ih =>
    rw [List.foldl_cons, ih]
    cases o <;> simp [apply1, last, lastPass]

/-- Of options with commas between (the passwords without a comma), those which exclude each other
count as the last one given; a password is the last one given; nothing else is changed. -/
theorem C67_subopts_partial (os : List Opt) (h : ∀ o ∈ os, OptOk o) (hl : (commas os).length < 256) (f : Flags) :
    getsubopts (commas os) f =
      .flags { rdonly := last .rw .ro os f.rdonly, nodev := last .dev .nodev os f.nodev
               nosuid := last .suid .nosuid os f.nosuid, noexec := last .exec .noexec os f.noexec
               hostids := f.hostids || decide (Opt.hostids ∈ os), password := lastPass os f.password } := by
  unfold getsubopts
  rw [if_neg (by omega), suboptLoop_fold os h _ (by have := commas_length os; omega), fold_fields]

/-- A legal password with a comma is not taken whole: "a,ro" gives "a" and a read-only mount. -/
theorem C67_comma_violated (f : Flags) : Legal [97, 44, 114, 111] ∧
    getsubopts (commas [.passwd [97, 44, 114, 111]]) f = .flags { f with rdonly := true, password := some [97] } := by
  refine ⟨⟨by decide, by decide, by decide⟩, rfl⟩

/-- "passwd" without a value reads through a null pointer. -/
theorem C67_novalue_violated (f : Flags) : getsubopts [112, 97, 115, 115, 119, 100] f = .undef := rfl

/-- A value given to an option which has none is ignored: "ro=0" is "ro". -/
theorem C67_value_violated (f : Flags) : getsubopts [114, 111, 61, 48] f = .flags { f with rdonly := true } := rfl

/-- A text which is no option, or gives something that is no password. -/
def BadOpt (t : List Nat) : Prop :=
  t ≠ [] ∧ 44 ∉ t ∧
  (t.takeWhile (· ≠ 61) ∉ [[114, 111], [114, 119], [100, 101, 118], [110, 111, 100, 101, 118], [115, 117, 105, 100],
      [110, 111, 115, 117, 105, 100], [101, 120, 101, 99], [110, 111, 101, 120, 101, 99],
      [104, 111, 115, 116, 105, 100, 115], [112, 97, 115, 115, 119, 100]] ∨
    ∃ b, t = [112, 97, 115, 115, 119, 100, 61] ++ b ∧ ∀ p, ¬ (Text.Stripped around b p ∧ Legal p))

theorem suboptLoop_bad (t x : List Nat) (h : BadOpt t) (hx : x.takeWhile (· ≠ 44) = t) (k : Nat) (f : Flags) :
    ∃ e, suboptLoop (k + 1) x f = .die e := by
  obtain ⟨hn, hc, h⟩ := h
  have hne : x ≠ [] := by intro e; rw [e] at hx; exact hn hx.symm
  obtain ⟨c, s, hs⟩ := List.exists_cons_of_ne_nil hne
  rw [hs] at hx ⊢
  rcases h with h | ⟨b, hb, h⟩
  · have hg : (getsubopt (c :: s)).1 = none := by
      unfold getsubopt
      rw [hx, List.findIdx?_eq_none_iff]
      intro y hy
      have : y ≠ t.takeWhile (· ≠ 61) := fun e => h (e ▸ hy)
      simpa using this
    refine ⟨0, ?_⟩
    unfold suboptLoop
    simp only
    rw [hg]
  · have hg : (getsubopt (c :: s)).1 = some 9 ∧ (getsubopt (c :: s)).2.1 = some b := by
      unfold getsubopt
      rw [hx, hb]
      have e1 : ([112, 97, 115, 115, 119, 100, 61] ++ b).takeWhile (· ≠ 61) = [112, 97, 115, 115, 119, 100] := by simp
      have e2 : (([112, 97, 115, 115, 119, 100, 61] ++ b).dropWhile (· ≠ 61)).drop 1 = b := by simp
      have e3 : 61 ∈ [112, 97, 115, 115, 119, 100, 61] ++ b := by simp
      simp only
      rw [e1, e2, if_pos e3]
      exact ⟨by decide, rfl⟩
    cases hp : parseDup b with
    | ok p => exact absurd ((C67_accept b p).mp hp) (h p)
    | error e =>
      refine ⟨e, ?_⟩
      unfold suboptLoop
      simp only
      rw [hg.1, hg.2]
      simp only [dupPass]
      rw [hp]

/-- A text which is not an option, or gives something that is no password, is refused wherever it stands among the
options. -/
theorem C67_refused (os : List Opt) (h : ∀ o ∈ os, OptOk o) (t tail : List Nat) (ht : BadOpt t)
    (htl : tail = [] ∨ ∃ r, tail = 44 :: r) (f : Flags) :
    ∃ e, getsubopts ((os.flatMap fun o => o.text ++ [44]) ++ (t ++ tail)) f = .die e := by
  unfold getsubopts
  split
  · exact ⟨0, rfl⟩
  · have key : ∀ (os : List Opt), (∀ o ∈ os, OptOk o) → ∀ k, os.length < k → ∀ f,
        ∃ e, suboptLoop k ((os.flatMap fun o => o.text ++ [44]) ++ (t ++ tail)) f = .die e := by
      intro os
      induction os with
      | nil =>
        intro _ k hk f
        obtain ⟨k, rfl⟩ : ∃ j, k = j + 1 := ⟨k - 1, by simp at hk; omega⟩
        refine suboptLoop_bad t _ ht ?_ k f
        show (t ++ tail).takeWhile _ = t
        rcases htl with rfl | ⟨r, rfl⟩
        · rw [List.append_nil]; exact (cut_last t ht.2.1).1
        · exact (cut_first t r ht.2.1).1
      | cons o os ih =>
        intro ho k hk f
        obtain ⟨k, rfl⟩ : ∃ j, k = j + 1 := ⟨k - 1, by simp at hk; omega⟩
        have hc := cut_first o.text ((os.flatMap fun o => o.text ++ [44]) ++ (t ++ tail)) (text_nocomma o (ho o (by simp)))
        have e : ((o :: os).flatMap fun o => o.text ++ [44]) ++ (t ++ tail) =
            o.text ++ 44 :: ((os.flatMap fun o => o.text ++ [44]) ++ (t ++ tail)) := by
          simp [List.flatMap_cons, List.append_assoc]
        rw [e, suboptLoop_any o (ho o (by simp)) _ _ hc.1 hc.2 k f]
        exact ih (fun o h => ho o (by simp [h])) k (by simp at hk; omega) _
    refine key os h _ ?_ f
    have : os.length ≤ (os.flatMap fun o => o.text ++ [44]).length := by
      clear key h
      induction os with
      | nil => simp
      | cons o os ih =>
        simp only [List.flatMap_cons, List.length_append, List.length_cons, List.length_nil]
        have := ih (by
          rename_i hl
          simp only [List.flatMap_cons, List.length_append, List.length_cons, List.length_nil] at hl ⊢
          omega)
        omega
    rw [List.length_append]
    omega

/-- "passwd=" with a control character; "sync". -/
example : BadOpt ([112, 97, 115, 115, 119, 100, 61] ++ [97, 1, 98]) := by
  refine ⟨by simp, by decide, Or.inr ⟨_, rfl, ?_⟩⟩
  intro p ⟨hs, hl⟩
  have h := (C67_accept _ p).mpr ⟨hs, hl⟩
  have : parseDup [97, 1, 98] = .error EINVAL := by rfl
  rw [this] at h
  cases h

example : BadOpt [115, 121, 110, 99] := ⟨by simp, by decide, Or.inl (by decide)⟩

example : getsubopts (commas [.ro, .nosuid, .passwd [61, 97], .rw, .hostids]) ⟨false, true, false, false, false, none⟩ =
    .flags ⟨false, true, true, false, true, some [61, 97]⟩ := by decide

end Silofs.Pw
