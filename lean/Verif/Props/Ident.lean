import Verif.Model.Ident
import Verif.Props.Addr
/-
C80: an inode number together with a generation stands for one file only, for ever.
-/
set_option linter.unusedSimpArgs false
set_option linter.unusedVariables false
namespace Silofs.Idn
open Silofs Silofs.Rep Silofs.Fuse Silofs.Addr

theorem key_eq (st : St) (ino : Nat) (i : Inode) : key st ino i = leBytes 8 ino ++ leBytes 8 i.gen := by
  unfold key entryBytes statOf
  simp only [List.append_assoc]
  rw [← List.append_assoc (leBytes 8 ino)]
  exact List.take_left' (by simp [leBytes_length])

theorem key_inj {a b c d : Nat} (ha : a < 2 ^ 64) (hb : b < 2 ^ 64) (hc : c < 2 ^ 64) (hd : d < 2 ^ 64)
    (h : leBytes 8 a ++ leBytes 8 b = leBytes 8 c ++ leBytes 8 d) : a = c ∧ b = d := by
  obtain ⟨h1, h2⟩ := List.append_inj h (by simp [leBytes_length])
  have e1 := congrArg leVal h1
  have e2 := congrArg leVal h2
  rw [leVal_leBytes8 _ (by omega), leVal_leBytes8 _ (by omega)] at e1 e2
  exact ⟨e1, e2⟩

structure Inv (w : World) : Prop where
  fresh : ∀ o k g, (o, k, g) ∈ w.made → o < w.n ∧ 0 < k ∧ k < 2 ^ 56 ∧ 0 < g ∧ g ≤ w.n
  one : ∀ o k g k' g', (o, k, g) ∈ w.made → (o, k', g') ∈ w.made → k = k' ∧ g = g'
  live : ∀ k i, w.fs.inodes k = some i → (i.obj, k, i.gen) ∈ w.made
  disk : ∀ k i, w.disk.inodes k = some i → (i.obj, k, i.gen) ∈ w.made
  told : ∀ o b, (o, b) ∈ w.told → ∃ k g, (o, k, g) ∈ w.made ∧ b = leBytes 8 k ++ leBytes 8 g
  le : w.disk.gen ≤ w.fs.gen
  len : w.fs.gen ≤ w.n
  epoch : ∀ o k g o' k' g', (o, k, g) ∈ w.made → (o', k', g') ∈ w.made → w.start ≤ o → o < o' → g < g'
  cap : ∀ o k g, (o, k, g) ∈ w.made → w.start ≤ o → g ≤ w.fs.gen
  klt : ∀ o ∈ w.kept, o < w.n
  kcap : ∀ o k g, o ∈ w.kept → (o, k, g) ∈ w.made → g ≤ w.disk.gen
  kept : ∀ o k g o' k' g', o ∈ w.kept → (o, k, g) ∈ w.made → (o', k', g') ∈ w.made → o < o' → g < g'

theorem inv_fresh (now c v : Nat) : Inv (fresh now c v) where
  fresh := fun _ _ _ h => (nomatch h)
  one := fun _ _ _ _ _ h => (nomatch h)
  live := fun _ _ h => (nomatch h)
  disk := fun _ _ h => (nomatch h)
  told := fun _ _ h => (nomatch h)
  le := Nat.le_refl _
  len := Nat.le_refl _
  epoch := fun _ _ _ _ _ _ h => (nomatch h)
  cap := fun _ _ _ h => (nomatch h)
  klt := fun _ h => (nomatch h)
  kcap := fun _ _ _ h => (nomatch h)
  kept := fun _ _ _ _ _ _ h => (nomatch h)

theorem spawn_some {f f' : Fs} {k o : Nat} (h : spawn f k o = some f') :
    0 < k ∧ k < 2 ^ 56 ∧ f'.gen = (f.gen + 1) % 2 ^ 64 ∧
      ∀ j, f'.inodes j = if j = k then some ⟨(f.gen + 1) % 2 ^ 64, o⟩ else f.inodes j := by
  unfold spawn at h
  split at h
  · cases h
  · next hn =>
    cases h
    refine ⟨by omega, by omega, rfl, fun j => rfl⟩

theorem inv_store {w : World} {f : Fs} (h : Inv w) (hg : f.gen = w.fs.gen) (hi : f.inodes = w.fs.inodes) :
    Inv (w.store f) where
  fresh := h.fresh
  one := h.one
  live := fun k i e => h.live k i (hi ▸ e)
  disk := fun k i e => h.live k i (hi ▸ e)
  told := h.told
  le := Nat.le_refl _
  len := by show f.gen ≤ w.n; rw [hg]; exact h.len
  epoch := h.epoch
  cap := fun o k g a b => by show g ≤ f.gen; rw [hg]; exact h.cap o k g a b
  klt := by
    intro o hk
    show o < w.n
    rcases List.mem_append.1 hk with hk | hk
    · exact h.klt o hk
    · simp only [List.mem_filter, List.mem_range] at hk
      exact hk.1
  kcap := by
    intro o k g hk hm
    show g ≤ f.gen
    rw [hg]
    rcases List.mem_append.1 hk with hk | hk
    · exact Nat.le_trans (h.kcap o k g hk hm) h.le
    · simp only [List.mem_filter, decide_eq_true_eq] at hk
      exact h.cap o k g hm hk.2
  kept := by
    intro o k g o' k' g' hk hm hm' hl
    rcases List.mem_append.1 hk with hk | hk
    · exact h.kept o k g o' k' g' hk hm hm' hl
    · simp only [List.mem_filter, decide_eq_true_eq] at hk
      exact h.epoch o k g o' k' g' hm hm' hk.2 hl

/-- Every step keeps it, as long as the counter of 64 bits does not run over. -/
theorem step_inv {w w' : World} {o : Op} (s : Step w o w') (h : Inv w) (hn : w'.n < 2 ^ 64) : Inv w' := by
  cases s with
  | @create ino st f i hs hi =>
    obtain ⟨h1, h2, h3, h4⟩ := spawn_some hs
    have hlen := h.len
    have hle := h.le
    have hn' : w.n + 1 < 2 ^ 64 := hn
    rw [Nat.mod_eq_of_lt (by omega)] at h3
    have h4' : ∀ j, f.inodes j = if j = ino then some ⟨w.fs.gen + 1, w.n⟩ else w.fs.inodes j := by
      intro j; rw [h4 j, Nat.mod_eq_of_lt (by omega)]
    have hii : i = ⟨w.fs.gen + 1, w.n⟩ := by
      have := h4' ino
      rw [if_pos rfl, hi] at this
      exact Option.some.inj this
    subst hii
    have old : ∀ {o k g}, (o, k, g) ∈ (w.n, ino, w.fs.gen + 1) :: w.made →
        (o = w.n ∧ k = ino ∧ g = w.fs.gen + 1) ∨ (o, k, g) ∈ w.made := by
      intro o k g hm
      rcases List.mem_cons.1 hm with e | e
      · injection e with e1 e2; injection e2 with e2 e3; exact .inl ⟨e1, e2, e3⟩
      · exact .inr e
    refine ⟨?_, ?_, ?_, ?_, ?_, ?_, ?_, ?_, ?_, ?_, ?_, ?_⟩
    · intro o k g hm
      show o < w.n + 1 ∧ 0 < k ∧ k < 2 ^ 56 ∧ 0 < g ∧ g ≤ w.n + 1
      rcases old hm with ⟨e1, e2, e3⟩ | hm
      · omega
      · have := h.fresh o k g hm; omega
    · intro o k g k' g' hm hm'
      rcases old hm with ⟨e1, e2, e3⟩ | hm
      · rcases old hm' with ⟨f1, f2, f3⟩ | hm'
        · omega
        · exact absurd (h.fresh _ _ _ hm').1 (by omega)
      · rcases old hm' with ⟨f1, f2, f3⟩ | hm'
        · exact absurd (h.fresh _ _ _ hm).1 (by omega)
        · exact h.one o k g k' g' hm hm'
    · intro k i e
      have e : f.inodes k = some i := e
      rw [h4' k] at e
      split at e
      · next hk => cases e; subst hk; exact List.mem_cons_self
      · exact List.mem_cons_of_mem _ (h.live k i e)
    · intro k i e
      exact List.mem_cons_of_mem _ (h.disk k i e)
    · intro o b hm
      rcases List.mem_cons.1 hm with e | e
      · injection e with e1 e2
        subst e1 e2
        exact ⟨ino, w.fs.gen + 1, List.mem_cons_self, key_eq st ino _⟩
      · obtain ⟨k, g, a, b⟩ := h.told o b e
        exact ⟨k, g, List.mem_cons_of_mem _ a, b⟩
    · show w.disk.gen ≤ f.gen; omega
    · show f.gen ≤ w.n + 1; omega
    · intro o k g o' k' g' hm hm' hs hl
      rcases old hm with ⟨e1, e2, e3⟩ | hm
      · rcases old hm' with ⟨f1, f2, f3⟩ | hm'
        · omega
        · exact absurd (h.fresh _ _ _ hm').1 (by omega)
      · rcases old hm' with ⟨f1, f2, f3⟩ | hm'
        · have := h.cap o k g hm hs; omega
        · exact h.epoch o k g o' k' g' hm hm' hs hl
    · intro o k g hm hs
      show g ≤ f.gen
      rcases old hm with ⟨e1, e2, e3⟩ | hm
      · omega
      · have := h.cap o k g hm hs; omega
    · intro o hk
      exact Nat.lt_succ_of_lt (h.klt o hk)
    · intro o k g hk hm
      show g ≤ w.disk.gen
      rcases old hm with ⟨e1, e2, e3⟩ | hm
      · exact absurd (h.klt o hk) (by omega)
      · exact h.kcap o k g hk hm
    · intro o k g o' k' g' hk hm hm' hl
      rcases old hm with ⟨e1, e2, e3⟩ | hm
      · rcases old hm' with ⟨f1, f2, f3⟩ | hm'
        · omega
        · exact absurd (h.fresh _ _ _ hm').1 (by omega)
      · rcases old hm' with ⟨f1, f2, f3⟩ | hm'
        · have := h.kcap o k g hk hm; omega
        · exact h.kept o k g o' k' g' hk hm hm' hl
  | @remove ino =>
    refine { h with live := ?_, le := h.le, len := h.len, cap := h.cap }
    intro k i e
    have e : (if k = ino then none else w.fs.inodes k) = some i := e
    split at e
    · cases e
    · exact h.live k i e
  | @lookup ino st i hi =>
    refine { h with told := ?_ }
    intro o b hm
    rcases List.mem_cons.1 hm with e | e
    · injection e with e1 e2
      subst e1 e2
      exact ⟨ino, i.gen, h.live ino i hi, key_eq st ino i⟩
    · exact h.told o b e
  | snapshot => exact inv_store h rfl rfl
  | sync => exact inv_store h rfl rfl
  | remount => exact inv_store h rfl rfl
  | @crash sb t hc =>
    obtain ⟨c1, c2, c3⟩ := hc
    have hl := h.len
    have lv : ∀ k i, t k = some i → (i.obj, k, i.gen) ∈ w.made := by
      intro k i e
      rcases c3 k i e with e | e
      · exact h.disk k i e
      · exact e.2
    refine ⟨h.fresh, h.one, lv, lv, h.told, Nat.le_refl _, ?_, ?_, ?_, h.klt, ?_, h.kept⟩
    · show sb.curr.generation ≤ w.n; omega
    · intro o k g o' k' g' hm hm' hs hl
      exact absurd (h.fresh _ _ _ hm).1 (by have : w.n ≤ o := hs; omega)
    · intro o k g hm hs
      exact absurd (h.fresh _ _ _ hm).1 (by have : w.n ≤ o := hs; omega)
    · intro o k g hk hm
      show g ≤ sb.curr.generation
      exact Nat.le_trans (h.kcap o k g hk hm) c1

theorem step_n {w w' : World} {o : Op} (s : Step w o w') : w.n ≤ w'.n := by
  cases s
  all_goals first
    | exact Nat.le_refl _
    | exact Nat.le_succ _

theorem runs_n {w w' : World} {l : List Op} (s : Runs w l w') : w.n ≤ w'.n := by
  induction s with
  | nil => exact Nat.le_refl _
  | cons s _ ih => exact Nat.le_trans (step_n s) ih

theorem runs_inv {w w' : World} {l : List Op} (s : Runs w l w') (hn : w'.n < 2 ^ 64) (h : Inv w) : Inv w' := by
  induction s with
  | nil => exact h
  | cons s r ih => exact ih hn (step_inv s h (Nat.lt_of_le_of_lt (runs_n r) hn))

theorem runs_calm {w w' : World} {l : List Op} (s : Runs w l w') (hc : ∀ b t, Op.crash b t ∉ l) : w'.start = w.start := by
  induction s with
  | nil => rfl
  | cons s r ih =>
    rw [ih fun b t hm => hc b t (List.mem_cons_of_mem _ hm)]
    cases s
    case crash => exact absurd List.mem_cons_self (hc _ _)
    all_goals rfl

/-- **C80**: without a crash, whatever is made, removed, asked for, through any number of snapshots, syncs and mounts: what the
kernel was told by the same inode number and generation was the same file. -/
theorem C80_once {now c v : Nat} {l : List Op} {w : World} (s : Runs (fresh now c v) l w) (hn : w.n < 2 ^ 64)
    (hc : ∀ b t, Op.crash b t ∉ l) {o o' : Nat} {b : Buf} (h : (o, b) ∈ w.told) (h' : (o', b) ∈ w.told) : o = o' := by
  have I := runs_inv s hn (inv_fresh now c v)
  have hs : w.start = 0 := runs_calm s hc
  obtain ⟨k, g, m, e⟩ := I.told o b h
  obtain ⟨k', g', m', e'⟩ := I.told o' b h'
  have F := I.fresh o k g m
  have F' := I.fresh o' k' g' m'
  have := key_inj (by omega) (by omega) (by omega) (by omega) (e.symm.trans e')
  rcases Nat.lt_trichotomy o o' with hl | hl | hl
  · have := I.epoch o k g o' k' g' m m' (by omega) hl; omega
  · exact hl
  · have := I.epoch o' k' g' o k g m' m (by omega) hl; omega

/-- **C80**: with crashes, no file is taken for one which had been made and synced, without a crash in between, before; nor are two of
such files for each other. -/
theorem C80_synced_partial {now c v : Nat} {l : List Op} {w : World} (s : Runs (fresh now c v) l w) (hn : w.n < 2 ^ 64)
    {o o' : Nat} {b : Buf} (h : (o, b) ∈ w.told) (h' : (o', b) ∈ w.told) (hk : o ∈ w.kept) (hk' : o < o' ∨ o' ∈ w.kept) :
    o = o' := by
  have I := runs_inv s hn (inv_fresh now c v)
  obtain ⟨k, g, m, e⟩ := I.told o b h
  obtain ⟨k', g', m', e'⟩ := I.told o' b h'
  have F := I.fresh o k g m
  have F' := I.fresh o' k' g' m'
  have := key_inj (by omega) (by omega) (by omega) (by omega) (e.symm.trans e')
  rcases Nat.lt_trichotomy o o' with hl | hl | hl
  · have := I.kept o k g o' k' g' hk m m' hl; omega
  · exact hl
  · rcases hk' with hk' | hk'
    · omega
    · have := I.kept o' k' g' o k g hk' m' m hl; omega

/-- **C80**: a file is always told by the same number and generation, whatever happens meanwhile; neither is ever 0. -/
theorem C80_same {now c v : Nat} {l : List Op} {w : World} (s : Runs (fresh now c v) l w) (hn : w.n < 2 ^ 64)
    {o : Nat} {b b' : Buf} (h : (o, b) ∈ w.told) (h' : (o, b') ∈ w.told) :
    b = b' ∧ leVal (b.take 8) ≠ 0 ∧ leVal (b.drop 8) ≠ 0 := by
  have I := runs_inv s hn (inv_fresh now c v)
  obtain ⟨k, g, m, e⟩ := I.told o b h
  obtain ⟨k', g', m', e'⟩ := I.told o b' h'
  obtain ⟨rfl, rfl⟩ := I.one o k g k' g' m m'
  have F := I.fresh o k g m
  refine ⟨e.trans e'.symm, ?_, ?_⟩
  · rw [e, List.take_left' (leBytes_length 8 k), leVal_leBytes8 _ (by omega)]; omega
  · rw [e, List.drop_left' (leBytes_length 8 k), leVal_leBytes8 _ (by omega)]; omega

/-- **C80**: and it is told by them: who asks for the number of a file that is there is told its generation. -/
theorem C80_live {now c v : Nat} {l : List Op} {w : World} (s : Runs (fresh now c v) l w) (hn : w.n < 2 ^ 64)
    {k : Nat} {i : Inode} (h : w.fs.inodes k = some i) (st : St) :
    ∃ w', Step w (.lookup k st) w' ∧ (i.obj, leBytes 8 k ++ leBytes 8 i.gen) ∈ w'.told :=
  ⟨_, .lookup h, by rw [← key_eq st]; exact List.mem_cons_self⟩

end Silofs.Idn
