import Verif.Props.LinklistForest
set_option linter.unusedSimpArgs false
set_option linter.unusedVariables false
set_option linter.unusedSectionVars false
/-
C69: linked lists are sequences.
-/
namespace Silofs.Lk

variable {α : Type} [DecidableEq α]

/-! ### Walks -/

theorem fwd_ring {m : Mem α} {hd : α} : ∀ (l2 l1 : List α), Ring m hd (l1 ++ l2) → ∀ (n : Nat), l2.length < n →
    fwd m hd n (some (l2.headD hd)) = l2
  | [], l1, r, n, hn => by
    obtain ⟨k, rfl⟩ : ∃ k, n = k + 1 := ⟨n - 1, by simp at hn; omega⟩
    show (if hd = hd then [] else _) = _
    rw [if_pos rfl]
  | x :: l2, l1, r, n, hn => by
    obtain ⟨k, rfl⟩ : ∃ k, n = k + 1 := ⟨n - 1, by simp at hn; omega⟩
    have nd := r.nodup
    have xh : ¬ x = hd := fun e => (List.nodup_cons.mp nd).1 (by rw [← e]; exact List.mem_append_right _ List.mem_cons_self)
    have hx : x ∉ l1 := fun h => (List.nodup_append.mp (List.nodup_cons.mp nd).2).2.2 x h x List.mem_cons_self rfl
    have r' : Ring m hd ((l1 ++ [x]) ++ l2) := by rw [List.append_assoc]; exact r
    show (if x = hd then [] else x :: fwd m hd k (m.lnk x).next) = _
    rw [if_neg xh, ring_next r (List.mem_append_right _ List.mem_cons_self), after_app l1 x l2 hx]
    have e : l2.head?.getD hd = l2.headD hd := by cases l2 <;> rfl
    rw [e, fwd_ring l2 (l1 ++ [x]) r' k (by simp at hn; omega)]

theorem bwd_ring {m : Mem α} {hd : α} : ∀ (k : Nat) (l1 l2 : List α), l1.length = k → Ring m hd (l1 ++ l2) →
    ∀ (n : Nat), l1.length < n → bwd m hd n (some (l1.getLastD hd)) = l1.reverse
  | 0, l1, l2, hk, r, n, hn => by
    obtain ⟨j, rfl⟩ : ∃ j, n = j + 1 := ⟨n - 1, by omega⟩
    have e := List.length_eq_zero_iff.mp hk
    subst e
    show (if hd = hd then [] else _) = _
    rw [if_pos rfl]; rfl
  | k + 1, l1, l2, hk, r, n, hn => by
    obtain ⟨j, rfl⟩ : ∃ j, n = j + 1 := ⟨n - 1, by omega⟩
    have hne : l1 ≠ [] := fun e => by rw [e] at hk; cases hk
    obtain ⟨A, x, rfl⟩ : ∃ A x, l1 = A ++ [x] := ⟨_, _, (List.dropLast_concat_getLast hne).symm⟩
    have r' : Ring m hd (A ++ x :: l2) := by rw [List.append_assoc] at r; exact r
    have nd := r'.nodup
    have xh : ¬ x = hd := fun e => (List.nodup_cons.mp nd).1 (by rw [← e]; exact List.mem_append_right _ List.mem_cons_self)
    have hx : x ∉ A := fun h => (List.nodup_append.mp (List.nodup_cons.mp nd).2).2.2 x h x List.mem_cons_self rfl
    have e1 : (A ++ [x]).getLastD hd = x := by rw [List.getLastD_eq_getLast?, List.getLast?_append]; rfl
    rw [e1]
    show (if x = hd then [] else x :: bwd m hd j (m.lnk x).prev) = _
    rw [if_neg xh, ring_prev r' (List.mem_append_right _ List.mem_cons_self), before_app A x l2 hx (List.nodup_cons.mp nd).2]
    have e : A.getLast?.getD hd = A.getLastD hd := (List.getLastD_eq_getLast?).symm
    have hlen : A.length = k := by rw [List.length_append, List.length_singleton] at hk; omega
    rw [e, bwd_ring k A (x :: l2) hlen r' j (by rw [List.length_append, List.length_singleton] at hn; omega)]
    rw [List.reverse_append]; rfl

theorem ring_fwd {m : Mem α} {hd : α} {l : List α} (r : Ring m hd l) {n : Nat} (hn : l.length < n) :
    fwd m hd n (m.lnk hd).next = l := by
  rw [ring_front r]; exact fwd_ring l [] r n hn

theorem ring_bwd {m : Mem α} {hd : α} {l : List α} (r : Ring m hd l) {n : Nat} (hn : l.length < n) :
    bwd m hd n (m.lnk hd).prev = l.reverse := by
  rw [ring_back r]
  exact bwd_ring l.length l [] rfl (by rw [List.append_nil]; exact r) n hn

/-! ### The lists as a whole -/

/-- Memory and counts hold the sequences. -/
structure Rep (H : α → Prop) (s : St α) (L : Seqs α) : Prop where
  forest : Forest s.mem H L (fun x => ¬ H x ∧ ∀ a, H a → x ∉ L a)
  sz : ∀ h, H h → s.sz h = (L h).length

theorem upd_same (L : Seqs α) (h : α) (l : List α) : L.upd h l h = l := if_pos rfl

theorem rep_change {H : α → Prop} {s : St α} {L : Seqs α} (r : Rep H s L) {h : α} (hh : H h) {l : List α} {m : Mem α} {n : Nat}
    {F : α → Prop} (f : Forest m H (fun a => if a = h then l else L a) F)
    (hF : ∀ x, ¬ H x → (∀ a, H a → x ∉ L.upd h l a) → F x) (hn : n = l.length) : Rep H (s.setSz h n m) (L.upd h l) where
  forest := f.congr (fun _ => Iff.rfl) (fun _ _ => rfl) (fun x hx => hF x hx.1 hx.2)
  sz a ha := by
    show (if a = h then n else s.sz a) = (if a = h then l else L a).length
    by_cases e : a = h
    · rw [if_pos e, if_pos e, hn]
    · rw [if_neg e, if_neg e]; exact r.sz a ha

theorem rep_remove {H : α → Prop} {s : St α} {L : Seqs α} (r : Rep H s L) {h x : α} (hh : H h) (hx : x ∈ L h) {n : Nat}
    (hn : n = (L h).length - 1) : Rep H (s.setSz h n (s.mem.remove x)) (L.upd h ((L h).erase x)) := by
  refine rep_change r hh (r.forest.remove hh hx) ?_ ?_
  · intro y hy h1
    by_cases e : y = x
    · exact .inr e
    · refine .inl ⟨hy, fun a ha h2 => h1 a ha ?_⟩
      unfold Seqs.upd
      by_cases e1 : a = h
      · rw [if_pos e1]; rw [e1] at h2
        exact (List.mem_erase_of_ne e).mpr h2
      · rw [if_neg e1]; exact h2
  · rw [hn, List.length_erase_of_mem hx]

theorem rep_step {H : α → Prop} {s : St α} {L : Seqs α} (r : Rep H s L) (o : Op α) (hl : L.Legal H o) :
    (s.step o).1 = (L.step o).1 ∧ Rep H (s.step o).2 (L.step o).2 := by
  cases o with
  | pushFront h x =>
    obtain ⟨hh, hx, hn⟩ := hl
    refine ⟨rfl, rep_change r hh (r.forest.pushFront hh ⟨hx, hn⟩) ?_ (by rw [r.sz h hh]; rfl)⟩
    intro y hy h1
    refine ⟨⟨hy, fun a ha h2 => h1 a ha ?_⟩, fun e => h1 h hh ?_⟩
    · unfold Seqs.upd
      by_cases e1 : a = h
      · rw [if_pos e1]; rw [e1] at h2; exact List.mem_cons_of_mem _ h2
      · rw [if_neg e1]; exact h2
    · rw [upd_same, e]; exact List.mem_cons_self
  | pushBack h x =>
    obtain ⟨hh, hx, hn⟩ := hl
    refine ⟨rfl, rep_change r hh (r.forest.pushBack hh ⟨hx, hn⟩) ?_ (by rw [r.sz h hh, List.length_append]; rfl)⟩
    intro y hy h1
    refine ⟨⟨hy, fun a ha h2 => h1 a ha ?_⟩, fun e => h1 h hh ?_⟩
    · unfold Seqs.upd
      by_cases e1 : a = h
      · rw [if_pos e1]; rw [e1] at h2; exact List.mem_append_left _ h2
      · rw [if_neg e1]; exact h2
    · rw [upd_same, e]; exact List.mem_append_right _ List.mem_cons_self
  | popFront h =>
    have hh : H h := hl
    have rg := r.forest.ring h hh
    have hf := ring_front rg
    have hsz := r.sz h hh
    simp only [St.step, Seqs.step, Mem.qpopFront]
    cases e : L h with
    | nil =>
      rw [e] at hsz
      have h0 : ¬ s.sz h > 0 := by rw [hsz]; exact Nat.lt_irrefl 0
      rw [if_neg h0]
      refine ⟨rfl, ?_⟩
      refine rep_change r hh (l := []) (F := fun x => ¬ H x ∧ ∀ a, H a → x ∉ L a) ?_ ?_ hsz
      · refine r.forest.congr (fun _ => Iff.rfl) (fun a _ => ?_) (fun _ h => h)
        by_cases e1 : a = h
        · rw [if_pos e1, e1, e]
        · rw [if_neg e1]
      · intro x hx h1
        refine ⟨hx, fun a ha h2 => h1 a ha ?_⟩
        unfold Seqs.upd
        by_cases e1 : a = h
        · rw [e1, e] at h2; cases h2
        · rw [if_neg e1]; exact h2
    | cons x t =>
      rw [e] at hsz hf
      have h0 : s.sz h > 0 := by rw [hsz]; exact Nat.succ_pos _
      have xh : x ≠ h := fun e1 => by
        have := rg.nodup; rw [e] at this
        exact (List.nodup_cons.mp this).1 (e1 ▸ List.mem_cons_self)
      have hne : (s.mem.lnk h).next ≠ some h := by rw [hf]; exact fun e1 => xh (Option.some.inj e1)
      have q : s.mem.popFront h = (some x, s.mem.remove x) := by
        unfold Mem.popFront Mem.front
        rw [if_pos hne, hf]; rfl
      rw [if_pos h0, q]
      refine ⟨rfl, ?_⟩
      have hx : x ∈ L h := by rw [e]; exact List.mem_cons_self
      have := rep_remove r hh hx (n := s.sz h - 1) (by rw [r.sz h hh])
      rw [e, List.erase_cons_head] at this
      exact this
  | popBack h =>
    have hh : H h := hl
    have rg := r.forest.ring h hh
    have hf := ring_back rg
    have hsz := r.sz h hh
    simp only [St.step, Seqs.step, Mem.qpopBack]
    by_cases e : L h = []
    · rw [e] at hsz
      have h0 : ¬ s.sz h > 0 := by rw [hsz]; exact Nat.lt_irrefl 0
      rw [if_neg h0]
      refine ⟨by rw [e]; rfl, ?_⟩
      refine rep_change r hh (l := (L h).dropLast) (F := fun x => ¬ H x ∧ ∀ a, H a → x ∉ L a) ?_ ?_ (by rw [e]; exact hsz)
      · refine r.forest.congr (fun _ => Iff.rfl) (fun a _ => ?_) (fun _ h => h)
        by_cases e1 : a = h
        · rw [if_pos e1, e1, e]; rfl
        · rw [if_neg e1]
      · intro x hx h1
        refine ⟨hx, fun a ha h2 => h1 a ha ?_⟩
        unfold Seqs.upd
        by_cases e1 : a = h
        · rw [e1, e] at h2; cases h2
        · rw [if_neg e1]; exact h2
    · obtain ⟨A, x, hA⟩ : ∃ A x, L h = A ++ [x] := ⟨_, _, (List.dropLast_concat_getLast e).symm⟩
      rw [hA] at hsz hf
      have e1 : (A ++ [x]).getLastD h = x := by rw [List.getLastD_eq_getLast?, List.getLast?_append]; rfl
      rw [e1] at hf
      have h0 : s.sz h > 0 := by rw [hsz, List.length_append]; exact Nat.succ_pos _
      have nd := rg.nodup
      rw [hA] at nd
      have xh : x ≠ h := fun e1 => (List.nodup_cons.mp nd).1 (e1 ▸ List.mem_append_right _ List.mem_cons_self)
      have xA : x ∉ A := fun h1 => (List.nodup_append.mp (List.nodup_cons.mp nd).2).2.2 x h1 x List.mem_cons_self rfl
      have hne : (s.mem.lnk h).prev ≠ some h := by rw [hf]; exact fun e1 => xh (Option.some.inj e1)
      have q : s.mem.popBack h = (some x, s.mem.remove x) := by
        unfold Mem.popBack Mem.back
        rw [if_pos hne, hf]; rfl
      rw [if_pos h0, q]
      refine ⟨by rw [hA, List.getLast?_append]; rfl, ?_⟩
      have hx : x ∈ L h := by rw [hA]; exact List.mem_append_right _ List.mem_cons_self
      have := rep_remove r hh hx (n := s.sz h - 1) (by rw [r.sz h hh])
      rw [hA, erase_app xA, List.append_nil] at this
      rw [hA, List.dropLast_concat]; exact this
  | remove h x =>
    obtain ⟨hh, hx⟩ := hl
    refine ⟨rfl, rep_remove r hh hx ?_⟩
    have h0 : ¬ s.sz h = 0 := by
      rw [r.sz h hh]
      intro e
      rw [List.length_eq_zero_iff.mp e] at hx; cases hx
    unfold dec
    rw [if_neg h0, r.sz h hh]
  | front h =>
    have hh : H h := hl
    refine ⟨?_, r⟩
    have hf := ring_front (r.forest.ring h hh)
    have hsz := r.sz h hh
    simp only [St.step, Seqs.step, Mem.qfront, Mem.front]
    cases e : L h with
    | nil => rw [e] at hsz; rw [hsz]; rfl
    | cons x t => rw [e] at hsz hf; rw [if_pos (by rw [hsz]; exact Nat.succ_pos _), hf]; rfl
  | back h =>
    have hh : H h := hl
    refine ⟨?_, r⟩
    have hf := ring_back (r.forest.ring h hh)
    have hsz := r.sz h hh
    simp only [St.step, Seqs.step, Mem.qback, Mem.back]
    by_cases e : L h = []
    · rw [e] at hsz; rw [hsz, e]; rfl
    · have h0 : s.sz h > 0 := by rw [hsz]; exact List.length_pos_iff.mpr e
      rw [if_pos h0, hf, List.getLastD_eq_getLast?, List.getLast?_eq_some_getLast e]; rfl
  | next h x =>
    obtain ⟨hh, hx⟩ := hl
    refine ⟨?_, r⟩
    have rg := r.forest.ring h hh
    have hn := ring_next rg hx
    have h0 : s.sz h > 0 := by rw [r.sz h hh]; exact List.length_pos_iff.mpr (fun e => by rw [e] at hx; cases hx)
    simp only [St.step, Seqs.step, Mem.qnext]
    cases e : after (L h) x with
    | none =>
      rw [e] at hn
      rw [if_neg (fun c => c.2 hn)]
    | some y =>
      rw [e] at hn
      have hy : y ∈ L h := by
        obtain ⟨l1, l2, hl⟩ := List.append_of_mem hx
        have nd := (List.nodup_cons.mp rg.nodup).2
        rw [hl] at nd e
        rw [after_app l1 x l2 (fun h => (List.nodup_append.mp nd).2.2 x h x List.mem_cons_self rfl)] at e
        rw [hl]
        cases l2 with
        | nil => cases e
        | cons b t => cases e; exact List.mem_append_right _ (List.mem_cons_of_mem _ List.mem_cons_self)
      have hne : (s.mem.lnk x).next ≠ some h := by
        rw [hn]; intro e1
        exact (List.nodup_cons.mp rg.nodup).1 (Option.some.inj e1 ▸ hy)
      rw [if_pos ⟨h0, hne⟩, hn]; rfl
  | prev h x =>
    obtain ⟨hh, hx⟩ := hl
    refine ⟨?_, r⟩
    have rg := r.forest.ring h hh
    have hn := ring_prev rg hx
    have h0 : s.sz h > 0 := by rw [r.sz h hh]; exact List.length_pos_iff.mpr (fun e => by rw [e] at hx; cases hx)
    simp only [St.step, Seqs.step, Mem.qprev]
    cases e : before (L h) x with
    | none =>
      rw [e] at hn
      rw [if_neg (fun c => c.2 hn)]
    | some y =>
      rw [e] at hn
      have hy : y ∈ L h := by
        obtain ⟨l1, l2, hl⟩ := List.append_of_mem hx
        have nd := (List.nodup_cons.mp rg.nodup).2
        rw [hl] at nd e
        rw [before_app l1 x l2 (fun h => (List.nodup_append.mp nd).2.2 x h x List.mem_cons_self rfl) nd] at e
        rw [hl]
        exact List.mem_append_left _ (List.mem_of_getLast? e)
      have hne : (s.mem.lnk x).prev ≠ some h := by
        rw [hn]; intro e1
        exact (List.nodup_cons.mp rg.nodup).1 (Option.some.inj e1 ▸ hy)
      rw [if_pos ⟨h0, hne⟩, hn]; rfl
  | size h =>
    have hh : H h := hl
    exact ⟨by simp only [St.step, Seqs.step]; rw [r.sz h hh], r⟩
  | isempty h =>
    have hh : H h := hl
    refine ⟨?_, r⟩
    simp only [St.step, Seqs.step]
    rw [r.sz h hh]
    cases L h <;> rfl

theorem rep_init (H : α → Prop) : Rep H (St.init : St α) (fun _ => []) where
  forest := ⟨fun a _ => ⟨⟨⟨rfl, rfl⟩, trivial⟩, by simp⟩, fun _ _ _ _ _ h => (by cases h), fun _ _ _ h => (by cases h),
    fun _ _ => rfl, fun _ h => h.1, fun _ _ _ _ h => (by cases h), rfl⟩
  sz _ _ := rfl

theorem rep_run {H : α → Prop} : ∀ (os : List (Op α)) {s : St α} {L : Seqs α}, Rep H s L → L.LegalAll H os →
    (s.run os).1 = (L.run os).1 ∧ Rep H (s.run os).2 (L.run os).2
  | [], _, _, r, _ => ⟨rfl, r⟩
  | o :: os, s, L, r, hl => by
    obtain ⟨h1, h2⟩ := rep_step r o hl.1
    obtain ⟨h3, h4⟩ := rep_run os h2 hl.2
    refine ⟨?_, h4⟩
    show (s.step o).1 :: _ = (L.step o).1 :: _
    rw [h1, h3]

/-- **C69** Whatever is done with any number of lists in one memory: every answer is that of plain sequences, and no null
pointer is followed. -/
theorem C69_lists (H : α → Prop) (os : List (Op α)) (hl : Seqs.LegalAll H (fun _ => []) os) :
    ((St.init : St α).run os).1 = (Seqs.run (fun _ => []) os).1 ∧ ((St.init : St α).run os).2.mem.bad = false :=
  ⟨(rep_run os (rep_init H) hl).1, (rep_run os (rep_init H) hl).2.forest.ok⟩

/-- **C69** Following the pointers from the head of a list meets its members, in order, each once, and comes back to the
head; the other way the same in reverse. -/
theorem C69_walk (H : α → Prop) (os : List (Op α)) (hl : Seqs.LegalAll H (fun _ => []) os) (h : α) (hh : H h) (n : Nat)
    (hn : ((Seqs.run (fun _ => []) os).2 h).length < n) :
    fwd ((St.init : St α).run os).2.mem h n (((St.init : St α).run os).2.mem.lnk h).next = (Seqs.run (fun _ => []) os).2 h ∧
    bwd ((St.init : St α).run os).2.mem h n (((St.init : St α).run os).2.mem.lnk h).prev =
      ((Seqs.run (fun _ => []) os).2 h).reverse := by
  have r := (rep_run os (rep_init H) hl).2.forest.ring h hh
  exact ⟨ring_fwd r hn, ring_bwd r hn⟩

/-- **C69** A link put in a second list while still in a first one: what must be kept from. The first list then leads into
the second. -/
theorem C69_twice_in_lists :
    fwd ((St.init : St Nat).run [.pushBack 0 10, .pushBack 0 11, .pushBack 1 10]).2.mem 0 5
      (((St.init : St Nat).run [.pushBack 0 10, .pushBack 0 11, .pushBack 1 10]).2.mem.lnk 0).next = [10, 1, 10, 1, 10] := by
  decide +kernel

/-- Two lists (0 and 1) in use: the hypotheses can be met. -/
example : Seqs.LegalAll (fun a => a < 2) (fun _ => []) [.pushBack 0 10, .pushFront 0 11, .pushBack 1 12, .next 0 11,
    .remove 0 10, .pushBack 1 10, .popFront 1, .isempty 0] := by
  simp only [Seqs.LegalAll, Seqs.Legal, Seqs.step, Seqs.upd]
  decide +kernel

example : ((St.init : St Nat).run [.pushBack 0 10, .pushFront 0 11, .pushBack 1 12, .next 0 11,
    .remove 0 10, .pushBack 1 10, .popFront 1, .isempty 0]).1 =
    [.unit, .unit, .unit, .ptr (some 10), .unit, .unit, .ptr (some 12), .bool false] := by decide +kernel

end Silofs.Lk
