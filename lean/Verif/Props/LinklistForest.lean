import Verif.Props.LinklistInv
set_option linter.unusedSimpArgs false
set_option linter.unusedVariables false
set_option linter.unusedSectionVars false
/-
C69, basis: many lists in one memory.
-/
namespace Silofs.Lk

variable {α : Type} [DecidableEq α]

/-! ### Reading a ring -/

theorem ring_front {m : Mem α} {hd : α} {l : List α} (r : Ring m hd l) : (m.lnk hd).next = some (l.headD hd) := by
  have r' : Ring m hd ([] ++ l) := r
  obtain ⟨n, B, e2⟩ := cons_of l hd
  have h := (ring_split r' (A := []) (p := hd) rfl e2).2.1.1
  rw [h]
  cases l with
  | nil => cases e2; rfl
  | cons a t => cases e2; rfl

theorem ring_back {m : Mem α} {hd : α} {l : List α} (r : Ring m hd l) : (m.lnk hd).prev = some (l.getLastD hd) := by
  have r' : Ring m hd (l ++ []) := by rw [List.append_nil]; exact r
  obtain ⟨A, p, e1⟩ := snoc_of hd l
  have h := (ring_split r' (n := hd) (B := []) e1 rfl).2.1.2
  rw [h]
  have e : (hd :: l).getLast? = some p := by rw [e1, List.getLast?_append]; rfl
  rw [List.getLast?_cons] at e
  rw [← e, List.getLastD_eq_getLast?]

theorem after_app : ∀ (l1 : List α) (x : α) (l2 : List α), x ∉ l1 → after (l1 ++ x :: l2) x = l2.head?
  | [], x, [], _ => by unfold after; rfl
  | [], x, b :: l2, _ => by
    show (if x = x then some b else _) = _
    rw [if_pos rfl]; rfl
  | [a], x, l2, h => by
    show (if a = x then some x else after (x :: l2) x) = _
    have ha : ¬ a = x := fun e => h (e ▸ List.mem_cons_self)
    rw [if_neg ha]
    exact after_app [] x l2 (by simp)
  | a :: b :: l1, x, l2, h => by
    show (if a = x then some b else after ((b :: l1) ++ x :: l2) x) = _
    have ha : ¬ a = x := fun e => h (e ▸ List.mem_cons_self)
    rw [if_neg ha]
    exact after_app (b :: l1) x l2 (fun h' => h (List.mem_cons_of_mem _ h'))

theorem before_app : ∀ (l1 : List α) (x : α) (l2 : List α), x ∉ l1 → (l1 ++ x :: l2).Nodup →
    before (l1 ++ x :: l2) x = l1.getLast?
  | [], x, [], _, _ => by unfold before; rfl
  | [], x, b :: l2, _, nd => by
    have hb : ¬ b = x := fun e => (List.nodup_cons.mp nd).1 (e ▸ List.mem_cons_self)
    show (if b = x then some x else before (b :: l2) x) = none
    rw [if_neg hb]
    have hx : x ∉ b :: l2 := (List.nodup_cons.mp nd).1
    clear nd hb
    have : ∀ (l : List α), x ∉ l → before l x = none := by
      intro l
      induction l with
      | nil => intro _; unfold before; rfl
      | cons c l ih =>
        intro hc
        cases l with
        | nil => unfold before; rfl
        | cons d l =>
          show (if d = x then some c else before (d :: l) x) = none
          have hd : ¬ d = x := fun e => hc (e ▸ List.mem_cons_of_mem _ List.mem_cons_self)
          rw [if_neg hd]
          exact ih (fun h => hc (List.mem_cons_of_mem _ h))
    exact this _ hx
  | [a], x, l2, h, _ => by
    show (if x = x then some a else _) = _
    rw [if_pos rfl]; rfl
  | a :: b :: l1, x, l2, h, nd => by
    have hb : ¬ b = x := fun e => h (e ▸ List.mem_cons_of_mem _ List.mem_cons_self)
    show (if b = x then some a else before ((b :: l1) ++ x :: l2) x) = _
    rw [if_neg hb, before_app (b :: l1) x l2 (fun h' => h (List.mem_cons_of_mem _ h')) (List.nodup_cons.mp nd).2]
    rfl

theorem ring_next {m : Mem α} {hd : α} {l : List α} (r : Ring m hd l) {x : α} (hx : x ∈ l) :
    (m.lnk x).next = some ((after l x).getD hd) := by
  obtain ⟨l1, l2, e⟩ := List.append_of_mem hx
  subst e
  obtain ⟨A, p, e1⟩ := snoc_of hd l1
  obtain ⟨n, B, e2⟩ := cons_of l2 hd
  have nd := (List.nodup_cons.mp r.nodup).2
  have h1 : x ∉ l1 := fun h => (List.nodup_append.mp nd).2.2 x h x List.mem_cons_self rfl
  rw [ring_at r e1 e2, after_app l1 x l2 h1]
  cases l2 with
  | nil => cases e2; rfl
  | cons a t => cases e2; rfl

theorem ring_prev {m : Mem α} {hd : α} {l : List α} (r : Ring m hd l) {x : α} (hx : x ∈ l) :
    (m.lnk x).prev = some ((before l x).getD hd) := by
  obtain ⟨l1, l2, e⟩ := List.append_of_mem hx
  subst e
  obtain ⟨A, p, e1⟩ := snoc_of hd l1
  obtain ⟨n, B, e2⟩ := cons_of l2 hd
  have nd := (List.nodup_cons.mp r.nodup).2
  have h1 : x ∉ l1 := fun h => (List.nodup_append.mp nd).2.2 x h x List.mem_cons_self rfl
  rw [ring_at r e1 e2, before_app l1 x l2 h1 nd]
  have e : (hd :: l1).getLast? = some p := by rw [e1, List.getLast?_append]; rfl
  rw [List.getLast?_cons] at e
  show some p = _
  rw [← e]

/-! ### Forests -/

/-- `H`: heads of lists; `L`: what each holds; `F`: links which are in no list and point at themselves. -/
structure Forest (m : Mem α) (H : α → Prop) (L : α → List α) (F : α → Prop) : Prop where
  ring : ∀ a, H a → Ring m a (L a)
  disj : ∀ a b x, H a → H b → x ∈ L a → x ∈ L b → a = b
  nohd : ∀ a x, H a → x ∈ L a → ¬ H x
  self : ∀ x, F x → m.lnk x = ⟨some x, some x⟩
  fhd : ∀ x, F x → ¬ H x
  fin : ∀ x a, F x → H a → x ∉ L a
  ok : m.bad = false

theorem Forest.congr {m : Mem α} {H H' : α → Prop} {L L' : α → List α} {F F' : α → Prop} (f : Forest m H L F)
    (hH : ∀ a, H' a ↔ H a) (hL : ∀ a, H a → L' a = L a) (hF : ∀ x, F' x → F x) : Forest m H' L' F' where
  ring a h := by rw [hL a ((hH a).mp h)]; exact f.ring a ((hH a).mp h)
  disj a b x ha hb h1 h2 := by
    rw [hL a ((hH a).mp ha)] at h1; rw [hL b ((hH b).mp hb)] at h2
    exact f.disj a b x ((hH a).mp ha) ((hH b).mp hb) h1 h2
  nohd a x ha h1 h := by
    rw [hL a ((hH a).mp ha)] at h1
    exact f.nohd a x ((hH a).mp ha) h1 ((hH x).mp h)
  self x h := f.self x (hF x h)
  fhd x h h' := f.fhd x (hF x h) ((hH x).mp h')
  fin x a h ha h1 := by
    rw [hL a ((hH a).mp ha)] at h1
    exact f.fin x a (hF x h) ((hH a).mp ha) h1
  ok := f.ok

/-- A list changes and the memory of the others does not. -/
theorem Forest.change {m m' : Mem α} {H : α → Prop} {L : α → List α} {F F' : α → Prop} (f : Forest m H L F) {h : α}
    (hh : H h) {l : List α} (hr : Ring m' h l) (hsame : ∀ a b, H a → a ≠ h → b ∈ a :: L a → m'.lnk b = m.lnk b)
    (hmem : ∀ x, x ∈ l → x ∈ L h ∨ F x) (hF : ∀ x, F' x → (F x ∨ x ∈ L h) ∧ x ∉ l)
    (hself : ∀ x, F' x → m'.lnk x = ⟨some x, some x⟩) (hb : m'.bad = false) :
    Forest m' H (fun a => if a = h then l else L a) F' where
  ring a ha := by
    by_cases e : a = h
    · rw [if_pos e, e]; exact hr
    · rw [if_neg e]; exact ring_congr (f.ring a ha) (fun b hb => hsame a b ha e hb)
  disj a b x ha hb h1 h2 := by
    by_cases e1 : a = h
    · by_cases e2 : b = h
      · rw [e1, e2]
      · rw [if_pos e1] at h1; rw [if_neg e2] at h2
        rcases hmem x h1 with h3 | h3
        · rw [e1]; exact f.disj h b x hh hb h3 h2
        · exact absurd h2 (f.fin x b h3 hb)
    · by_cases e2 : b = h
      · rw [if_neg e1] at h1; rw [if_pos e2] at h2
        rcases hmem x h2 with h3 | h3
        · rw [e2]; exact f.disj a h x ha hh h1 h3
        · exact absurd h1 (f.fin x a h3 ha)
      · rw [if_neg e1] at h1; rw [if_neg e2] at h2
        exact f.disj a b x ha hb h1 h2
  nohd a x ha h1 := by
    by_cases e1 : a = h
    · rw [if_pos e1] at h1
      rcases hmem x h1 with h3 | h3
      · exact f.nohd h x hh h3
      · exact f.fhd x h3
    · rw [if_neg e1] at h1; exact f.nohd a x ha h1
  self := hself
  fhd x hx := by
    rcases (hF x hx).1 with h1 | h1
    · exact f.fhd x h1
    · exact f.nohd h x hh h1
  fin x a hx ha h1 := by
    by_cases e1 : a = h
    · rw [if_pos e1] at h1; exact (hF x hx).2 h1
    · rw [if_neg e1] at h1
      rcases (hF x hx).1 with h2 | h2
      · exact f.fin x a h2 ha h1
      · exact e1 (f.disj a h x ha hh h1 h2)
  ok := hb

/-- Two rings of a forest share nothing. -/
theorem Forest.apart {m : Mem α} {H : α → Prop} {L : α → List α} {F : α → Prop} (f : Forest m H L F) {a h b : α} (ha : H a)
    (hh : H h) (e : a ≠ h) (hb : b ∈ a :: L a) : b ∉ h :: L h := by
  intro h1
  rcases List.mem_cons.mp hb with h2 | h2
  · rcases List.mem_cons.mp h1 with h3 | h3
    · exact e (h2.symm.trans h3)
    · exact f.nohd h b hh h3 (h2 ▸ ha)
  · rcases List.mem_cons.mp h1 with h3 | h3
    · exact f.nohd a b ha h2 (h3 ▸ hh)
    · exact e (f.disj a h b ha hh h2 h3)

theorem insert_lnk_other (m : Mem α) (x p n b : α) (h1 : b ≠ p) (h2 : b ≠ n) (h3 : b ≠ x) (hp : p ≠ x) (hn : n ≠ x) :
    (m.insert x (some p) (some n)).lnk b = m.lnk b := by
  have e1 := insert_next m x p n b hp hn
  have e2 := insert_prev m x p n b hp hn
  rw [if_neg h1, if_neg h3] at e1
  rw [if_neg h2, if_neg h3] at e2
  generalize (m.insert x (some p) (some n)).lnk b = y at e1 e2
  generalize m.lnk b = z at e1 e2
  cases y; cases z; cases e1; cases e2; rfl

/-- Insertion anywhere in a list of the forest. -/
theorem Forest.insert {m : Mem α} {H : α → Prop} {L : α → List α} {F : α → Prop} (f : Forest m H L F) {h x : α} (hh : H h)
    (hx : F x) {l1 l2 A B : List α} {p n : α} (hl : L h = l1 ++ l2) (e1 : h :: l1 = A ++ [p]) (e2 : l2 ++ [h] = n :: B) :
    Forest (m.insert x (some p) (some n)) H (fun a => if a = h then l1 ++ x :: l2 else L a) (fun y => F y ∧ y ≠ x) := by
  have r := f.ring h hh
  have xr : x ∉ h :: L h := fun h1 => (List.mem_cons.mp h1).elim (fun e => f.fhd x hx (e ▸ hh)) (f.fin x h hx hh)
  rw [hl] at r xr
  have en := ends_of r.nodup e1 e2
  have pin : p ∈ h :: L h := by
    rw [hl]
    rcases List.mem_cons.mp en.pmem with h1 | h1
    · rw [h1]; exact List.mem_cons_self
    · exact List.mem_cons_of_mem _ (List.mem_append_left _ h1)
  have nin : n ∈ h :: L h := by
    rw [hl]
    rcases List.mem_append.mp en.nmem with h1 | h1
    · exact List.mem_cons_of_mem _ (List.mem_append_right _ h1)
    · rw [List.mem_singleton.mp h1]; exact List.mem_cons_self
  have px : p ≠ x := fun e => xr (by rw [← hl]; exact e ▸ pin)
  have nx : n ≠ x := fun e => xr (by rw [← hl]; exact e ▸ nin)
  have hF : ∀ y, F y → y ≠ p ∧ y ≠ n := by
    intro y hy
    have hy' : y ∉ h :: L h := fun h1 => (List.mem_cons.mp h1).elim (fun e => f.fhd y hy (e ▸ hh)) (f.fin y h hy hh)
    exact ⟨fun e => hy' (e ▸ pin), fun e => hy' (e ▸ nin)⟩
  refine f.change hh (ring_insert r xr e1 e2) ?_ ?_ ?_ ?_ ?_
  · intro a b ha hne hb
    have hb' := f.apart ha hh hne hb
    refine insert_lnk_other m x p n b (fun e => hb' (e ▸ pin)) (fun e => hb' (e ▸ nin)) ?_ px nx
    intro e
    rcases List.mem_cons.mp hb with h1 | h1
    · exact f.fhd x hx (by rw [← e, h1]; exact ha)
    · exact f.fin x a hx ha (e ▸ h1)
  · intro y hy
    rw [hl]
    rcases List.mem_append.mp hy with h1 | h1
    · exact .inl (List.mem_append_left _ h1)
    · rcases List.mem_cons.mp h1 with h2 | h2
      · right; rw [h2]; exact hx
      · exact .inl (List.mem_append_right _ h2)
  · intro y hy
    refine ⟨.inl hy.1, fun h1 => ?_⟩
    rcases List.mem_append.mp h1 with h2 | h2
    · exact f.fin y h hy.1 hh (by rw [hl]; exact List.mem_append_left _ h2)
    · rcases List.mem_cons.mp h2 with h3 | h3
      · exact hy.2 h3
      · exact f.fin y h hy.1 hh (by rw [hl]; exact List.mem_append_right _ h3)
  · intro y hy
    rw [insert_lnk_other m x p n y (hF y hy.1).1 (hF y hy.1).2 hy.2 px nx]
    exact f.self y hy.1
  · rw [insert_bad]; exact f.ok

theorem Forest.pushFront {m : Mem α} {H : α → Prop} {L : α → List α} {F : α → Prop} (f : Forest m H L F) {h x : α} (hh : H h)
    (hx : F x) : Forest (m.pushFront h x) H (fun a => if a = h then x :: L h else L a) (fun y => F y ∧ y ≠ x) := by
  unfold Mem.pushFront Mem.insertAfter
  rw [ring_front (f.ring h hh)]
  obtain ⟨n, B, e2⟩ := cons_of (L h) h
  have e : (L h).headD h = n := by
    cases hl : L h with
    | nil => rw [hl] at e2; cases e2; rfl
    | cons a t => rw [hl] at e2; cases e2; rfl
  rw [e]
  exact f.insert hh hx (l1 := []) (A := []) (p := h) rfl rfl e2

theorem Forest.pushBack {m : Mem α} {H : α → Prop} {L : α → List α} {F : α → Prop} (f : Forest m H L F) {h x : α} (hh : H h)
    (hx : F x) : Forest (m.pushBack h x) H (fun a => if a = h then L h ++ [x] else L a) (fun y => F y ∧ y ≠ x) := by
  unfold Mem.pushBack Mem.insertBefore
  rw [ring_back (f.ring h hh)]
  obtain ⟨A, p, e1⟩ := snoc_of h (L h)
  have e : (L h).getLastD h = p := by
    have e : (h :: L h).getLast? = some p := by rw [e1, List.getLast?_append]; rfl
    rw [List.getLast?_cons] at e
    rw [List.getLastD_eq_getLast?]; exact Option.some.inj e
  rw [e]
  exact f.insert hh hx (l2 := []) (n := h) (B := []) (List.append_nil _).symm e1 rfl

theorem erase_app {l1 l2 : List α} {x : α} (h : x ∉ l1) : (l1 ++ x :: l2).erase x = l1 ++ l2 := by
  rw [List.erase_append_right _ h, List.erase_cons_head]

/-- Removal from a list of the forest. -/
theorem Forest.remove {m : Mem α} {H : α → Prop} {L : α → List α} {F : α → Prop} (f : Forest m H L F) {h x : α} (hh : H h)
    (hx : x ∈ L h) : Forest (m.remove x) H (fun a => if a = h then (L h).erase x else L a) (fun y => F y ∨ y = x) := by
  obtain ⟨l1, l2, hl⟩ := List.append_of_mem hx
  have r := f.ring h hh
  rw [hl] at r
  obtain ⟨A, p, e1⟩ := snoc_of h l1
  obtain ⟨n, B, e2⟩ := cons_of l2 h
  have hat := ring_at r e1 e2
  have nd := (List.nodup_cons.mp r.nodup).2
  have h1 : x ∉ l1 := fun h => (List.nodup_append.mp nd).2.2 x h x List.mem_cons_self rfl
  have h2 : x ∉ l2 := (List.nodup_cons.mp (List.nodup_append.mp nd).2.1).1
  have r' := ring_remove r e1 e2
  have pin : p ∈ h :: L h := by
    have : p ∈ h :: l1 := by rw [e1]; exact List.mem_append_right _ List.mem_cons_self
    rw [hl]
    rcases List.mem_cons.mp this with h1 | h1
    · rw [h1]; exact List.mem_cons_self
    · exact List.mem_cons_of_mem _ (List.mem_append_left _ h1)
  have nin : n ∈ h :: L h := by
    have : n ∈ l2 ++ [h] := by rw [e2]; exact List.mem_cons_self
    rw [hl]
    rcases List.mem_append.mp this with h1 | h1
    · exact List.mem_cons_of_mem _ (List.mem_append_right _ (List.mem_cons_of_mem _ h1))
    · rw [List.mem_singleton.mp h1]; exact List.mem_cons_self
  have xin : x ∈ h :: L h := List.mem_cons_of_mem _ hx
  have hsame : ∀ b, b ∉ h :: L h → (m.remove x).lnk b = m.lnk b := by
    intro b hb
    have b1 : ¬ b = x := fun e => hb (e ▸ xin)
    have b2 : ¬ b = n := fun e => hb (e ▸ nin)
    have b3 : ¬ b = p := fun e => hb (e ▸ pin)
    rw [remove_lnk m x p n b hat, if_neg b1, if_neg b2, if_neg b3]
  rw [show (L h).erase x = l1 ++ l2 by rw [hl]; exact erase_app h1]
  refine f.change hh r' (fun a b ha hne hb => hsame b (f.apart ha hh hne hb)) ?_ ?_ ?_ ?_
  · intro y hy
    left
    rw [hl]
    rcases List.mem_append.mp hy with h1 | h1
    · exact List.mem_append_left _ h1
    · exact List.mem_append_right _ (List.mem_cons_of_mem _ h1)
  · intro y hy
    rcases hy with hy | hy
    · refine ⟨.inl hy, fun h1 => f.fin y h hy hh ?_⟩
      rw [hl]
      rcases List.mem_append.mp h1 with h1 | h1
      · exact List.mem_append_left _ h1
      · exact List.mem_append_right _ (List.mem_cons_of_mem _ h1)
    · refine ⟨.inr (hy ▸ hx), fun h3 => ?_⟩
      rcases List.mem_append.mp h3 with h3 | h3
      · exact h1 (hy ▸ h3)
      · exact h2 (hy ▸ h3)
  · intro y hy
    by_cases e : y = x
    · rw [e, remove_lnk m x p n x hat, if_pos rfl]
    · rcases hy with hy | hy
      · rw [hsame y (fun h1 => (List.mem_cons.mp h1).elim (fun e => f.fhd y hy (e ▸ hh)) (f.fin y h hy hh))]
        exact f.self y hy
      · exact absurd hy e
  · rw [remove_bad m x p n hat]; exact f.ok

/-- Memory changes at one place only, which no list uses. -/
theorem Forest.frame {m m' : Mem α} {H : α → Prop} {L : α → List α} {F : α → Prop} (f : Forest m H L F) {x : α}
    (hs : ∀ b, b ≠ x → m'.lnk b = m.lnk b) (hb : m'.bad = false) (hH : ¬ H x) (hL : ∀ a, H a → x ∉ L a) (hF : ¬ F x) :
    Forest m' H L F where
  ring a ha := ring_congr (f.ring a ha) fun b hb => hs b fun e => (List.mem_cons.mp hb).elim
    (fun e1 => hH (by rw [← e, e1]; exact ha)) (fun h1 => hL a ha (e ▸ h1))
  disj := f.disj
  nohd := f.nohd
  self y hy := by rw [hs y fun e => hF (e ▸ hy)]; exact f.self y hy
  fhd := f.fhd
  fin := f.fin
  ok := hb

/-- A new link. -/
theorem Forest.init {m : Mem α} {H : α → Prop} {L : α → List α} {F : α → Prop} (f : Forest m H L F) {x : α} (hH : ¬ H x)
    (hL : ∀ a, H a → x ∉ L a) : Forest (m.init x) H L (fun y => F y ∨ y = x) := by
  have f' : Forest m H L (fun y => F y ∧ y ≠ x) := f.congr (fun _ => Iff.rfl) (fun _ _ => rfl) (fun _ h => h.1)
  have f2 : Forest (m.init x) H L (fun y => F y ∧ y ≠ x) :=
    f'.frame (x := x) (fun b hb => by unfold Mem.init; rw [set_lnk, if_neg hb]) f.ok hH hL (fun h => h.2 rfl)
  refine { f2 with self := ?_, fhd := ?_, fin := ?_ }
  · intro y hy
    by_cases e : y = x
    · unfold Mem.init; rw [set_lnk, if_pos e, e]
    · exact f2.self y ⟨hy.resolve_right e, e⟩
  · intro y hy
    by_cases e : y = x
    · rw [e]; exact hH
    · exact f2.fhd y ⟨hy.resolve_right e, e⟩
  · intro y a hy ha
    by_cases e : y = x
    · rw [e]; exact hL a ha
    · exact f2.fin y a ⟨hy.resolve_right e, e⟩ ha

/-- A link goes away. -/
theorem Forest.fini {m : Mem α} {H : α → Prop} {L : α → List α} {F : α → Prop} (f : Forest m H L F) {x : α} (hH : ¬ H x)
    (hL : ∀ a, H a → x ∉ L a) : Forest (m.fini x) H L (fun y => F y ∧ y ≠ x) :=
  (f.congr (fun _ => Iff.rfl) (fun _ _ => rfl) (fun _ h => h.1)).frame (x := x)
    (fun b hb => by unfold Mem.fini; rw [set_lnk, if_neg hb]) f.ok hH hL (fun h => h.2 rfl)

/-- A new list. -/
theorem Forest.newHead {m : Mem α} {H : α → Prop} {L : α → List α} {F : α → Prop} (f : Forest m H L F) {h : α} (hH : ¬ H h)
    (hL : ∀ a, H a → h ∉ L a) : Forest (m.init h) (fun a => H a ∨ a = h) (fun a => if a = h then [] else L a)
      (fun y => F y ∧ y ≠ h) := by
  have f2 : Forest (m.init h) H L (fun y => F y ∧ y ≠ h) :=
    (f.congr (fun _ => Iff.rfl) (fun _ _ => rfl) (fun _ h => h.1)).frame (x := h)
      (fun b hb => by unfold Mem.init; rw [set_lnk, if_neg hb]) f.ok hH hL (fun h => h.2 rfl)
  refine ⟨?_, ?_, ?_, f2.self, ?_, ?_, f2.ok⟩
  · intro a ha
    by_cases e : a = h
    · rw [if_pos e, e]
      have hl : (m.init h).lnk h = ⟨some h, some h⟩ := by unfold Mem.init; rw [set_lnk, if_pos rfl]
      refine ⟨⟨⟨?_, ?_⟩, trivial⟩, by simp⟩
      · rw [hl]
      · rw [hl]
    · rw [if_neg e]; exact f2.ring a (ha.resolve_right e)
  · intro a b x ha hb h1 h2
    by_cases e : a = h
    · rw [if_pos e] at h1; cases h1
    · by_cases e' : b = h
      · rw [if_pos e'] at h2; cases h2
      · rw [if_neg e] at h1; rw [if_neg e'] at h2
        exact f2.disj a b x (ha.resolve_right e) (hb.resolve_right e') h1 h2
  · intro a x ha h1
    by_cases e : a = h
    · rw [if_pos e] at h1; cases h1
    · rw [if_neg e] at h1
      intro hx
      rcases hx with hx | hx
      · exact f2.nohd a x (ha.resolve_right e) h1 hx
      · exact hL a (ha.resolve_right e) (hx ▸ h1)
  · intro x hx h1
    exact h1.elim (f2.fhd x hx) hx.2
  · intro x a hx ha h1
    by_cases e : a = h
    · rw [if_pos e] at h1; cases h1
    · rw [if_neg e] at h1; exact f2.fin x a hx (ha.resolve_right e) h1

/-- An empty list goes away. -/
theorem Forest.dropHead {m : Mem α} {H : α → Prop} {L : α → List α} {F : α → Prop} (f : Forest m H L F) {h : α} (hh : H h) :
    Forest (m.fini h) (fun a => H a ∧ a ≠ h) L F := by
  refine Forest.frame (m := m) (x := h) ?_ (fun b hb => by unfold Mem.fini; rw [set_lnk, if_neg hb]) f.ok (fun h1 => h1.2 rfl)
    (fun a ha h1 => f.nohd a h ha.1 h1 hh) (fun h1 => f.fhd h h1 hh)
  exact ⟨fun a ha => f.ring a ha.1, fun a b x ha hb => f.disj a b x ha.1 hb.1, fun a x ha h1 h2 => f.nohd a x ha.1 h1 h2.1,
    f.self, fun x hx h1 => f.fhd x hx h1.1, fun x a hx ha => f.fin x a hx ha.1, f.ok⟩

end Silofs.Lk
