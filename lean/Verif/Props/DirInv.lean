import Verif.Props.DirBase
/-
Preservation of the directory invariant by add and remove, and the exact effect
on the set of entries.
-/
set_option linter.unusedSimpArgs false
set_option linter.unusedVariables false
namespace Silofs.Dir

theorem setNode_eq (nodes : Nat → Option Node) (i : Nat) (n : Node) : setNode nodes i n i = some n := by
  simp [setNode]

theorem setNode_ne (nodes : Nat → Option Node) (i j : Nat) (n : Node) (h : j ≠ i) :
    setNode nodes i n j = nodes j := by simp [setNode, h]

theorem setNode_isSome (nodes : Nat → Option Node) (i j : Nat) (n : Node)
    (h : ∃ m, nodes j = some m) : ∃ m, setNode nodes i n j = some m := by
  by_cases hj : j = i
  · exact ⟨n, by simp [setNode, hj]⟩
  · simpa [setNode, hj] using h

theorem entAt_spawn (nodes : Nat → Option Node) (c : Nat) (hc : nodes c = none) (i s : Nat) (e : Ent) :
    EntAt (setNode nodes c Node.empty) i s e ↔ EntAt nodes i s e := by
  unfold EntAt setNode
  by_cases h : i = c
  · subst h; simp [hc, Node.empty]
  · simp [h]

theorem spawn_inv {d : Dir} (hv : Inv d) (c : Nat) (hc : d.nodes c = none) (h1 : 1 ≤ c)
    (h2 : c ≤ 16777216) (hp : 2 ≤ c → ∃ p, d.nodes (parent c) = some p) :
    Inv { d with nodes := setNode d.nodes c Node.empty, last := bumpLast d.last c } := by
  have hb : d.last ≤ bumpLast d.last c ∧ c ≤ bumpLast d.last c ∧ bumpLast d.last c ≤ 16777216 := by
    have := hv.lastmax
    unfold bumpLast; split <;> omega
  constructor
  · intro i n hn
    simp only at hn ⊢
    by_cases h : i = c
    · subst h
      rw [setNode_eq] at hn; cases hn
      exact ⟨h1, h2, hb.2.1, Node.empty_wf⟩
    · rw [setNode_ne _ _ _ _ h] at hn
      have := hv.range i n hn
      exact ⟨this.1, this.2.1, by omega, this.2.2.2⟩
  · intro i n hn hi2
    simp only at hn ⊢
    apply setNode_isSome
    by_cases h : i = c
    · subst h; exact hp hi2
    · rw [setNode_ne _ _ _ _ h] at hn
      exact hv.closed i n hn hi2
  · intro i s e he
    simp only at he ⊢
    rw [entAt_spawn _ _ hc] at he
    exact hv.ents i s e he
  · intro i s e i' s' e' he he'
    simp only at he he' ⊢
    rw [entAt_spawn _ _ hc] at he he'
    exact hv.uniq i s e i' s' e' he he'
  · obtain ⟨L, a, b, c'⟩ := hv.count
    refine ⟨L, a, b, ?_⟩
    intro i s
    simp only [entAt_spawn _ _ hc]
    exact c' i s
  · intro h
    simp only at h ⊢
    by_cases hc1 : (1 : Nat) = c
    · rw [← hc1, setNode_eq] at h; simp at h
    · rw [setNode_ne _ _ _ _ hc1] at h
      obtain ⟨p, hp'⟩ := hp (by omega)
      exfalso
      -- a non-root node implies a root
      have key : ∀ k i n, i ≤ k → d.nodes i = some n → ∃ r, d.nodes 1 = some r := by
        intro k
        induction k with
        | zero => intro i n hik hn; have := hv.range i n hn; omega
        | succ k ih =>
          intro i n hik hn
          by_cases hi1 : i = 1
          · subst hi1; exact ⟨n, hn⟩
          · have := hv.range i n hn
            obtain ⟨q, hq⟩ := hv.closed i n hn (by omega)
            have := C12_child_of_parent i (by omega)
            exact ih (parent i) q (by omega) hq
      obtain ⟨r, hr⟩ := key _ _ _ (Nat.le_refl _) hp'
      rw [hr] at h; simp at h
  · exact hb.2.2
  · exact hv.live

theorem entAt_insert (nodes : Nat → Option Node) (i : Nat) (n : Node) (hn : nodes i = some n)
    (h : Nat) (nm : Name) (ino dt : Nat) (j s : Nat) (e : Ent) :
    EntAt (setNode nodes i (n.insert h nm ino dt)) j s e ↔
      EntAt nodes j s e ∨ (j = i ∧ s = freeSlot n.slots ∧ e = ⟨h % 16777216, nm, ino, dt⟩) := by
  unfold EntAt
  by_cases hj : j = i
  · subst hj
    simp only [setNode_eq, Option.some.injEq, exists_eq_left', Node.insert_get, hn, true_and]
    have := freeSlot_free n.slots e
    constructor
    · rintro (⟨a, b⟩ | ⟨a, b⟩)
      · exact Or.inr ⟨a, b⟩
      · exact Or.inl b
    · rintro (a | ⟨a, b⟩)
      · refine Or.inr ⟨?_, a⟩
        rintro rfl; exact this a
      · exact Or.inl ⟨a, b⟩
  · simp [setNode_ne _ _ _ _ hj, hj]

theorem insert_inv {d : Dir} (hv : Inv d) (i : Nat) (n : Node) (hn : d.nodes i = some n)
    (nm : Name) (ino dt : Nat) (hpath : i = pathIdx (d.hash nm) (depth i))
    (hm : n.mayInsert nm.length = true) (hl1 : 1 ≤ nm.length) (hl2 : nm.length ≤ 255)
    (hno : ∀ j s e, EntAt d.nodes j s e → e.name ≠ nm) :
    Inv { d with nodes := setNode d.nodes i (n.insert (d.hash nm) nm ino dt), ndents := d.ndents + 1 } := by
  have hE := entAt_insert d.nodes i n hn (d.hash nm) nm ino dt
  constructor
  · intro j m hj
    simp only at hj ⊢
    by_cases h : j = i
    · subst h
      rw [setNode_eq] at hj; cases hj
      have := hv.range j n hn
      exact ⟨this.1, this.2.1, this.2.2.1, Node.insert_wf n _ nm ino dt this.2.2.2 hm⟩
    · rw [setNode_ne _ _ _ _ h] at hj
      exact hv.range j m hj
  · intro j m hj hj2
    simp only at hj ⊢
    apply setNode_isSome
    by_cases h : j = i
    · subst h; exact hv.closed j n hn hj2
    · rw [setNode_ne _ _ _ _ h] at hj
      exact hv.closed j m hj hj2
  · intro j s e he
    simp only at he ⊢
    rw [hE] at he
    rcases he with he | ⟨rfl, _, rfl⟩
    · exact hv.ents j s e he
    · exact ⟨rfl, hpath, hl1, hl2⟩
  · intro j s e j' s' e' he he' hne
    simp only at he he' ⊢
    rw [hE] at he he'
    rcases he with he | ⟨rfl, rfl, rfl⟩ <;> rcases he' with he' | ⟨rfl, rfl, rfl⟩
    · exact hv.uniq _ _ _ _ _ _ he he' hne
    · exact absurd hne (hno _ _ _ he)
    · exact absurd hne.symm (hno _ _ _ he')
    · exact ⟨rfl, rfl⟩
  · obtain ⟨L, a, b, c⟩ := hv.count
    refine ⟨(i, freeSlot n.slots) :: L, ?_, by simp [b], ?_⟩
    · rw [List.nodup_cons]
      refine ⟨?_, a⟩
      rw [c]
      rintro ⟨e, m, hm', hs⟩
      rw [hn] at hm'; cases hm'
      exact freeSlot_free _ _ hs
    · intro j s
      simp only [List.mem_cons, Prod.mk.injEq, hE]
      constructor
      · rintro (⟨rfl, rfl⟩ | h)
        · exact ⟨_, Or.inr ⟨rfl, rfl, rfl⟩⟩
        · obtain ⟨e, he⟩ := (c j s).1 h
          exact ⟨e, Or.inl he⟩
      · rintro ⟨e, he | ⟨rfl, rfl, _⟩⟩
        · exact Or.inr ((c j s).2 ⟨e, he⟩)
        · exact Or.inl ⟨rfl, rfl⟩
  · intro h
    simp only at h ⊢
    obtain ⟨m, hm'⟩ := setNode_isSome d.nodes i 1 (n.insert (d.hash nm) nm ino dt) (by
      rw [hpath] at hn
      exact hv.path_closed _ _ _ hn 0 (by omega))
    rw [hm'] at h; simp at h
  · exact hv.lastmax
  · exact hv.live

/-- Nodes of `d` are still there in `d'`. -/
def Grows (d d' : Dir) : Prop :=
  (∀ i n, d.nodes i = some n → ∃ m, d'.nodes i = some m) ∧ d'.hash = d.hash

theorem Grows.refl (d : Dir) : Grows d d := ⟨fun i n h => ⟨n, h⟩, rfl⟩

theorem Grows.trans {a b c : Dir} (h : Grows a b) (k : Grows b c) : Grows a c :=
  ⟨fun i n hn => by obtain ⟨m, hm⟩ := h.1 i n hn; exact k.1 i m hm, k.2.trans h.2⟩

/-- Effect of adding `nm ↦ (ino, dt)`. -/
structure Added (d d' : Dir) (nm : Name) (ino dt : Nat) : Prop where
  inv : Inv d'
  grows : Grows d d'
  eff : ∃ i s, (∀ e, ¬ EntAt d.nodes i s e) ∧ ∀ j t e, EntAt d'.nodes j t e ↔
    EntAt d.nodes j t e ∨ (j = i ∧ t = s ∧ e = ⟨d.hash nm % 16777216, nm, ino, dt⟩)

/-- No effect on entries. -/
structure Same (d d' : Dir) : Prop where
  inv : Inv d'
  grows : Grows d d'
  eff : ∀ j t e, EntAt d'.nodes j t e ↔ EntAt d.nodes j t e

theorem addAt_spec {d : Dir} (hv : Inv d) (o : Orc) (nm : Name) (ino dt : Nat) (k i : Nat) (n : Node)
    (hk : k ≤ 4) (hi : i = pathIdx (d.hash nm) (4 - k)) (hn : d.nodes i = some n)
    (hl1 : 1 ≤ nm.length) (hl2 : nm.length ≤ 255)
    (hno : ∀ j s e, EntAt d.nodes j s e → e.name ≠ nm) :
    ((addAt o (d.hash nm) nm ino dt k i n d).1 = .ok () ∧
        Added d (addAt o (d.hash nm) nm ino dt k i n d).2 nm ino dt) ∨
    ((addAt o (d.hash nm) nm ino dt k i n d).1 ∈ [.enospc, .eio] ∧
        Same d (addAt o (d.hash nm) nm ino dt k i n d).2) ∨
    (addAt o (d.hash nm) nm ino dt k i n d = (.die, d) ∧
        ∃ m, d.nodes (pathIdx (d.hash nm) 4) = some m) := by
  induction k generalizing d i n with
  | zero =>
    rw [addAt]
    split
    · rename_i hm
      left
      refine ⟨rfl, insert_inv hv i n hn nm ino dt ?_ hm hl1 hl2 hno, ⟨?_, rfl⟩, i, freeSlot n.slots, ?_, ?_⟩
      · rw [hi, pathIdx_depth]
      · intro j m hj; exact setNode_isSome _ _ _ _ ⟨m, hj⟩
      · rintro e ⟨m, hm', hs⟩
        rw [hn] at hm'; cases hm'
        exact freeSlot_free _ _ hs
      · exact entAt_insert d.nodes i n hn (d.hash nm) nm ino dt
    · right; right
      exact ⟨rfl, n, by rw [← hn, hi]⟩
  | succ k ih =>
    rw [addAt]
    split
    · rename_i hm
      left
      refine ⟨rfl, insert_inv hv i n hn nm ino dt ?_ hm hl1 hl2 hno, ⟨?_, rfl⟩, i, freeSlot n.slots, ?_, ?_⟩
      · rw [hi, pathIdx_depth]
      · intro j m hj; exact setNode_isSome _ _ _ _ ⟨m, hj⟩
      · rintro e ⟨m, hm', hs⟩
        rw [hn] at hm'; cases hm'
        exact freeSlot_free _ _ hs
      · exact entAt_insert d.nodes i n hn (d.hash nm) nm ino dt
    · simp only
      have hstep : child i (hashOrd (d.hash nm) (4 - k)) = pathIdx (d.hash nm) (4 - k) := by
        rw [hi, show 4 - k = (4 - (k + 1)) + 1 by omega, pathIdx]
      rw [hstep]
      split
      · rename_i n' hn'
        split
        · right; left; exact ⟨by simp, hv, Grows.refl d, fun _ _ _ => Iff.rfl⟩
        · exact ih hv _ n' (by omega) rfl hn' hno
      · rename_i hc
        split
        · right; left; exact ⟨by simp, hv, Grows.refl d, fun _ _ _ => Iff.rfl⟩
        · rename_i hvd
          have hvd' := (C12_valid_depth _).1 (by simpa using hvd)
          split
          · right; left; exact ⟨by simp, hv, Grows.refl d, fun _ _ _ => Iff.rfl⟩
          · have hv2 := spawn_inv hv (pathIdx (d.hash nm) (4 - k)) hc hvd'.1 hvd'.2 (by
              intro _
              rw [show 4 - k = (4 - (k + 1)) + 1 by omega, pathIdx_parent, ← hi]
              exact ⟨n, hn⟩)
            have hE := entAt_spawn d.nodes (pathIdx (d.hash nm) (4 - k)) hc
            have hg : Grows d (Dir.mk d.hash d.ndents (bumpLast d.last (pathIdx (d.hash nm) (4 - k)))
                (setNode d.nodes (pathIdx (d.hash nm) (4 - k)) Node.empty) d.dangling) :=
              ⟨fun j m hj => setNode_isSome _ _ _ _ ⟨m, hj⟩, rfl⟩
            have h := ih hv2 (pathIdx (d.hash nm) (4 - k)) Node.empty (by omega) rfl (setNode_eq _ _ _) (by
              intro j s e he
              exact hno j s e ((hE j s e).1 he))
            rcases h with ⟨h1, h2⟩ | ⟨h1, h2⟩ | ⟨h1, m, h2⟩
            · left
              refine ⟨h1, h2.inv, hg.trans h2.grows, ?_⟩
              obtain ⟨a, b, c1, c2⟩ := h2.eff
              refine ⟨a, b, fun e he => c1 e ((hE _ _ _).2 he), fun j t e => ?_⟩
              rw [c2]
              simp only [hE]
            · right; left
              exact ⟨h1, h2.inv, hg.trans h2.grows, fun j t e => (h2.eff j t e).trans (hE j t e)⟩
            · -- an empty node always accepts the name
              exfalso
              have hmi : Node.empty.mayInsert nm.length = true := by
                simp [Node.mayInsert, Node.empty, Node.used]; omega
              cases k with
              | zero => rw [addAt, if_pos hmi] at h1; simp at h1
              | succ k => rw [addAt, if_pos hmi] at h1; simp at h1

theorem addDentry_spec {d : Dir} (hv : Inv d) (o : Orc) (nm : Name) (ino dt : Nat)
    (hl1 : 1 ≤ nm.length) (hl2 : nm.length ≤ 255)
    (hno : ∀ j s e, EntAt d.nodes j s e → e.name ≠ nm) :
    ((d.addDentry o nm ino dt).1 = .ok () ∧ Added d (d.addDentry o nm ino dt).2 nm ino dt) ∨
    ((d.addDentry o nm ino dt).1 ∈ [.enospc, .eio] ∧ Same d (d.addDentry o nm ino dt).2) ∨
    (d.addDentry o nm ino dt = (.die, d) ∧ ∃ m, d.nodes (pathIdx (d.hash nm) 4) = some m) := by
  unfold Dir.addDentry
  split
  · rename_i r hr
    rw [hv.live]
    simp only [Bool.false_eq_true, if_false]
    split
    · right; left; exact ⟨by simp, hv, Grows.refl d, fun _ _ _ => Iff.rfl⟩
    · exact addAt_spec hv o nm ino dt 4 1 r (by omega) rfl hr hl1 hl2 hno
  · rename_i hr
    split
    · right; left; exact ⟨by simp, hv, Grows.refl d, fun _ _ _ => Iff.rfl⟩
    · have hl := hv.lastz hr
      have hv2 := spawn_inv hv 1 hr (by omega) (by omega) (by omega)
      have hb : bumpLast d.last 1 = 1 := by unfold bumpLast; split <;> omega
      rw [hb] at hv2
      have hE := entAt_spawn d.nodes 1 hr
      have hg : Grows d { d with nodes := setNode d.nodes 1 Node.empty, last := 1 } :=
        ⟨fun j m hj => setNode_isSome _ _ _ _ ⟨m, hj⟩, rfl⟩
      have hmi : Node.empty.mayInsert nm.length = true := by
        simp [Node.mayInsert, Node.empty, Node.used]; omega
      have h := addAt_spec hv2 o nm ino dt 4 1 Node.empty (by omega) rfl (setNode_eq d.nodes 1 Node.empty) hl1 hl2 (by
        intro j s e he; exact hno j s e ((hE j s e).1 he))
      rcases h with ⟨h1, h2⟩ | ⟨h1, h2⟩ | ⟨h1, m, h2⟩
      · left
        refine ⟨h1, h2.inv, hg.trans h2.grows, ?_⟩
        obtain ⟨a, b, c1, c2⟩ := h2.eff
        refine ⟨a, b, fun e he => c1 e ((hE _ _ _).2 he), fun j t e => ?_⟩
        rw [c2]
        simp only [hE]
      · right; left
        exact ⟨h1, h2.inv, hg.trans h2.grows, fun j t e => (h2.eff j t e).trans (hE j t e)⟩
      · exfalso; rw [addAt, if_pos hmi] at h1; simp at h1

/-! ### find -/

theorem find_spec {d : Dir} (hv : Inv d) (o : Orc) (nm : Name) (hl1 : 1 ≤ nm.length) (hl2 : nm.length ≤ 255) :
    (∃ i s e, d.find o nm = .ok (i, s, e) ∧ EntAt d.nodes i s e ∧ e.name = nm) ∨
    (d.find o nm = .enoent ∧ ∀ i s e, EntAt d.nodes i s e → e.name ≠ nm) ∨
    (d.find o nm = .eio ∧ ∃ q, o.stage q = true) ∨
    (d.find o nm = .die ∧ (∃ m, d.nodes (pathIdx (d.hash nm) 4) = some m) ∧
      ∀ i s e, EntAt d.nodes i s e → e.name ≠ nm) := by
  unfold Dir.find
  rw [if_neg (by omega), if_neg (by omega)]
  split
  · rename_i h0
    right; left
    exact ⟨rfl, fun i s e he => absurd he (hv.ndents_zero.1 h0 i s e)⟩
  · split
    · rename_i hr
      right; left
      refine ⟨rfl, fun i s e he => ?_⟩
      obtain ⟨r, hr'⟩ := hv.root_of_ent he
      rw [hr] at hr'; simp at hr'
    · rename_i r hr
      rw [hv.live]
      simp only [Bool.false_eq_true, if_false]
      split
      · rename_i hq; right; right; left; exact ⟨rfl, 0, hq⟩
      · have hcomp : ∀ i s e, EntAt d.nodes i s e → e.name = nm →
            lookupAt d.nodes o.stage (d.hash nm) nm 4 1 r = .ok (i, s, e) ∨
            (lookupAt d.nodes o.stage (d.hash nm) nm 4 1 r = .eio ∧ ∃ q, o.stage q = true) := by
          intro i s e he hne
          subst hne
          exact lookupAt_complete hv o.stage 4 i s e he (by omega) (by omega) r hr
        rcases lookupAt_cases d.nodes o.stage (d.hash nm) nm 4 1 r (by omega) rfl hr with
          ⟨j, s, e, h⟩ | h | h | h
        · left
          have := lookupAt_sound d.nodes o.stage (d.hash nm) nm 4 1 r hr j s e h
          exact ⟨j, s, e, h, this.1, this.2⟩
        · right; left
          refine ⟨h, fun i s e he hne => ?_⟩
          rcases hcomp i s e he hne with h' | h'
          · rw [h] at h'; simp at h'
          · rw [h] at h'; simp at h'
        · right; right; left; exact h
        · right; right; right
          refine ⟨h.1, h.2, fun i s e he hne => ?_⟩
          rcases hcomp i s e he hne with h' | h'
          · rw [h.1] at h'; simp at h'
          · rw [h.1] at h'; simp at h'

theorem find_badname (d : Dir) (o : Orc) (nm : Name) (h : nm.length = 0 ∨ 255 < nm.length) :
    d.find o nm = .einval ∨ d.find o nm = .enametoolong := by
  unfold Dir.find
  by_cases h0 : nm.length = 0
  · rw [if_pos h0]; exact Or.inl rfl
  · rw [if_neg h0, if_pos (by omega)]; exact Or.inr rfl

/-! ### remove -/

theorem entAt_remove (nodes : Nat → Option Node) (i : Nat) (n : Node) (hn : nodes i = some n)
    (s : Nat) (e : Ent) (j t : Nat) (x : Ent) :
    EntAt (setNode nodes i (n.remove s e)) j t x ↔ EntAt nodes j t x ∧ ¬ (j = i ∧ t = s) := by
  unfold EntAt
  by_cases hj : j = i
  · subst hj
    simp only [setNode_eq, Option.some.injEq, exists_eq_left', Node.remove_get, hn, true_and]
    exact And.comm
  · simp [setNode_ne _ _ _ _ hj, hj]

theorem remove_inv {d : Dir} (hv : Inv d) (i s : Nat) (e : Ent) (n : Node) (hn : d.nodes i = some n)
    (he : EntAt d.nodes i s e) :
    Inv { d with nodes := setNode d.nodes i (n.remove s e), ndents := d.ndents - 1 } := by
  have hE := entAt_remove d.nodes i n hn s e
  have hes : n.slots[s]? = some (some e) := by
    obtain ⟨m, hm, hs⟩ := he
    rw [hn] at hm; cases hm; exact hs
  constructor
  · intro j m hj
    simp only at hj ⊢
    by_cases h : j = i
    · subst h
      rw [setNode_eq] at hj; cases hj
      have := hv.range j n hn
      exact ⟨this.1, this.2.1, this.2.2.1, Node.remove_wf n s e this.2.2.2 hes⟩
    · rw [setNode_ne _ _ _ _ h] at hj
      exact hv.range j m hj
  · intro j m hj hj2
    simp only at hj ⊢
    apply setNode_isSome
    by_cases h : j = i
    · subst h; exact hv.closed j n hn hj2
    · rw [setNode_ne _ _ _ _ h] at hj
      exact hv.closed j m hj hj2
  · intro j t x hx
    simp only at hx ⊢
    rw [hE] at hx
    exact hv.ents j t x hx.1
  · intro j t x j' t' x' hx hx' hne
    simp only at hx hx' ⊢
    rw [hE] at hx hx'
    exact hv.uniq _ _ _ _ _ _ hx.1 hx'.1 hne
  · obtain ⟨L, a, b, c⟩ := hv.count
    refine ⟨L.erase (i, s), a.erase _, ?_, ?_⟩
    · rw [List.length_erase_of_mem ((c i s).2 ⟨e, he⟩), b]
    · intro j t
      rw [a.mem_erase_iff, c]
      simp only [hE, ne_eq, Prod.mk.injEq]
      constructor
      · rintro ⟨h1, x, h2⟩; exact ⟨x, h2, h1⟩
      · rintro ⟨x, h2, h1⟩; exact ⟨h1, x, h2⟩
  · intro h
    simp only at h ⊢
    obtain ⟨m, hm⟩ := setNode_isSome d.nodes i 1 (n.remove s e) (hv.root_of_ent he)
    rw [hm] at h; simp at h
  · exact hv.lastmax
  · exact hv.live

/-- Effect of removing `nm`: one entry of that name disappears; either nothing
else changes, or it was the last entry and the directory is fresh again. -/
structure Removed (d d' : Dir) (nm : Name) : Prop where
  inv : Inv d'
  eff : ∃ i s e, EntAt d.nodes i s e ∧ e.name = nm ∧
    ∀ j t x, EntAt d'.nodes j t x ↔ EntAt d.nodes j t x ∧ ¬ (j = i ∧ t = s)
  grows : (∃ j t x, EntAt d'.nodes j t x) → Grows d d'

theorem remove_spec {d : Dir} (hv : Inv d) (o : Orc) (nm : Name) (hl1 : 1 ≤ nm.length)
    (hl2 : nm.length ≤ 255) (hdrop : o.drop = false) :
    ((d.remove o nm).1 = .ok () ∧ Removed d (d.remove o nm).2 nm) ∨
    ((d.remove o nm).2 = d ∧ ((d.remove o nm).1 = .eio ∨
      ((d.remove o nm).1 = .enoent ∧ ∀ i s e, EntAt d.nodes i s e → e.name ≠ nm) ∨
      ((d.remove o nm).1 = .die ∧ (∃ m, d.nodes (pathIdx (d.hash nm) 4) = some m) ∧
        ∀ i s e, EntAt d.nodes i s e → e.name ≠ nm))) := by
  unfold Dir.remove
  rcases find_spec hv o nm hl1 hl2 with ⟨i, s, e, h, he, hne⟩ | ⟨h, hno⟩ | ⟨h, _⟩ | ⟨h, hno⟩
  · rw [h]
    simp only
    split
    · right; exact ⟨rfl, Or.inl rfl⟩
    · have he' := he
      obtain ⟨n, hn, hs⟩ := he'
      rw [hn]
      simp only
      have hrem := remove_inv hv i s e n hn he
      have hE := entAt_remove d.nodes i n hn s e
      split
      · rename_i h1
        rw [hdrop]
        simp only [Bool.false_eq_true, if_false]
        left
        refine ⟨trivial, Inv.fresh _, ⟨i, s, e, he, hne, fun j t x => ?_⟩, ?_⟩
        · have h0 := hrem.ndents_zero.1 h1 j t x
          constructor
          · intro hx; simp [Dir.fresh, EntAt] at hx
          · intro hx; exact absurd ((hE j t x).2 hx) h0
        · rintro ⟨j, t, x, hx⟩
          simp [Dir.fresh, EntAt] at hx
      · left
        refine ⟨rfl, hrem, ⟨i, s, e, he, hne, hE⟩, fun _ => ⟨?_, rfl⟩⟩
        intro j m hj; exact setNode_isSome _ _ _ _ ⟨m, hj⟩
  · rw [h]; right; exact ⟨rfl, Or.inr (Or.inl ⟨rfl, hno⟩)⟩
  · rw [h]; right; exact ⟨rfl, Or.inl rfl⟩
  · rw [h]; right; exact ⟨rfl, Or.inr (Or.inr ⟨rfl, hno⟩)⟩

end Silofs.Dir
