import Verif.Props.SnapOld
/-
C25: copy-on-write of the space maps changes neither the allocation marks nor where the
blocks are.
-/
set_option linter.unusedSimpArgs false
set_option linter.unusedVariables false
namespace Silofs.Snap

/-- The space maps of the mounted volume mean the same. -/
structure Maps (mk : Bool) (s s' : St) : Prop where
  cur : s'.cur = s.cur
  node : ∀ k i w, k ≤ 4 → s.loc s.cur k i = some w →
    ∃ w', s'.loc s.cur k i = some w' ∧ (s'.un w' k i).used = (s.un w k i).used
  new : ∀ k i w', k ≤ 4 → s.loc s.cur k i = none → s'.loc s.cur k i = some w' →
    (s'.un w' k i).used = fun _ _ => false
  blk : ∀ b, s'.loc s.cur 5 b = s.loc s.cur 5 b ∨ (mk = true ∧ s.loc s.cur 4 (b / 256) = none)

theorem Maps.refl (mk : Bool) (s : St) : Maps mk s s :=
  ⟨rfl, fun k i w _ h => ⟨w, h, rfl⟩, fun k i w' _ h h' => (by rw [h] at h'; cases h'), fun b => Or.inl rfl⟩

theorem Maps.trans {mk : Bool} {s s' s'' : St} (a : Maps mk s s') (b : Maps mk s' s'') : Maps mk s s'' where
  cur := b.cur.trans a.cur
  node k i w hk h := by
    obtain ⟨w', h1, h2⟩ := a.node k i w hk h
    rw [← a.cur] at h1
    obtain ⟨w'', h3, h4⟩ := b.node k i w' hk h1
    rw [a.cur] at h3
    exact ⟨w'', h3, h4.trans h2⟩
  new k i w'' hk h h'' := by
    cases h' : s'.loc s.cur k i with
    | none =>
      rw [← a.cur] at h' h''
      exact b.new k i w'' hk h' h''
    | some w' =>
      have e := a.new k i w' hk h h'
      rw [← a.cur] at h' h''
      obtain ⟨u, h3, h4⟩ := b.node k i w' hk h'
      rw [h''] at h3
      cases h3
      rw [h4, e]
  blk x := by
    have hb := b.blk x
    rw [a.cur] at hb
    rcases a.blk x with e1 | e1
    · rcases hb with e2 | e2
      · exact Or.inl (e2.trans e1)
      · refine Or.inr ⟨e2.1, ?_⟩
        cases h : s.loc s.cur 4 (x / 256) with
        | none => rfl
        | some w =>
          obtain ⟨w', h1, _⟩ := a.node 4 _ w (Nat.le_refl 4) h
          rw [e2.2] at h1
          cases h1
    · exact Or.inr e1

theorem Maps.used {mk : Bool} {s s' : St} (a : Maps mk s s') (hp : s'.per = s.per) (b j : Nat) :
    s'.used s'.cur b j = s.used s.cur b j := by
  simp only [St.used, a.cur, hp]
  cases h : s.loc s.cur 4 (b / 256) with
  | none =>
    cases h' : s'.loc s.cur 4 (b / 256) with
    | none => rfl
    | some w' => simp only; rw [a.new 4 _ w' (Nat.le_refl 4) h h']
  | some w =>
    obtain ⟨w', h1, h2⟩ := a.node 4 _ w (Nat.le_refl 4) h
    rw [h1]; simp only; rw [h2]

/-! ### One node -/

theorem loc_walk (s : St) (v : Lvid) (k i : Nat) : s.loc v k i = walk s.un (s.root v) k i := rfl

theorem walk_succ (un : Lvid → Nat → Nat → UNode) (r : Option Lvid) (k i : Nat) :
    walk un r (k + 1) i = match walk un r k (i / 256) with
      | none => none
      | some w => (un w k (i / 256)).child (i % 256) := rfl

/-- The state after a node was put into the mounted volume and bound. -/
def put (s : St) (k i : Nat) (n : UNode) : St := (s.setUn (k + 1) i n).bind k (i / 256) (i % 256)

theorem put_un (s : St) (k i : Nat) (n : UNode) (w k' i' : Nat)
    (h1 : (w, k', i') ≠ (s.cur, k, i / 256)) (h2 : (w, k', i') ≠ (s.cur, k + 1, i)) :
    (put s k i n).un w k' i' = s.un w k' i' := by
  simp only [put, St.bind, St.setUn]
  rw [if_neg (fun e => h1 (by rw [e.1, e.2.1, e.2.2])), if_neg (fun e => h2 (by rw [e.1, e.2.1, e.2.2]))]

theorem put_parent (s : St) (k i : Nat) (n : UNode) :
    ((put s k i n).un s.cur k (i / 256)).child =
        (fun c' => if c' = i % 256 then some s.cur else (s.un s.cur k (i / 256)).child c') ∧
      ((put s k i n).un s.cur k (i / 256)).used = (s.un s.cur k (i / 256)).used := by
  have e : ∀ x, ¬ (k = k + 1 ∧ x) := fun x h => by omega
  simp [put, St.bind, St.setUn]

theorem put_node (s : St) (k i : Nat) (n : UNode) : (put s k i n).un s.cur (k + 1) i = n := by
  simp [put, St.bind, St.setUn]

theorem put_loc {s : St} {k i : Nat} {n : UNode} (hp : s.loc s.cur k (i / 256) = some s.cur) :
    (∀ k', k' ≤ k → ∀ i', (put s k i n).loc s.cur k' i' = s.loc s.cur k' i') ∧
    (∀ i', (put s k i n).loc s.cur (k + 1) i' = if i' = i then some s.cur else s.loc s.cur (k + 1) i') ∧
    ((∀ c, n.child c = match s.loc s.cur (k + 1) i with
      | none => none
      | some w => (s.un w (k + 1) i).child c) →
      ∀ d i', (put s k i n).loc s.cur (k + 2 + d) i' = s.loc s.cur (k + 2 + d) i') := by
  have hi : i / 256 * 256 + i % 256 = i := by omega
  have hun : ∀ w k' i', (w, k', i') ≠ (s.cur, k, i / 256) → (w, k', i') ≠ (s.cur, k + 1, i / 256 * 256 + i % 256) →
      (put s k i n).un w k' i' = s.un w k' i' := fun w k' i' h1 h2 => put_un s k i n w k' i' h1 (by rwa [hi] at h2)
  have hb := walk_bind (r := s.root s.cur) (Nat.mod_lt i (by decide)) hp hun (put_parent s k i n).1
  refine ⟨hb.1, fun i' => ?_, fun hn => ?_⟩
  · have := hb.2 i'
    rw [hi] at this
    exact this
  · refine walk_bind_deep (r := s.root s.cur) (Nat.mod_lt i (by decide)) hp hun (put_parent s k i n).1 ?_
    rw [hi]
    intro c
    rw [put_node]
    exact hn c

theorem put_maps {mk : Bool} {s : St} {k i : Nat} {n : UNode} (hk : k + 1 ≤ 4)
    (hp : s.loc s.cur k (i / 256) = some s.cur)
    (hn : (∃ w, s.loc s.cur (k + 1) i = some w ∧ n = s.un w (k + 1) i) ∨
      (mk = true ∧ s.loc s.cur (k + 1) i = none ∧ n = freshNode s.cur (k + 1))) :
    Maps mk s (put s k i n) := by
  obtain ⟨low, mid, deep⟩ := put_loc (n := n) hp
  have deep' : k + 1 < 4 ∨ (∃ w, s.loc s.cur (k + 1) i = some w ∧ n = s.un w (k + 1) i) →
      ∀ d i', (put s k i n).loc s.cur (k + 2 + d) i' = s.loc s.cur (k + 2 + d) i' := by
    intro h
    refine deep (fun c => ?_)
    rcases hn with ⟨w, h1, h2⟩ | ⟨_, h1, h2⟩
    · rw [h1, h2]
    · rw [h1, h2]
      simp only [freshNode]
      rcases h with h | ⟨w, h3, _⟩
      · rw [if_neg (by omega)]
      · rw [h1] at h3; cases h3
  refine ⟨rfl, fun k' i' w hk' hw => ?_, fun k' i' w' hk' hw hw' => ?_, fun b => ?_⟩
  · by_cases h1 : k' ≤ k
    · refine ⟨w, (low k' h1 i').trans hw, ?_⟩
      by_cases e : (w, k', i') = (s.cur, k, i / 256)
      · cases e; exact (put_parent s k i n).2
      · rw [put_un s k i n w k' i' e (by simp only [Ne, Prod.mk.injEq]; omega)]
    · by_cases h2 : k' = k + 1
      · subst h2
        by_cases e : i' = i
        · subst e
          refine ⟨s.cur, by rw [mid, if_pos rfl], ?_⟩
          rw [put_node]
          rcases hn with ⟨u, h1, h2⟩ | ⟨_, h1, _⟩
          · rw [h1] at hw; cases hw; rw [h2]
          · rw [h1] at hw; cases hw
        · refine ⟨w, by rw [mid, if_neg e]; exact hw, ?_⟩
          rw [put_un s k i n w _ i' (by simp only [Ne, Prod.mk.injEq]; omega) (by simp only [Ne, Prod.mk.injEq]; exact fun h => e h.2.2)]
      · obtain ⟨d, rfl⟩ : ∃ d, k' = k + 2 + d := ⟨k' - (k + 2), by omega⟩
        refine ⟨w, by rw [deep' (Or.inl (by omega))]; exact hw, ?_⟩
        rw [put_un s k i n w _ i' (by simp only [Ne, Prod.mk.injEq]; omega) (by simp only [Ne, Prod.mk.injEq]; omega)]
  · by_cases h1 : k' ≤ k
    · rw [low k' h1, hw] at hw'; cases hw'
    · by_cases h2 : k' = k + 1
      · subst h2
        rw [mid] at hw'
        by_cases e : i' = i
        · subst e
          rw [if_pos rfl] at hw'
          cases hw'
          rw [put_node]
          rcases hn with ⟨u, h1, _⟩ | ⟨_, _, h2⟩
          · rw [h1] at hw; cases hw
          · rw [h2]; rfl
        · rw [if_neg e, hw] at hw'; cases hw'
      · obtain ⟨d, rfl⟩ : ∃ d, k' = k + 2 + d := ⟨k' - (k + 2), by omega⟩
        rw [deep' (Or.inl (by omega)), hw] at hw'
        cases hw'
  · by_cases h1 : k + 1 < 4
    · obtain ⟨d, e⟩ : ∃ d, 5 = k + 2 + d := ⟨5 - (k + 2), by omega⟩
      rw [e]
      exact Or.inl (deep' (Or.inl h1) d b)
    · have e : k = 3 := by omega
      subst e
      rcases hn with h2 | ⟨hm, h2, _⟩
      · exact Or.inl (deep' (Or.inr h2) 0 b)
      · by_cases h3 : b / 256 = i
        · rw [h3]; exact Or.inr ⟨hm, h2⟩
        · refine Or.inl ?_
          have m4 := mid (b / 256)
          rw [if_neg h3] at m4
          simp only [loc_walk] at m4 ⊢
          rw [walk_succ, walk_succ _ _ 4, m4]
          cases hw : walk s.un (s.root s.cur) 4 (b / 256) with
          | none => rfl
          | some w =>
            simp only
            rw [put_un s 3 i n w 4 (b / 256) (by simp only [Ne, Prod.mk.injEq]; omega)
              (by simp only [Ne, Prod.mk.injEq]; exact fun h => h3 h.2.2)]

/-! ### The root -/

/-- The state after the top node was put into the mounted volume and the super block bound to it. -/
def putRoot (s : St) (n : UNode) : St := (s.setUn 0 0 n).setRoot

theorem putRoot_un (s : St) (n : UNode) (w k i : Nat) (h : (w, k, i) ≠ (s.cur, 0, 0)) :
    (putRoot s n).un w k i = s.un w k i := by
  simp only [putRoot, St.setRoot, St.setUn]
  rw [if_neg (fun e => h (by rw [e.1, e.2.1, e.2.2]))]

theorem putRoot_loc {s : St} {n : UNode} (hm : (s.vol s.cur).isSome = true) (i : Nat) :
    (putRoot s n).loc s.cur 0 i = if i = 0 then some s.cur else none := by
  rw [Option.isSome_iff_exists] at hm
  obtain ⟨V, hV⟩ := hm
  simp [putRoot, St.loc, walk, St.root, St.setRoot, St.setUn, hV]

theorem putRoot_deep {s : St} {n : UNode} (hm : (s.vol s.cur).isSome = true)
    (hn : ∀ c, n.child c = match s.root s.cur with
      | none => none
      | some w => (s.un w 0 0).child c) :
    ∀ d i, (putRoot s n).loc s.cur (d + 1) i = s.loc s.cur (d + 1) i := by
  intro d
  induction d with
  | zero =>
    intro i
    have h0 := putRoot_loc (n := n) hm (i / 256)
    simp only [loc_walk] at h0 ⊢
    rw [walk_succ, walk_succ, h0]
    by_cases e : i / 256 = 0
    · rw [if_pos e, e]
      simp only [walk, if_true]
      have : (putRoot s n).un s.cur 0 0 = n := by simp [putRoot, St.setRoot, St.setUn]
      rw [this]
      exact hn (i % 256)
    · rw [if_neg e]
      simp only [walk, if_neg e]
  | succ d ih =>
    intro i
    have h0 := ih (i / 256)
    simp only [loc_walk] at h0 ⊢
    rw [walk_succ _ _ (d + 1), h0, walk_succ s.un _ (d + 1)]
    cases hw : walk s.un (s.root s.cur) (d + 1) (i / 256) with
    | none => rfl
    | some w =>
      simp only
      rw [putRoot_un s n w (d + 1) (i / 256) (by simp only [Ne, Prod.mk.injEq]; omega)]

theorem putRoot_maps {mk : Bool} {s : St} {n : UNode} (hm : (s.vol s.cur).isSome = true)
    (hn : (∃ w, s.root s.cur = some w ∧ n = s.un w 0 0) ∨ (s.root s.cur = none ∧ n = freshNode s.cur 0)) :
    Maps mk s (putRoot s n) := by
  have l0 := putRoot_loc (n := n) hm
  have deep := putRoot_deep (n := n) hm (by
    intro c
    rcases hn with ⟨w, h1, h2⟩ | ⟨h1, h2⟩
    · rw [h1, h2]
    · rw [h1, h2]; rfl)
  have n0 : (putRoot s n).un s.cur 0 0 = n := by simp [putRoot, St.setRoot, St.setUn]
  refine ⟨rfl, fun k i w hk hw => ?_, fun k i w' hk hw hw' => ?_, fun b => Or.inl (deep 4 b)⟩
  · cases k with
    | zero =>
      by_cases e : i = 0
      · subst e
        refine ⟨s.cur, by rw [l0]; rfl, ?_⟩
        rw [n0]
        simp only [St.loc, walk, if_true] at hw
        rcases hn with ⟨u, h1, h2⟩ | ⟨h1, _⟩
        · rw [h1] at hw; cases hw; rw [h2]
        · rw [h1] at hw; cases hw
      · simp [St.loc, walk, e] at hw
    | succ d =>
      refine ⟨w, (deep d i).trans hw, ?_⟩
      rw [putRoot_un s n w (d + 1) i (by simp only [Ne, Prod.mk.injEq]; omega)]
  · cases k with
    | zero =>
      by_cases e : i = 0
      · subst e
        rw [l0, if_pos rfl] at hw'
        cases hw'
        rw [n0]
        simp only [St.loc, walk, if_true] at hw
        rcases hn with ⟨u, h1, h2⟩ | ⟨_, h2⟩
        · rw [h1] at hw; cases hw
        · rw [h2]; rfl
      · rw [l0, if_neg e] at hw'; cases hw'
    | succ d => rw [deep d i, hw] at hw'; cases hw'

/-! ### The whole path -/

theorem cow_maps (mk : Bool) (k : Nat) : ∀ i s, k ≤ 4 → (s.vol s.cur).isSome = true → 
    Maps mk s (cow mk k i s).1 ∧ ((cow mk k i s).2 = true → (cow mk k i s).1.loc s.cur k i = some s.cur) := by
  induction k with
  | zero =>
    intro i s hk hm
    simp only [cow]
    split
    · rename_i h0
      subst h0
      split
      · rename_i w hr
        split
        · rename_i e
          refine ⟨Maps.refl mk s, fun _ => ?_⟩
          simp only [St.loc, walk, if_true, hr, e]
        · refine ⟨putRoot_maps hm (Or.inl ⟨w, hr, rfl⟩), fun _ => ?_⟩
          exact putRoot_loc hm 0
      · rename_i hr
        split
        · refine ⟨putRoot_maps hm (Or.inr ⟨hr, rfl⟩), fun _ => ?_⟩
          exact putRoot_loc hm 0
        · exact ⟨Maps.refl mk s, fun h => by cases h⟩
    · exact ⟨Maps.refl mk s, fun h => by cases h⟩
  | succ k ih =>
    intro i s hk hm
    obtain ⟨h1, h2⟩ := ih (i / 256) s (by omega) hm
    simp only [cow]
    split
    · rename_i s' e
      rw [e] at h1
      exact ⟨h1, fun h => by cases h⟩
    · rename_i s' e
      rw [e] at h1 h2
      have hp : s'.loc s'.cur k (i / 256) = some s'.cur := by
        rw [h1.cur]; exact h2 rfl
      have hl : s'.loc s'.cur (k + 1) i = (s'.un s'.cur k (i / 256)).child (i % 256) := by
        simp only [loc_walk] at hp ⊢
        rw [walk_succ, hp]
      split
      · rename_i w hw
        split
        · rename_i ew
          refine ⟨h1, fun _ => ?_⟩
          show s'.loc s.cur (k + 1) i = some s.cur
          rw [← h1.cur, hl, hw, ew]
        · have hm' : Maps mk s' (put s' k i (s'.un w (k + 1) i)) :=
            put_maps hk hp (Or.inl ⟨w, hl.trans hw, rfl⟩)
          refine ⟨h1.trans hm', fun _ => ?_⟩
          have := (put_loc (n := s'.un w (k + 1) i) hp).2.1 i
          rw [if_pos rfl, h1.cur] at this
          exact this
      · rename_i hw
        split
        · rename_i hmk
          have hm' : Maps mk s' (put s' k i (freshNode s'.cur (k + 1))) :=
            put_maps hk hp (Or.inr ⟨hmk, hl.trans hw, rfl⟩)
          refine ⟨h1.trans hm', fun _ => ?_⟩
          have := (put_loc (n := freshNode s'.cur (k + 1)) hp).2.1 i
          rw [if_pos rfl] at this
          show (put s' k i (freshNode s'.cur (k + 1))).loc s.cur (k + 1) i = some s.cur
          rw [← h1.cur]
          exact this
        · exact ⟨h1, fun h => by cases h⟩

end Silofs.Snap
