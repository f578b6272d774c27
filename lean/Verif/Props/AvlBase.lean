import Verif.Model.Avl
/-
The tree: elements in order, balance, and what insertion and deletion do to both.
-/
set_option linter.unusedSimpArgs false
set_option linter.unusedVariables false
namespace Silofs.Avl
variable {α κ : Type}

/-! ### Elements -/

/-- The elements to the left of the hole of a path -/
def pre : Path α → List α
  | [] => []
  | f :: p => pre p ++ (if f.left then [] else f.other.list ++ [f.a])

/-- and to the right -/
def post : Path α → List α
  | [] => []
  | f :: p => (if f.left then f.a :: f.other.list else []) ++ post p

theorem fill_list (f : Frame α) (b : Int) (x : T α) :
    (f.fill b x).list = (if f.left then [] else f.other.list ++ [f.a]) ++ x.list ++
      (if f.left then f.a :: f.other.list else []) := by
  unfold Frame.fill
  cases f.left <;> simp [T.list]

theorem plug_list (x : T α) (p : Path α) : (plug x p).list = pre p ++ x.list ++ post p := by
  induction p generalizing x with
  | nil => simp [plug, pre, post]
  | cons f p ih => simp [plug, pre, post, ih, fill_list]

theorem pre_append (p q : Path α) : pre (p ++ q) = pre q ++ pre p := by
  induction p with
  | nil => simp [pre]
  | cons f p ih => simp [pre, ih]

theorem post_append (p q : Path α) : post (p ++ q) = post p ++ post q := by
  induction p with
  | nil => simp [post]
  | cons f p ih => simp [post, ih]

theorem rotL_list (t t' : T α) (h : rotL t = some t') : t'.list = t.list := by
  unfold rotL at h
  split at h
  · split at h <;> (have e := (Option.some.inj h).symm; subst e; simp [T.list])
  · cases h

theorem rotR_list (t t' : T α) (h : rotR t = some t') : t'.list = t.list := by
  unfold rotR at h
  split at h
  · split at h <;> (have e := (Option.some.inj h).symm; subst e; simp [T.list])
  · cases h

theorem rotLR_list (t t' : T α) (h : rotLR t = some t') : t'.list = t.list := by
  unfold rotLR at h
  split at h
  · have e := (Option.some.inj h).symm; subst e; simp [T.list]
  · cases h

theorem rotRL_list (t t' : T α) (h : rotRL t = some t') : t'.list = t.list := by
  unfold rotRL at h
  split at h
  · have e := (Option.some.inj h).symm; subst e; simp [T.list]
  · cases h

theorem plug_congr (x y : T α) (p : Path α) (h : x.list = y.list) : (plug x p).list = (plug y p).list := by
  rw [plug_list, plug_list, h]

theorem fill_congr (f : Frame α) (b c : Int) (x : T α) : (f.fill b x).list = (f.fill c x).list := by
  rw [fill_list, fill_list]

theorem insertFixup_list (x t : T α) (p : Path α) (h : insertFixup x p = some t) : t.list = (plug x p).list := by
  induction p generalizing x with
  | nil => simp only [insertFixup, Option.some.injEq] at h; subst h; rfl
  | cons f p ih =>
    have rot : ∀ (o : Option (T α)), (∀ y, o = some y → y.list = (f.fill f.b x).list) →
        o.map (plug · p) = some t → t.list = (plug x (f :: p)).list := by
      intro o ho hm
      cases o with
      | none => cases hm
      | some y =>
        simp only [Option.map_some, Option.some.injEq] at hm
        subst hm
        exact plug_congr _ _ _ (ho y rfl)
    simp only [insertFixup] at h
    split at h
    · split at h
      · simp only [Option.some.injEq] at h
        subst h
        exact plug_congr _ _ _ (fill_congr _ _ _ _)
      · split at h
        · exact rot _ (fun y hy => rotRL_list _ _ hy) h
        · exact rot _ (fun y hy => rotL_list _ _ hy) h
    · split at h
      · split at h
        · split at h
          · exact rot _ (fun y hy => rotLR_list _ _ hy) h
          · exact rot _ (fun y hy => rotR_list _ _ hy) h
        · simp only [Option.some.injEq] at h
          subst h
          exact plug_congr _ _ _ (fill_congr _ _ _ _)
      · rw [ih _ h]
        exact plug_congr _ _ _ (fill_congr _ _ _ _)

theorem deleteFixup_list (x t : T α) (p : Path α) (h : deleteFixup x p = some t) : t.list = (plug x p).list := by
  induction p generalizing x with
  | nil => simp only [deleteFixup, Option.some.injEq] at h; subst h; rfl
  | cons f p ih =>
    simp only [deleteFixup] at h
    split at h
    · simp only [Option.some.injEq] at h
      subst h
      exact plug_congr _ _ _ (fill_congr _ _ _ _)
    · split at h
      · split at h
        · rw [ih _ h]
          exact plug_congr _ _ _ (fill_congr _ _ _ _)
        · split at h
          · cases h
          · rename_i y hy
            have hl : y.list = (f.fill f.b x).list := by
              split at hy
              · exact rotLR_list _ _ hy
              · exact rotR_list _ _ hy
            split at h
            · simp only [Option.some.injEq] at h
              subst h
              exact plug_congr _ _ _ hl
            · rw [ih _ h]
              exact plug_congr _ _ _ hl
      · split at h
        · rw [ih _ h]
          exact plug_congr _ _ _ (fill_congr _ _ _ _)
        · split at h
          · cases h
          · rename_i y hy
            have hl : y.list = (f.fill f.b x).list := by
              split at hy
              · exact rotRL_list _ _ hy
              · exact rotL_list _ _ hy
            split at h
            · simp only [Option.some.injEq] at h
              subst h
              exact plug_congr _ _ _ hl
            · rw [ih _ h]
              exact plug_congr _ _ _ hl

/-! ### Balance -/

/-- A tree of height `h` whose balance fields are right and within one. -/
def Bal : T α → Nat → Prop
  | .nil, h => h = 0
  | .node l b _ r, h => ∃ hl hr : Nat, Bal l hl ∧ Bal r hr ∧ b = (hr : Int) - hl ∧ -1 ≤ b ∧ b ≤ 1 ∧ h = max hl hr + 1

/-- A path that is balanced with a subtree of height `h` at its hole. -/
def PathBal : Path α → Nat → Prop
  | [], _ => True
  | f :: p, h => ∃ ho : Nat, Bal f.other ho ∧ f.b = (if f.left then (ho : Int) - h else (h : Int) - ho) ∧
      -1 ≤ f.b ∧ f.b ≤ 1 ∧ PathBal p (max h ho + 1)

theorem bal_mk {l r : T α} {hl hr h : Nat} {b : Int} {a : α} (bl : Bal l hl) (br : Bal r hr)
    (hb : b = (hr : Int) - hl) (h1 : -1 ≤ b) (h2 : b ≤ 1) (hh : h = max hl hr + 1) : Bal (.node l b a r) h :=
  ⟨hl, hr, bl, br, hb, h1, h2, hh⟩

theorem bal_fill {f : Frame α} {x : T α} {hx ho h : Nat} {b : Int} (bx : Bal x hx) (bo : Bal f.other ho)
    (hb : b = if f.left then (ho : Int) - hx else (hx : Int) - ho) (h1 : -1 ≤ b) (h2 : b ≤ 1)
    (hh : h = max hx ho + 1) : Bal (f.fill b x) h := by
  unfold Frame.fill
  cases hf : f.left
  · rw [hf] at hb
    simp only [Bool.false_eq_true, if_false] at hb ⊢
    exact bal_mk bo bx hb h1 h2 (by omega)
  · rw [hf] at hb
    simp only [if_true] at hb ⊢
    exact bal_mk bx bo hb h1 h2 (by omega)

theorem plug_bal {x : T α} {p : Path α} {h : Nat} (bx : Bal x h) (hp : PathBal p h) : ∃ H, Bal (plug x p) H := by
  induction p generalizing x h with
  | nil => exact ⟨h, bx⟩
  | cons f p ih =>
    obtain ⟨ho, bo, hb, h1, h2, hp⟩ := hp
    exact ih (bal_fill bx bo hb h1 h2 rfl) hp

theorem bal_pos {x : T α} {h : Nat} (bx : Bal x (h + 1)) : ∃ l b a r, x = .node l b a r := by
  cases x with
  | nil => exact absurd bx (by simp [Bal])
  | node l b a r => exact ⟨l, b, a, r, rfl⟩

theorem bal_notNil {x : T α} {h : Nat} (bx : Bal x h) (hh : h ≠ 0) : x.isNil = false := by
  cases x with
  | nil => exact absurd bx hh
  | node l b a r => rfl

/-- A subtree that has just grown is put right. -/
theorem insertFixup_bal {x : T α} {p : Path α} {h : Nat} (bx : Bal x (h + 1)) (hp : PathBal p h)
    (hx : x.bal ≠ 0 ∨ h = 0) : ∃ t H, insertFixup x p = some t ∧ Bal t H := by
  induction p generalizing x h with
  | nil => exact ⟨x, h + 1, rfl, bx⟩
  | cons f p ih =>
    obtain ⟨ho, bo, hb, h1, h2, hp⟩ := hp
    simp only [insertFixup]
    by_cases b1 : f.b = 1
    · rw [if_pos b1]
      cases hf : f.left
      · -- the taller right side has grown
        rw [hf] at hb
        simp only [Bool.false_eq_true, if_false] at hb ⊢
        have hne : x.bal ≠ 0 := by
          rcases hx with h | h
          · exact h
          · omega
        obtain ⟨l, b, a, r, e⟩ := bal_pos bx
        subst e
        obtain ⟨hl, hr, bl, br, eb, c1, c2, eh⟩ := bx
        by_cases bm : b = -1
        · rw [if_pos (show (T.node l b a r).bal = -1 from bm)]
          obtain ⟨hl', ehl⟩ : ∃ k, hl = k + 1 := ⟨hl - 1, by omega⟩
          subst ehl
          obtain ⟨l1, b', a1, r1, e⟩ := bal_pos bl
          subst e
          obtain ⟨hl1, hr1, bl1, br1, eb1, c11, c21, eh1⟩ := bl
          have hfill : f.fill f.b (.node (.node l1 b' a1 r1) b a r) =
              .node f.other f.b f.a (.node (.node l1 b' a1 r1) b a r) := by simp [Frame.fill, hf]
          rw [hfill]
          simp only [rotRL, Option.map_some]
          have : ∃ H, Bal (plug (.node (.node f.other (if b' = 1 then -1 else 0) f.a l1) 0 a1
              (.node r1 (if b' = -1 then 1 else 0) a r)) p) H := by
            have e1 : ho = max hl1 hr1 := by omega
            have e2 : hr = max hl1 hr1 := by omega
            refine plug_bal (h := max h ho + 1) (bal_mk (hl := ho + 1) (hr := ho + 1) ?_ ?_ (by omega) (by omega)
              (by omega) (by omega)) hp
            · refine bal_mk bo bl1 ?_ ?_ ?_ ?_
              all_goals (first | omega | (split <;> omega))
            · refine bal_mk br1 br ?_ ?_ ?_ ?_
              all_goals (first | omega | (split <;> omega))
          obtain ⟨H, hH⟩ := this
          exact ⟨_, H, rfl, hH⟩
        · rw [if_neg (show ¬ (T.node l b a r).bal = -1 from bm)]
          have bp : b = 1 := by
            have : b ≠ 0 := hne
            omega
          have hfill : f.fill f.b (.node l b a r) = .node f.other f.b f.a (.node l b a r) := by simp [Frame.fill, hf]
          rw [hfill]
          simp only [rotL, if_pos bp, Option.map_some]
          have : ∃ H, Bal (plug (.node (.node f.other 0 f.a l) 0 a r) p) H := by
            refine plug_bal (h := max h ho + 1) (bal_mk (hl := hl + 1) (hr := hr) ?_ br (by omega) (by omega)
              (by omega) (by omega)) hp
            exact bal_mk bo bl (by omega) (by omega) (by omega) (by omega)
          obtain ⟨H, hH⟩ := this
          exact ⟨_, H, rfl, hH⟩
      · rw [hf] at hb
        simp only [if_true] at hb ⊢
        obtain ⟨H, hH⟩ := plug_bal (p := p) (x := f.fill 0 x) (h := max h ho + 1)
          (bal_fill bx bo (by rw [hf]; simp; omega) (by omega) (by omega) (by omega)) hp
        exact ⟨_, H, rfl, hH⟩
    · rw [if_neg b1]
      by_cases bm1 : f.b = -1
      · rw [if_pos bm1]
        cases hf : f.left
        · rw [hf] at hb
          simp only [Bool.false_eq_true, if_false] at hb ⊢
          obtain ⟨H, hH⟩ := plug_bal (p := p) (x := f.fill 0 x) (h := max h ho + 1)
            (bal_fill bx bo (by rw [hf]; simp; omega) (by omega) (by omega) (by omega)) hp
          exact ⟨_, H, rfl, hH⟩
        · rw [hf] at hb
          simp only [if_true] at hb ⊢
          have hne : x.bal ≠ 0 := by
            rcases hx with h | h
            · exact h
            · omega
          obtain ⟨l, b, a, r, e⟩ := bal_pos bx
          subst e
          obtain ⟨hl, hr, bl, br, eb, c1, c2, eh⟩ := bx
          by_cases bp : b = 1
          · rw [if_pos (show (T.node l b a r).bal = 1 from bp)]
            obtain ⟨hr', ehr⟩ : ∃ k, hr = k + 1 := ⟨hr - 1, by omega⟩
            subst ehr
            obtain ⟨l1, b', a1, r1, e⟩ := bal_pos br
            subst e
            obtain ⟨hl1, hr1, bl1, br1, eb1, c11, c21, eh1⟩ := br
            have hfill : f.fill f.b (.node l b a (.node l1 b' a1 r1)) =
                .node (.node l b a (.node l1 b' a1 r1)) f.b f.a f.other := by simp [Frame.fill, hf]
            rw [hfill]
            simp only [rotLR, Option.map_some]
            have : ∃ H, Bal (plug (.node (.node l (if b' = 1 then -1 else 0) a l1) 0 a1
                (.node r1 (if b' = -1 then 1 else 0) f.a f.other)) p) H := by
              have e1 : ho = max hl1 hr1 := by omega
              have e2 : hl = max hl1 hr1 := by omega
              refine plug_bal (h := max h ho + 1) (bal_mk (hl := ho + 1) (hr := ho + 1) ?_ ?_ (by omega) (by omega)
                (by omega) (by omega)) hp
              · refine bal_mk bl bl1 ?_ ?_ ?_ ?_
                all_goals (first | omega | (split <;> omega))
              · refine bal_mk br1 bo ?_ ?_ ?_ ?_
                all_goals (first | omega | (split <;> omega))
            obtain ⟨H, hH⟩ := this
            exact ⟨_, H, rfl, hH⟩
          · rw [if_neg (show ¬ (T.node l b a r).bal = 1 from bp)]
            have bm : b = -1 := by
              have : b ≠ 0 := hne
              omega
            have hfill : f.fill f.b (.node l b a r) = .node (.node l b a r) f.b f.a f.other := by simp [Frame.fill, hf]
            rw [hfill]
            simp only [rotR, if_pos bm, Option.map_some]
            have : ∃ H, Bal (plug (.node l 0 a (.node r 0 f.a f.other)) p) H := by
              refine plug_bal (h := max h ho + 1) (bal_mk (hl := hl) (hr := hr + 1) bl ?_ (by omega) (by omega)
                (by omega) (by omega)) hp
              exact bal_mk br bo (by omega) (by omega) (by omega) (by omega)
            obtain ⟨H, hH⟩ := this
            exact ⟨_, H, rfl, hH⟩
      · rw [if_neg bm1]
        have b0 : f.b = 0 := by omega
        have e : ho = h := by
          rw [b0] at hb
          split at hb <;> omega
        subst e
        refine ih (h := ho + 1) ?_ ?_ ?_
        · refine bal_fill bx bo ?_ ?_ ?_ (by omega)
          all_goals cases f.left <;> simp <;> omega
        · have : max ho ho + 1 = ho + 1 := by omega
          rw [this] at hp
          exact hp
        · left
          unfold Frame.fill
          cases f.left <;> simp [T.bal]

/-- A subtree that has just shrunk is put right. -/
theorem deleteFixup_bal {x : T α} {p : Path α} {h : Nat} (bx : Bal x h) (hp : PathBal p (h + 1)) :
    ∃ t H, deleteFixup x p = some t ∧ Bal t H := by
  induction p generalizing x h with
  | nil => exact ⟨x, h, rfl, bx⟩
  | cons f p ih =>
    obtain ⟨ho, bo, hb, h1, h2, hp⟩ := hp
    simp only [deleteFixup]
    by_cases b0 : f.b = 0
    · rw [if_pos b0]
      have e : ho = h + 1 := by
        rw [b0] at hb
        split at hb <;> omega
      subst e
      have hn := bal_notNil bo (by omega)
      obtain ⟨H, hH⟩ := plug_bal (p := p) (x := f.fill (if f.isRight x then -1 else 1) x) (h := max (h + 1) (h + 1) + 1)
        (by
          refine bal_fill bx bo ?_ ?_ ?_ (by omega)
          all_goals simp only [Frame.isRight, hn, Bool.and_false, Bool.or_false]; cases f.left <;> simp <;> omega) hp
      exact ⟨_, H, rfl, hH⟩
    · rw [if_neg b0]
      by_cases bm : f.b = -1
      · rw [if_pos bm]
        cases hf : f.left
        · -- shrunk on the right, the left is taller
          rw [hf] at hb
          simp only [Bool.false_eq_true, if_false] at hb
          obtain ⟨k, ek⟩ : ∃ k, ho = k + 1 := ⟨ho - 1, by omega⟩
          subst ek
          have hn := bal_notNil bo (by omega)
          have hil : f.isLeft x = false := by simp [Frame.isLeft, hf, hn]
          rw [hil]
          simp only [Bool.false_eq_true, if_false]
          obtain ⟨l, b, a, r, e⟩ := bal_pos bo
          rw [e] at bo ⊢
          obtain ⟨hl, hr, bl, br, eb, c1, c2, eh⟩ := bo
          have hfill : f.fill f.b x = .node (.node l b a r) f.b f.a x := by simp [Frame.fill, hf, e]
          rw [hfill]
          by_cases bp : b = 1
          · rw [if_pos (show (T.node l b a r).bal = 1 from bp)]
            obtain ⟨hr', ehr⟩ : ∃ k, hr = k + 1 := ⟨hr - 1, by omega⟩
            subst ehr
            obtain ⟨l1, b', a1, r1, e⟩ := bal_pos br
            subst e
            obtain ⟨hl1, hr1, bl1, br1, eb1, c11, c21, eh1⟩ := br
            simp only [rotLR, T.bal, show ((0:Int) = 1) = False by simp, if_false]
            have e1 : h = max hl1 hr1 := by omega
            have e2 : hl = max hl1 hr1 := by omega
            refine ih (h := h + 2) (bal_mk (hl := h + 1) (hr := h + 1) ?_ ?_ (by omega) (by omega)
                (by omega) (by omega)) ?_
            · refine bal_mk bl bl1 ?_ ?_ ?_ ?_
              all_goals (first | omega | (split <;> omega))
            · refine bal_mk br1 bx ?_ ?_ ?_ ?_
              all_goals (first | omega | (split <;> omega))
            · have : max (h + 1) (k + 1) + 1 = h + 2 + 1 := by omega
              rw [this] at hp
              exact hp
          · rw [if_neg (show ¬ (T.node l b a r).bal = 1 from bp)]
            simp only [rotR]
            by_cases bn : b = -1
            · simp only [if_pos bn, T.bal, show ((0:Int) = 1) = False by simp, if_false]
              refine ih (h := h + 2) (bal_mk (hl := hl) (hr := hr + 1) bl ?_ (by omega) (by omega)
                (by omega) (by omega)) ?_
              · exact bal_mk br bx (by omega) (by omega) (by omega) (by omega)
              · have : max (h + 1) (k + 1) + 1 = h + 2 + 1 := by omega
                rw [this] at hp
                exact hp
            · simp only [if_neg bn, T.bal, if_true]
              obtain ⟨H, hH⟩ := plug_bal (p := p) (x := .node l 1 a (.node r (-1) f.a x)) (h := max (h + 1) (k + 1) + 1)
                (bal_mk (hl := hl) (hr := hr + 1) bl (bal_mk br bx (by omega) (by omega) (by omega) (by omega))
                  (by omega) (by omega) (by omega) (by omega)) hp
              exact ⟨_, H, rfl, hH⟩
        · rw [hf] at hb
          simp only [if_true] at hb
          have hil : f.isLeft x = true := by simp [Frame.isLeft, hf]
          rw [hil]
          simp only [if_true]
          refine ih (h := h + 1) (bal_fill bx bo (by rw [hf]; simp; omega) (by omega) (by omega) (by omega)) ?_
          have : max (h + 1) ho + 1 = h + 1 + 1 := by omega
          rw [this] at hp
          exact hp
      · rw [if_neg bm]
        cases hf : f.left
        · rw [hf] at hb
          simp only [Bool.false_eq_true, if_false] at hb
          have hil : f.isRight x = true := by simp [Frame.isRight, hf]
          rw [hil]
          simp only [if_true]
          refine ih (h := h + 1) (bal_fill bx bo (by rw [hf]; simp; omega) (by omega) (by omega) (by omega)) ?_
          have : max (h + 1) ho + 1 = h + 1 + 1 := by omega
          rw [this] at hp
          exact hp
        · rw [hf] at hb
          simp only [if_true] at hb
          obtain ⟨k, ek⟩ : ∃ k, ho = k + 1 := ⟨ho - 1, by omega⟩
          subst ek
          have hn := bal_notNil bo (by omega)
          have hil : f.isRight x = false := by simp [Frame.isRight, hf, hn]
          rw [hil]
          simp only [Bool.false_eq_true, if_false]
          obtain ⟨l, b, a, r, e⟩ := bal_pos bo
          rw [e] at bo ⊢
          obtain ⟨hl, hr, bl, br, eb, c1, c2, eh⟩ := bo
          have hfill : f.fill f.b x = .node x f.b f.a (.node l b a r) := by simp [Frame.fill, hf, e]
          rw [hfill]
          by_cases bp : b = -1
          · rw [if_pos (show (T.node l b a r).bal = -1 from bp)]
            obtain ⟨hl', ehl⟩ : ∃ k, hl = k + 1 := ⟨hl - 1, by omega⟩
            subst ehl
            obtain ⟨l1, b', a1, r1, e⟩ := bal_pos bl
            subst e
            obtain ⟨hl1, hr1, bl1, br1, eb1, c11, c21, eh1⟩ := bl
            simp only [rotRL, T.bal, show ((0:Int) = -1) = False by simp, if_false]
            have e1 : h = max hl1 hr1 := by omega
            have e2 : hr = max hl1 hr1 := by omega
            refine ih (h := h + 2) (bal_mk (hl := h + 1) (hr := h + 1) ?_ ?_ (by omega) (by omega)
                (by omega) (by omega)) ?_
            · refine bal_mk bx bl1 ?_ ?_ ?_ ?_
              all_goals (first | omega | (split <;> omega))
            · refine bal_mk br1 br ?_ ?_ ?_ ?_
              all_goals (first | omega | (split <;> omega))
            · have : max (h + 1) (k + 1) + 1 = h + 2 + 1 := by omega
              rw [this] at hp
              exact hp
          · rw [if_neg (show ¬ (T.node l b a r).bal = -1 from bp)]
            simp only [rotL]
            by_cases bn : b = 1
            · simp only [if_pos bn, T.bal, show ((0:Int) = -1) = False by simp, if_false]
              refine ih (h := h + 2) (bal_mk (hl := hl + 1) (hr := hr) ?_ br (by omega) (by omega)
                (by omega) (by omega)) ?_
              · exact bal_mk bx bl (by omega) (by omega) (by omega) (by omega)
              · have : max (h + 1) (k + 1) + 1 = h + 2 + 1 := by omega
                rw [this] at hp
                exact hp
            · simp only [if_neg bn, T.bal, if_true]
              obtain ⟨H, hH⟩ := plug_bal (p := p) (x := .node (.node x 1 f.a l) (-1) a r) (h := max (h + 1) (k + 1) + 1)
                (bal_mk (hl := hl + 1) (hr := hr) (bal_mk bx bl (by omega) (by omega) (by omega) (by omega)) br
                  (by omega) (by omega) (by omega) (by omega)) hp
              exact ⟨_, H, rfl, hH⟩

/-- A balanced tree of height `h` has at least `2^(h/2) - 1` elements. -/
theorem bal_height {t : T α} {h : Nat} (bt : Bal t h) : 2 ^ (h / 2) ≤ t.list.length + 1 := by
  induction t generalizing h with
  | nil =>
    have : h = 0 := bt
    subst this
    simp
  | node l b a r ihl ihr =>
    obtain ⟨hl, hr, bl, br, eb, c1, c2, eh⟩ := bt
    have il := ihl bl
    have ir := ihr br
    have len : (T.node l b a r).list.length + 1 = (l.list.length + 1) + (r.list.length + 1) := by
      simp [T.list]; omega
    rw [len]
    have hpow : ∀ x y : Nat, x ≤ y → (2 : Nat) ^ x ≤ 2 ^ y := fun x y h => Nat.pow_le_pow_right (by decide) h
    by_cases h2 : 2 ≤ h
    · have e : h / 2 = (h - 2) / 2 + 1 := by omega
      have p1 : (2 : Nat) ^ ((h - 2) / 2) ≤ 2 ^ (hl / 2) := hpow _ _ (by omega)
      have p2 : (2 : Nat) ^ ((h - 2) / 2) ≤ 2 ^ (hr / 2) := hpow _ _ (by omega)
      rw [e, Nat.pow_succ]
      omega
    · have e : h / 2 = 0 := by omega
      rw [e]
      simp
      omega

/-! ### Places -/

theorem searchLeaf_spec (cmp : κ → κ → Int) (key : α → κ) (z : α) (t : T α) (p : Path α) :
    (pre (searchLeaf cmp key z t p) ++ post (searchLeaf cmp key z t p) = pre p ++ t.list ++ post p) ∧
    (∀ h, Bal t h → PathBal p h → PathBal (searchLeaf cmp key z t p) 0) := by
  induction t generalizing p with
  | nil =>
    refine ⟨by simp [searchLeaf, T.list], fun h bt hp => ?_⟩
    have : h = 0 := bt
    subst this
    exact hp
  | node l b a r ihl ihr =>
    simp only [searchLeaf]
    split
    · obtain ⟨e, q⟩ := ihl (⟨true, b, a, r⟩ :: p)
      refine ⟨by rw [e]; simp [pre, post, T.list], fun h bt hp => ?_⟩
      obtain ⟨hl, hr, bl, br, eb, c1, c2, eh⟩ := bt
      exact q hl bl ⟨hr, br, by simpa using eb, c1, c2, by rw [← eh]; exact hp⟩
    · obtain ⟨e, q⟩ := ihr (⟨false, b, a, l⟩ :: p)
      refine ⟨by rw [e]; simp [pre, post, T.list], fun h bt hp => ?_⟩
      obtain ⟨hl, hr, bl, br, eb, c1, c2, eh⟩ := bt
      exact q hr br ⟨hl, bl, by simpa using eb, c1, c2, by rw [Nat.max_comm, ← eh]; exact hp⟩

theorem minimum_spec (t : T α) (p : Path α) (h : Nat) (bt : Bal t h) (hp : PathBal p h) (hn : t.isNil = false) :
    ∃ y yr q hy, minimum t p = some (y, yr, q) ∧ Bal yr hy ∧ PathBal q (hy + 1) ∧
      pre q ++ y :: yr.list ++ post q = pre p ++ t.list ++ post p ∧ (∃ q', q = q' ++ p ∧ pre q' = []) := by
  induction t generalizing p h with
  | nil => cases hn
  | node l b a r ihl ihr =>
    obtain ⟨hl, hr, bl, br, eb, c1, c2, eh⟩ := bt
    cases l with
    | nil =>
      have : hl = 0 := bl
      subst this
      refine ⟨a, r, p, hr, rfl, br, ?_, by simp [T.list], [], by simp, rfl⟩
      have : h = hr + 1 := by omega
      rw [← this]
      exact hp
    | node l1 b1 a1 r1 =>
      simp only [minimum]
      obtain ⟨y, yr, q, hy, e, by', hq, el, q', eq', eq''⟩ := ihl (⟨true, b, a, r⟩ :: p) hl bl
        ⟨hr, br, by simpa using eb, c1, c2, by rw [← eh]; exact hp⟩ rfl
      refine ⟨y, yr, q, hy, e, by', hq, ?_, q' ++ [⟨true, b, a, r⟩], by simp [eq'], ?_⟩
      · rw [el]; simp [pre, post, T.list]
      · rw [pre_append, eq'']; simp [pre]

theorem minimum_path (t : T α) (q p : Path α) (y : α) (yr : T α) (q' : Path α) (h : minimum t q = some (y, yr, q')) :
    minimum t (q ++ p) = some (y, yr, q' ++ p) := by
  induction t generalizing q with
  | nil => cases h
  | node l b a r ihl ihr =>
    cases l with
    | nil =>
      simp only [minimum, Option.some.injEq, Prod.mk.injEq] at h ⊢
      obtain ⟨h1, h2, h3⟩ := h
      exact ⟨h1, h2, by rw [h3]⟩
    | node l1 b1 a1 r1 => exact ihl (⟨true, b, a, r⟩ :: q) h

theorem minimum_some (t : T α) (p : Path α) (h : t.isNil = false) : ∃ y yr q, minimum t p = some (y, yr, q) := by
  induction t generalizing p with
  | nil => cases h
  | node l b a r ihl ihr =>
    cases l with
    | nil => exact ⟨a, r, p, rfl⟩
    | node l1 b1 a1 r1 => exact ihl _ rfl

theorem isNil_list (t : T α) (h : t.isNil = true) : t.list = [] := by
  cases t with
  | nil => rfl
  | node l b a r => cases h

theorem isNil_bal (t : T α) (h : t.isNil = true) : t = .nil := by
  cases t with
  | nil => rfl
  | node l b a r => cases h

/-- Deletion of a node of a balanced tree succeeds, keeps the balance, and takes out that element only. -/
theorem delete_spec {l r : T α} {b : Int} {z : α} {p : Path α} {h : Nat} (bt : Bal (.node l b z r) h) (hp : PathBal p h) :
    ∃ t H, delete l b r p = some t ∧ Bal t H ∧ t.list = pre p ++ l.list ++ r.list ++ post p := by
  obtain ⟨hl, hr, bl, br, eb, c1, c2, eh⟩ := bt
  unfold delete
  by_cases nl : l.isNil = true
  · rw [if_pos nl]
    have el := isNil_bal l nl
    subst el
    have : hl = 0 := bl
    obtain ⟨t, H, e, bt⟩ := deleteFixup_bal (p := p) br (by rw [show hr + 1 = h by omega]; exact hp)
    refine ⟨t, H, e, bt, ?_⟩
    rw [deleteFixup_list _ _ _ e, plug_list]
    simp [T.list]
  · rw [if_neg nl]
    by_cases nr : r.isNil = true
    · rw [if_pos nr]
      have er := isNil_bal r nr
      subst er
      have : hr = 0 := br
      obtain ⟨t, H, e, bt⟩ := deleteFixup_bal (p := p) bl (by rw [show hl + 1 = h by omega]; exact hp)
      refine ⟨t, H, e, bt, ?_⟩
      rw [deleteFixup_list _ _ _ e, plug_list]
      simp [T.list]
    · rw [if_neg nr]
      have nr' : r.isNil = false := by simpa using nr
      obtain ⟨y, yr, q, e⟩ := minimum_some r [] nr'
      simp only [e]
      have e2 := minimum_path r [] (⟨false, b, y, l⟩ :: p) y yr q e
      rw [List.nil_append] at e2
      obtain ⟨y', yr', q', hy, e3, by', hq, el, _⟩ := minimum_spec r (⟨false, b, y, l⟩ :: p) hr br
        ⟨hl, bl, by simpa using eb, c1, c2, by rw [Nat.max_comm, ← eh]; exact hp⟩ nr'
      rw [e2] at e3
      simp only [Option.some.injEq, Prod.mk.injEq] at e3
      obtain ⟨h1, h2, h3⟩ := e3
      subst h1 h2 h3
      obtain ⟨t, H, e, bt⟩ := deleteFixup_bal by' hq
      refine ⟨t, H, e, bt, ?_⟩
      rw [deleteFixup_list _ _ _ e, plug_list]
      -- the successor is the first element of the right subtree
      obtain ⟨y0, yr0, q0, hy0, e0, _, _, el0, q0', eq0, ep0⟩ := minimum_spec r [] hr br trivial nr'
      rw [‹minimum r [] = some (y, yr, q)›] at e0
      simp only [Option.some.injEq, Prod.mk.injEq] at e0
      obtain ⟨h1, h2, h3⟩ := e0
      subst h1 h2 h3
      have pq : pre q = [] := by rw [eq0, pre_append, ep0]; rfl
      rw [pq] at el0
      simp only [pre, post, List.nil_append, List.append_nil] at el0
      rw [pre_append, post_append, pq, ← el0]
      simp [pre, post]

theorem locate_spec [DecidableEq α] (z : α) (t : T α) (p : Path α) (hz : z ∈ t.list) :
    ∃ l b r q, locate z t p = some (l, b, r, q) ∧ pre q ++ l.list ++ z :: r.list ++ post q = pre p ++ t.list ++ post p ∧
      (∀ h, Bal t h → PathBal p h → ∃ h', Bal (.node l b z r) h' ∧ PathBal q h') := by
  induction t generalizing p with
  | nil => cases hz
  | node l b a r ihl ihr =>
    simp only [locate]
    by_cases ea : a = z
    · subst ea
      rw [if_pos rfl]
      exact ⟨l, b, r, p, rfl, by simp [T.list], fun h bt hp => ⟨h, bt, hp⟩⟩
    · rw [if_neg ea]
      by_cases hl : z ∈ l.list
      · obtain ⟨l', b', r', q, e, el, eb⟩ := ihl (⟨true, b, a, r⟩ :: p) hl
        rw [e]
        refine ⟨l', b', r', q, rfl, by rw [el]; simp [pre, post, T.list], ?_⟩
        rintro h ⟨hl, hr, bl, br, eb', c1, c2, eh⟩ hp
        exact eb hl bl ⟨hr, br, by simpa using eb', c1, c2, by rw [← eh]; exact hp⟩
      · have hn : locate z l (⟨true, b, a, r⟩ :: p) = none := by
          have : ∀ (t : T α) (p : Path α), z ∉ t.list → locate z t p = none := by
            intro t
            induction t with
            | nil => intros; rfl
            | node l b a r ihl ihr =>
              intro p h
              simp only [T.list, List.mem_append, List.mem_cons, not_or] at h
              simp only [locate]
              rw [if_neg (fun e => h.2.1 e.symm), ihl _ h.1, ihr _ h.2.2]
          exact this _ _ hl
        rw [hn]
        have hr : z ∈ r.list := by
          simp only [T.list, List.mem_append, List.mem_cons] at hz
          rcases hz with h | h | h
          · exact absurd h hl
          · exact absurd h.symm ea
          · exact h
        obtain ⟨l', b', r', q, e, el, eb⟩ := ihr (⟨false, b, a, l⟩ :: p) hr
        refine ⟨l', b', r', q, e, by rw [el]; simp [pre, post, T.list], ?_⟩
        rintro h ⟨hl, hr, bl, br, eb', c1, c2, eh⟩ hp
        exact eb hr br ⟨hl, bl, by simpa using eb', c1, c2, by rw [Nat.max_comm, ← eh]; exact hp⟩

/-! ### Neighbours -/

theorem minOf_head (t : T α) : minOf t = t.list.head? := by
  induction t with
  | nil => rfl
  | node l b a r ihl ihr =>
    cases l with
    | nil => rfl
    | node l1 b1 a1 r1 =>
      simp only [minOf]
      rw [ihl]
      simp [T.list]

theorem maxOf_last (t : T α) : maxOf t = t.list.getLast? := by
  induction t with
  | nil => rfl
  | node l b a r ihl ihr =>
    cases r with
    | nil => simp [maxOf, T.list]
    | node l1 b1 a1 r1 =>
      simp only [maxOf]
      rw [ihr]
      simp [T.list, List.getLast?_append, List.getLast?_cons]

theorem upRight_head (p : Path α) : upRight p = (post p).head? := by
  induction p with
  | nil => rfl
  | cons f p ih =>
    simp only [upRight, post]
    cases f.left
    · simpa using ih
    · simp

theorem upLeft_last (p : Path α) : upLeft p = (pre p).getLast? := by
  induction p with
  | nil => rfl
  | cons f p ih =>
    simp only [upLeft, pre]
    cases f.left
    · simp
    · simpa using ih

theorem succ_head (r : T α) (p : Path α) : succ r p = (r.list ++ post p).head? := by
  unfold succ
  cases r with
  | nil => simp [T.isNil, T.list, upRight_head]
  | node l b a r =>
    simp only [T.isNil, Bool.false_eq_true, if_false]
    rw [minOf_head]
    simp only [T.list]
    cases l.list <;> rfl

theorem pred_last (l : T α) (p : Path α) : pred l p = (pre p ++ l.list).getLast? := by
  unfold pred
  cases l with
  | nil => simp [T.isNil, T.list, upLeft_last]
  | node l b a r =>
    simp only [T.isNil, Bool.false_eq_true, if_false]
    rw [maxOf_last]
    simp [T.list, List.getLast?_append, List.getLast?_cons]

/-- In a list without repetition an element has one place. -/
theorem split_unique {z : α} {u v u' v' : List α} (hu : z ∉ u) (hu' : z ∉ u') (h : u ++ z :: v = u' ++ z :: v') :
    u = u' ∧ v = v' := by
  induction u generalizing u' with
  | nil =>
    cases u' with
    | nil => exact ⟨rfl, (List.cons.inj h).2⟩
    | cons x xs =>
      have := (List.cons.inj h).1
      exact absurd (this ▸ List.mem_cons_self) hu'
  | cons y ys ih =>
    cases u' with
    | nil =>
      have := (List.cons.inj h).1
      exact absurd (this ▸ List.mem_cons_self) hu
    | cons x xs =>
      obtain ⟨e1, e2⟩ := List.cons.inj h
      obtain ⟨e3, e4⟩ := ih (fun m => hu (List.mem_cons_of_mem _ m)) (fun m => hu' (List.mem_cons_of_mem _ m)) e2
      exact ⟨by rw [e1, e3], e4⟩

theorem nodup_split {z : α} {u v : List α} (h : (u ++ z :: v).Nodup) : z ∉ u ∧ z ∉ v := by
  rw [List.nodup_append] at h
  obtain ⟨h1, h2, h3⟩ := h
  exact ⟨fun m => h3 z m z List.mem_cons_self rfl, (List.nodup_cons.1 h2).1⟩

theorem locate_split [DecidableEq α] {z : α} {t : T α} {u v : List α} (h : t.list = u ++ z :: v) (hn : t.list.Nodup) :
    ∃ l b r q, locate z t [] = some (l, b, r, q) ∧ pre q ++ l.list = u ∧ r.list ++ post q = v ∧
      (∀ h, Bal t h → ∃ h', Bal (.node l b z r) h' ∧ PathBal q h') := by
  obtain ⟨l, b, r, q, e, el, eb⟩ := locate_spec z t [] (by rw [h]; simp)
  simp only [pre, post, List.nil_append, List.append_nil] at el
  have el' : (pre q ++ l.list) ++ z :: (r.list ++ post q) = u ++ z :: v := by rw [← h, ← el]; simp
  obtain ⟨e1, e2⟩ := split_unique (nodup_split (el' ▸ h ▸ hn)).1 (nodup_split (h ▸ hn)).1 el'
  exact ⟨l, b, r, q, e, e1, e2, fun h bt => eb h bt trivial⟩

theorem next_spec [DecidableEq α] {z : α} {t : T α} {u v : List α} (h : t.list = u ++ z :: v) (hn : t.list.Nodup) :
    t.next z = v.head? := by
  obtain ⟨l, b, r, q, e, e1, e2, _⟩ := locate_split h hn
  unfold T.next
  rw [e]
  simp only
  rw [succ_head, e2]

theorem prev_spec [DecidableEq α] {z : α} {t : T α} {u v : List α} (h : t.list = u ++ z :: v) (hn : t.list.Nodup) :
    t.prev z = u.getLast? := by
  obtain ⟨l, b, r, q, e, e1, e2, _⟩ := locate_split h hn
  unfold T.prev
  rw [e]
  simp only
  rw [pred_last, e1]

end Silofs.Avl
