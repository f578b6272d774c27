import Verif.Props.DirInv
/-
C08: a directory is a map from names to inodes.
-/
set_option linter.unusedSimpArgs false
set_option linter.unusedVariables false
namespace Silofs.Dir

/-- The specification: a map from names to (inode, type), changed only by the
operations that reported success. -/
abbrev NameMap := Name → Option (Nat × Nat)

def specStep (m : NameMap) : Op → Res Unit → NameMap
  | .add nm ino dt, .ok _ => fun x => if x = nm then some (ino, dt) else m x
  | .remove nm, .ok _ => fun x => if x = nm then none else m x
  | _, _ => m

def specRun (m : NameMap) : List (Op × Orc) → List (Res Unit) → NameMap
  | (op, _) :: ops, r :: rs => specRun (specStep m op r) ops rs
  | _, _ => m

/-- The entries of `d` are those of `m`. -/
def Repr (d : Dir) (m : NameMap) : Prop :=
  ∀ nm ino dt, m nm = some (ino, dt) ↔
    ∃ i s e, EntAt d.nodes i s e ∧ e.name = nm ∧ e.ino = ino ∧ e.dt = dt

theorem Repr.fresh (h : Name → Nat) : Repr (Dir.fresh h) (fun _ => none) := by
  intro nm ino dt; simp [Dir.fresh, EntAt]

theorem Repr.none_iff {d : Dir} {m : NameMap} (hr : Repr d m) (nm : Name) :
    m nm = none ↔ ∀ i s e, EntAt d.nodes i s e → e.name ≠ nm := by
  constructor
  · intro h i s e he hne
    have := (hr nm e.ino e.dt).2 ⟨i, s, e, he, hne, rfl, rfl⟩
    rw [h] at this; simp at this
  · intro h
    cases hm : m nm with
    | none => rfl
    | some v =>
      obtain ⟨i, s, e, he, hne, _⟩ := (hr nm v.1 v.2).1 hm
      exact absurd hne (h i s e he)

theorem Repr.added {d d' : Dir} {m : NameMap} (hr : Repr d m) {nm : Name} {ino dt : Nat}
    (ha : Added d d' nm ino dt) (hno : m nm = none) :
    Repr d' (fun x => if x = nm then some (ino, dt) else m x) := by
  intro x ino' dt'
  obtain ⟨i, s, _, hE⟩ := ha.eff
  simp only [hE]
  by_cases hx : x = nm
  · subst hx
    simp only [if_true, Option.some.injEq, Prod.mk.injEq]
    have hno' := (hr.none_iff x).1 hno
    constructor
    · rintro ⟨rfl, rfl⟩; exact ⟨i, s, _, Or.inr ⟨rfl, rfl, rfl⟩, rfl, rfl, rfl⟩
    · rintro ⟨j, t, e, he | ⟨_, _, rfl⟩, h1, h2, h3⟩
      · exact absurd h1 (hno' j t e he)
      · exact ⟨h2, h3⟩
  · simp only [hx, if_false, hr x ino' dt']
    constructor
    · rintro ⟨j, t, e, he, h⟩; exact ⟨j, t, e, Or.inl he, h⟩
    · rintro ⟨j, t, e, he | ⟨_, _, rfl⟩, h1, h2⟩
      · exact ⟨j, t, e, he, h1, h2⟩
      · exact absurd h1.symm hx

theorem Repr.removed {d d' : Dir} {m : NameMap} (hv : Inv d) (hr : Repr d m) {nm : Name}
    (ha : Removed d d' nm) : Repr d' (fun x => if x = nm then none else m x) := by
  intro x ino' dt'
  obtain ⟨i, s, e0, he0, hne0, hE⟩ := ha.eff
  simp only [hE]
  by_cases hx : x = nm
  · subst hx
    simp only [if_true]
    constructor
    · intro h; simp at h
    · rintro ⟨j, t, e, ⟨he, hn⟩, h1, _⟩
      exact absurd (hv.uniq _ _ _ _ _ _ he he0 (h1.trans hne0.symm)) hn
  · simp only [hx, if_false, hr x ino' dt']
    constructor
    · rintro ⟨j, t, e, he, h1, h2⟩
      refine ⟨j, t, e, ⟨he, ?_⟩, h1, h2⟩
      rintro ⟨rfl, rfl⟩
      have := EntAt.unique he he0
      subst this
      exact hx (h1.symm.trans hne0)
    · rintro ⟨j, t, e, ⟨he, _⟩, h⟩; exact ⟨j, t, e, he, h⟩

theorem Repr.same {d d' : Dir} {m : NameMap} (hr : Repr d m) (ha : Same d d') : Repr d' m := by
  intro x ino' dt'
  simp only [ha.eff]
  exact hr x ino' dt'

theorem lookup_spec {d : Dir} (hv : Inv d) {m : NameMap} (hr : Repr d m) (o : Orc) (nm : Name)
    (hl1 : 1 ≤ nm.length) (hl2 : nm.length ≤ 255) :
    (∃ v, d.lookup o nm = .ok v ∧ m nm = some v) ∨
    (d.lookup o nm = .enoent ∧ m nm = none) ∨
    (d.lookup o nm = .eio ∧ ∃ q, o.stage q = true) ∨
    (d.lookup o nm = .die ∧ m nm = none ∧ ∃ n, d.nodes (pathIdx (d.hash nm) 4) = some n) := by
  unfold Dir.lookup
  rcases find_spec hv o nm hl1 hl2 with ⟨i, s, e, h, he, hne⟩ | ⟨h, hno⟩ | ⟨h, hq⟩ | ⟨h, hn, hno⟩
  · rw [h]; left
    exact ⟨_, rfl, (hr nm e.ino e.dt).2 ⟨i, s, e, he, hne, rfl, rfl⟩⟩
  · rw [h]; right; left; exact ⟨rfl, (hr.none_iff nm).2 hno⟩
  · rw [h]; right; right; left; exact ⟨rfl, hq⟩
  · rw [h]; right; right; right; exact ⟨rfl, (hr.none_iff nm).2 hno, hn⟩

/-- One operation keeps directory and map in step. -/
theorem step_spec {d : Dir} (hv : Inv d) {m : NameMap} (hr : Repr d m) (o : Orc) (op : Op)
    (hd : o.drop = false) :
    Inv (step d o op).2 ∧ Repr (step d o op).2 (specStep m op (step d o op).1) ∧
    (step d o op).1 ≠ .undef := by
  cases op with
  | add nm ino dt =>
    simp only [step, Dir.add]
    by_cases hl : nm.length = 0 ∨ 255 < nm.length
    · unfold Dir.lookup
      rcases find_badname d o nm hl with h | h <;> rw [h] <;> exact ⟨hv, hr, by simp⟩
    · rcases lookup_spec hv hr o nm (by omega) (by omega) with ⟨v, h, _⟩ | ⟨h, hm⟩ | ⟨h, _⟩ | ⟨h, _⟩
      · rw [h]; exact ⟨hv, hr, by simp⟩
      · rw [h]; simp only
        split
        · exact ⟨hv, hr, by simp⟩
        · rcases addDentry_spec hv o nm ino dt (by omega) (by omega) ((hr.none_iff nm).1 hm) with
            ⟨h1, h2⟩ | ⟨h1, h2⟩ | ⟨h1, _⟩
          · rw [h1]; exact ⟨h2.inv, hr.added h2 hm, by simp⟩
          · simp only [List.mem_cons, List.not_mem_nil, or_false] at h1
            rcases h1 with h1 | h1 <;> rw [h1] <;> exact ⟨h2.inv, hr.same h2, by simp⟩
          · rw [h1]; exact ⟨hv, hr, by simp⟩
      · rw [h]; exact ⟨hv, hr, by simp⟩
      · rw [h]; exact ⟨hv, hr, by simp⟩
  | remove nm =>
    simp only [step]
    by_cases hl : nm.length = 0 ∨ 255 < nm.length
    · unfold Dir.remove
      rcases find_badname d o nm hl with h | h <;> rw [h] <;> exact ⟨hv, hr, by simp⟩
    · rcases remove_spec hv o nm (by omega) (by omega) hd with ⟨h1, h2⟩ | ⟨h1, h2⟩
      · rw [h1]; exact ⟨h2.inv, hr.removed hv h2, by simp⟩
      · rw [h1]
        rcases h2 with h2 | h2 | h2
        · rw [h2]; exact ⟨hv, hr, by simp⟩
        · rw [h2.1]; exact ⟨hv, hr, by simp⟩
        · rw [h2.1]; exact ⟨hv, hr, by simp⟩

theorem run_spec {d : Dir} (hv : Inv d) {m : NameMap} (hr : Repr d m) (ops : List (Op × Orc))
    (hd : ∀ x ∈ ops, x.2.drop = false) :
    Inv (run d ops).2 ∧ Repr (run d ops).2 (specRun m ops (run d ops).1) ∧
    ∀ r ∈ (run d ops).1, r ≠ .undef := by
  induction ops generalizing d m with
  | nil => exact ⟨hv, hr, by simp [run]⟩
  | cons x ops ih =>
    obtain ⟨op, o⟩ := x
    have h1 := step_spec hv hr o op (hd (op, o) (by simp))
    have h2 := ih h1.1 h1.2.1 (fun y hy => hd y (by simp [hy]))
    refine ⟨h2.1, h2.2.1, ?_⟩
    intro r hr'
    simp only [run, List.mem_cons] at hr'
    rcases hr' with rfl | hr'
    · exact h1.2.2
    · exact h2.2.2 r hr'

/-- C08 (partial).  After any history of additions and removals, with any hash
function and any pattern of I/O and allocation failures, a lookup of a valid
name either reports exactly what the map of successful operations holds, or an
I/O error because a node could not be read.  Missing w.r.t. the full property:
(1) the lookup of an absent name may kill the process when the path of its hash
reaches a node of depth 4 (`C08_lookup_dies_violated`); (2) histories where
freeing the tree of the last removed entry fails are excluded
(`C08_remove_error_violated`). -/
theorem C08_map_partial (hash : Name → Nat) (ops : List (Op × Orc))
    (hd : ∀ x ∈ ops, x.2.drop = false) (nm : Name) (h1 : 1 ≤ nm.length) (h2 : nm.length ≤ 255) (o : Orc) :
    let d := (run (Dir.fresh hash) ops).2
    let m := specRun (fun _ => none) ops (run (Dir.fresh hash) ops).1
    (∃ v, d.lookup o nm = .ok v ∧ m nm = some v) ∨
    (d.lookup o nm = .enoent ∧ m nm = none) ∨
    (d.lookup o nm = .eio ∧ ∃ q, o.stage q = true) ∨
    (d.lookup o nm = .die ∧ m nm = none ∧ ∃ i n, d.nodes i = some n ∧ depth i = 4) := by
  have h := run_spec (Inv.fresh hash) (Repr.fresh hash) ops hd
  rcases lookup_spec h.1 h.2.1 o nm h1 h2 with a | a | a | ⟨a, b, n, c⟩
  · exact Or.inl a
  · exact Or.inr (Or.inl a)
  · exact Or.inr (Or.inr (Or.inl a))
  · exact Or.inr (Or.inr (Or.inr ⟨a, b, _, n, c, pathIdx_depth _ _⟩))

/-- Names that are present are always found when all nodes are readable, no
matter how deep the tree is. -/
theorem C08_present (hash : Name → Nat) (ops : List (Op × Orc))
    (hd : ∀ x ∈ ops, x.2.drop = false) (nm : Name) (h1 : 1 ≤ nm.length) (h2 : nm.length ≤ 255)
    (o : Orc) (ho : ∀ q, o.stage q = false) (v : Nat × Nat)
    (hm : specRun (fun _ => none) ops (run (Dir.fresh hash) ops).1 nm = some v) :
    (run (Dir.fresh hash) ops).2.lookup o nm = .ok v := by
  rcases C08_map_partial hash ops hd nm h1 h2 o with ⟨w, a, b⟩ | ⟨_, b⟩ | ⟨_, q, b⟩ | ⟨_, b, _⟩
  · rw [hm] at b; cases b; exact a
  · rw [hm] at b; simp at b
  · rw [ho q] at b; simp at b
  · rw [hm] at b; simp at b

/-- The directory's entry count is the number of names in the map: the names
present can be listed without repetition in a list of that length. -/
theorem C08_count (hash : Name → Nat) (ops : List (Op × Orc)) (hd : ∀ x ∈ ops, x.2.drop = false) :
    ∃ names : List Name, names.Nodup ∧ names.length = (run (Dir.fresh hash) ops).2.ndents ∧
      ∀ nm, nm ∈ names ↔ specRun (fun _ => none) ops (run (Dir.fresh hash) ops).1 nm ≠ none := by
  have h := run_spec (Inv.fresh hash) (Repr.fresh hash) ops hd
  revert h
  generalize (run (Dir.fresh hash) ops).2 = d
  generalize specRun (fun _ => none) ops (run (Dir.fresh hash) ops).1 = m
  rintro ⟨hv, hr, _⟩
  obtain ⟨L, a, b, c⟩ := hv.count
  -- map every (node, slot) to the name stored there
  have key : ∀ K : List (Nat × Nat), K.Nodup → (∀ p ∈ K, ∃ e, EntAt d.nodes p.1 p.2 e) →
      ∃ names : List Name, names.Nodup ∧ names.length = K.length ∧
        ∀ nm, nm ∈ names ↔ ∃ p ∈ K, ∃ e, EntAt d.nodes p.1 p.2 e ∧ e.name = nm := by
    intro K
    induction K with
    | nil => intro _ _; exact ⟨[], by simp, rfl, by simp⟩
    | cons p K ih =>
      intro hnd hall
      rw [List.nodup_cons] at hnd
      obtain ⟨names, n1, n2, n3⟩ := ih hnd.2 (fun q hq => hall q (by simp [hq]))
      obtain ⟨e, he⟩ := hall p (by simp)
      refine ⟨e.name :: names, ?_, by simp [n2], ?_⟩
      · rw [List.nodup_cons]
        refine ⟨?_, n1⟩
        rw [n3]
        rintro ⟨q, hq, e', he', hne⟩
        have := hv.uniq _ _ _ _ _ _ he' he hne
        have : q = p := by ext <;> simp [this]
        subst this; exact hnd.1 hq
      · intro nm
        simp only [List.mem_cons, n3, exists_eq_or_imp]
        constructor
        · rintro (rfl | h)
          · exact Or.inl ⟨e, he, rfl⟩
          · exact Or.inr h
        · rintro (⟨e', he', rfl⟩ | h)
          · exact Or.inl (by rw [EntAt.unique he' he])
          · exact Or.inr h
  obtain ⟨names, n1, n2, n3⟩ := key L a (fun p hp => (c p.1 p.2).1 hp)
  refine ⟨names, n1, by omega, fun nm => ?_⟩
  rw [n3]
  constructor
  · rintro ⟨p, _, e, he, hne⟩ hno
    exact (hr.none_iff nm).1 hno _ _ _ he hne
  · intro hne
    cases hm : m nm with
    | none => exact absurd hm hne
    | some v =>
      obtain ⟨i, s, e, he, hn, _⟩ := (hr nm v.1 v.2).1 hm
      exact ⟨(i, s), (c i s).2 ⟨e, he⟩, e, he, hn⟩

/-- Without a node of depth 4 no operation kills the process: the next lookup,
addition or removal of a valid name ends normally. -/
theorem C08_no_death_shallow {d : Dir} (hv : Inv d)
    (hs : ∀ i n, d.nodes i = some n → depth i ≠ 4) (op : Op) (o : Orc) (hd : o.drop = false) :
    (step d o op).1 ≠ .die := by
  have hno : ∀ h n, d.nodes (pathIdx h 4) = some n → False :=
    fun h n hn => hs _ _ hn (pathIdx_depth _ _)
  cases op with
  | add nm ino dt =>
    simp only [step, Dir.add]
    by_cases hl : nm.length = 0 ∨ 255 < nm.length
    · unfold Dir.lookup
      rcases find_badname d o nm hl with h | h <;> rw [h] <;> simp
    · unfold Dir.lookup
      rcases find_spec hv o nm (by omega) (by omega) with ⟨i, s, e, h, _⟩ | ⟨h, hm⟩ | ⟨h, _⟩ | ⟨h, ⟨n, hn⟩, _⟩
      · rw [h]; simp
      · rw [h]; simp only
        split
        · simp
        · rcases addDentry_spec hv o nm ino dt (by omega) (by omega) hm with
            ⟨h1, h2⟩ | ⟨h1, h2⟩ | ⟨h1, n, hn⟩
          · rw [h1]; simp
          · simp only [List.mem_cons, List.not_mem_nil, or_false] at h1
            rcases h1 with h1 | h1 <;> rw [h1] <;> simp
          · exact absurd hn (fun hn => hno _ _ hn)
      · rw [h]; simp
      · exact absurd hn (fun hn => hno _ _ hn)
  | remove nm =>
    simp only [step]
    by_cases hl : nm.length = 0 ∨ 255 < nm.length
    · unfold Dir.remove
      rcases find_badname d o nm hl with h | h <;> rw [h] <;> simp
    · rcases remove_spec hv o nm (by omega) (by omega) hd with ⟨h1, h2⟩ | ⟨h1, h2 | h2 | ⟨h2, ⟨n, hn⟩, _⟩⟩
      · rw [h1]; simp
      · rw [h2]; simp
      · rw [h2.1]; simp
      · exact absurd hn (fun hn => hno _ _ hn)

/-- A failing removal of the last entry may have removed it nevertheless: the
removal reports an error and the name is gone. -/
theorem C08_remove_error_violated :
    ∃ (hash : Name → Nat) (o : Orc) (nm : Name),
      let r1 := (Dir.fresh hash).add (Orc.good hash) nm 7 8
      let r2 := r1.2.remove o nm
      r1.1 = .ok () ∧ r1.2.lookup (Orc.good hash) nm = .ok (7, 8) ∧ r2.1 = .eio ∧
        r2.2.lookup (Orc.good hash) nm = .enoent :=
  ⟨fun _ => 0, { Orc.good (fun _ => 0) with drop := true }, [97], by decide⟩

/-- A name of 255 bytes starting with byte `i`. -/
def bigName (i : Nat) : Name := i :: List.replicate 254 97

/-- Adding `n` names of 255 bytes. -/
def bigOps (n : Nat) : List (Op × Orc) :=
  (List.range n).map fun i => (.add (bigName i) (i + 1) 8, Orc.good (fun _ => 0))

set_option maxRecDepth 100000 in
/-- After 113 successful creations of names whose hashes collide, looking up (or
creating, or removing) one more colliding name kills the process instead of
reporting ENOENT (or creating it): the search asks for a child of a depth-4 node,
which `hash_to_child_ord` answers by a failed `silofs_expect_le`. -/
theorem C08_lookup_dies_violated :
    ∃ (hash : Name → Nat) (ops : List (Op × Orc)) (o : Orc) (nm : Name),
      (∀ r ∈ (run (Dir.fresh hash) ops).1, r = .ok ()) ∧ (∀ q, o.stage q = false ∧ o.spawn q = false) ∧
      nm.length = 1 ∧
      (run (Dir.fresh hash) ops).2.lookup o nm = .die ∧
      ((run (Dir.fresh hash) ops).2.add o nm 200 8).1 = .die ∧
      ((run (Dir.fresh hash) ops).2.remove o nm).1 = .die :=
  ⟨fun _ => 0, bigOps 113, Orc.good (fun _ => 0), [98], by decide +kernel, by intro q; exact ⟨rfl, rfl⟩, rfl,
    by decide +kernel, by decide +kernel, by decide +kernel⟩

example : (run (Dir.fresh (fun _ => 0)) [(.add [97] 7 8, Orc.good (fun _ => 0)),
    (.add [98] 9 4, Orc.good (fun _ => 0)), (.remove [97], Orc.good (fun _ => 0))]).1
    = [.ok (), .ok (), .ok ()] := by decide

end Silofs.Dir
