import Verif.Props.NameiEff
/-
The name-space invariant is preserved by every API call.
-/
set_option linter.unusedSimpArgs false
set_option linter.unusedVariables false
namespace Silofs.Ns

/-! ### The invariant, with directories exempt from being named (during a rename) -/

def AnchP (P : Nat → Prop) (s : Fs) : Prop :=
  ∀ e ∈ s.ents, e.dir = ROOT ∨ P e.dir ∨ 0 < s.names e.dir

structure Inv (P : Nat → Prop) (s : Fs) : Prop where
  core : Core s
  anch : AnchP P s
  loose : LooseOk s

def No : Nat → Prop := fun _ => False

theorem anchP_no {s : Fs} : AnchP No s ↔ Anch s := by
  unfold AnchP Anch No
  simp

/-- The states of the file-system between two API calls. -/
structure Good (s : Fs) : Prop where
  core : Core s
  anch : Anch s
  loose : LooseOk s
  looseq : s.looseq = []

theorem Good.inv {s : Fs} (h : Good s) : Inv No s := ⟨h.core, anchP_no.2 h.anch, h.loose⟩

theorem AnchP.mono {P Q : Nat → Prop} {s : Fs} (h : AnchP P s) (hpq : ∀ i, P i → Q i) : AnchP Q s := by
  intro e he
  rcases h e he with h1 | h1 | h1
  · exact .inl h1
  · exact .inr (.inl (hpq _ h1))
  · exact .inr (.inr h1)

theorem AnchP.same {P : Nat → Prop} {s t : Fs} (ha : AnchP P s) (h : Same s t) : AnchP P t := by
  intro e he
  rw [h.names]
  rw [h.ents] at he
  exact ha e he

theorem AnchP.delDent {P : Nat → Prop} {s : Fs} (hc : Core s) (ha : AnchP P s) {d : Nat} {n : Name}
    {c : Nat} (b : Bool) (hl : s.look d n = some c) :
    AnchP (fun i => P i ∨ i = c) (s.delDent d n c b) := by
  intro e he
  rw [delDent_ents] at he
  have h2 := delDent_names hc b hl e.dir
  rcases ha e (List.mem_filter.1 he).1 with h1 | h1 | h1
  · exact .inl h1
  · exact .inr (.inl (.inl h1))
  · by_cases h : e.dir = c
    · exact .inr (.inl (.inr h))
    · rw [if_neg h] at h2
      exact .inr (.inr (by omega))

theorem AnchP.addDent {P : Nat → Prop} {s : Fs} {c : Nat} (ha : AnchP (fun i => P i ∨ i = c) s)
    {d : Nat} {n : Name} (b : Bool)
    (hd : d = ROOT ∨ P d ∨ 0 < s.names d ∨ d = c) : AnchP P (s.addDent d n c b) := by
  have hc : ∀ i, i = c → 0 < (s.addDent d n c b).names i := by
    rintro i rfl
    rw [addDent_names, if_pos rfl]; omega
  have hm : ∀ i, 0 < s.names i → 0 < (s.addDent d n c b).names i := by
    intro i hi
    rw [addDent_names]; omega
  intro e he
  rw [addDent_ents] at he
  rcases List.mem_cons.1 he with rfl | he
  · rcases hd with h | h | h | h
    · exact .inl h
    · exact .inr (.inl h)
    · exact .inr (.inr (hm _ h))
    · exact .inr (.inr (hc _ h))
  · rcases ha e he with h | (h | h) | h
    · exact .inl h
    · exact .inr (.inl h)
    · exact .inr (.inr (hc _ h))
    · exact .inr (.inr (hm _ h))

theorem AnchP.bare {P : Nat → Prop} {s : Fs} {c : Nat} (ha : AnchP (fun i => P i ∨ i = c) s)
    (h : s.ndents c = 0) : AnchP P s := by
  intro e he
  rcases ha e he with h1 | (h1 | h1) | h1
  · exact .inl h1
  · exact .inr (.inl h1)
  · exact absurd h1 (ndents_zero.1 h e he)
  · exact .inr (.inr h1)

theorem AnchP.erase {P : Nat → Prop} {s : Fs} (ha : AnchP P s) {i : Nat} (hd : s.ndents i = 0) :
    AnchP P (s.erase i) := by
  intro e he
  rw [erase_names hd]
  rw [erase_ents hd] at he
  exact ha e he

theorem orphan_bareP {P : Nat → Prop} {s : Fs} (hc : Core s) (ha : AnchP P s) {i : Nat} {x : Ino}
    (hp : ¬ P i) (hx : s.ino i = some x) (ho : x.nlinkOrphan = true) :
    s.names i = 0 ∧ s.ndents i = 0 ∧ i ≠ ROOT := by
  unfold Ino.nlinkOrphan at ho
  cases hd : x.isDir with
  | false =>
    rw [hd] at ho
    have ho' : x.nlink = 0 := by simpa using ho
    have h1 := hc.file i x hx hd
    refine ⟨by omega, ?_, ?_⟩
    · rw [ndents_zero]
      intro e he h
      have := hc.dirOk e he
      rw [h, isDirI_of hx, hd] at this
      exact absurd this (by decide)
    · rintro rfl
      have := hc.root.1
      rw [isDirI_of hx, hd] at this
      exact absurd this (by decide)
  | true =>
    rw [hd] at ho
    have ho' : x.nlink ≤ 1 := by
      simp at ho; omega
    have h1 := hc.dir i x hx hd
    have hr : i ≠ ROOT := by
      rintro rfl; rw [if_pos rfl] at h1; omega
    rw [if_neg hr] at h1
    have hn0 : s.names i = 0 := by omega
    refine ⟨hn0, ?_, hr⟩
    rw [ndents_zero]
    intro e he h
    rcases ha e he with h2 | h2 | h2
    · exact hr (h ▸ h2)
    · exact hp (h ▸ h2)
    · rw [h, hn0] at h2; exact absurd h2 (by omega)

/-! ### LooseOk -/

theorem isOrphan_mono {x y : Ino} (ho : x.isOrphan = true) (hk : y.attr.kind = x.attr.kind)
    (hn : y.nlink ≤ x.nlink) (hp : y.nopen = x.nopen) : y.isOrphan = true := by
  unfold Ino.isOrphan Ino.nlinkOrphan Ino.isDir at *
  rw [hk, hp]
  cases hd : (x.attr.kind == Kind.dir)
  · rw [hd] at ho
    simp only [Bool.and_eq_true, decide_eq_true_eq] at ho
    simp at ho ⊢
    omega
  · rw [hd] at ho
    simp at ho ⊢
    omega

theorem LooseOk.delDent {s : Fs} (h : LooseOk s) (d : Nat) (n : Name) (c : Nat) (b : Bool) :
    LooseOk (s.delDent d n c b) := by
  intro i y hy hl
  rw [delDent_ino, Option.map_eq_some_iff] at hy
  obtain ⟨x, hx, rfl⟩ := hy
  exact isOrphan_mono (h i x hx hl) rfl (by simp only; omega) rfl

theorem LooseOk.addDent {s : Fs} (h : LooseOk s) {d : Nat} {n : Name} {c : Nat} {b : Bool}
    (hc : ∀ x, s.ino c = some x → x.loose = false)
    (hd : b = true → ∀ x, s.ino d = some x → x.loose = false) :
    LooseOk (s.addDent d n c b) := by
  intro i y hy hl
  rw [addDent_ino, Option.map_eq_some_iff] at hy
  obtain ⟨x, hx, rfl⟩ := hy
  have hl' : x.loose = true := hl
  have h1 : ¬ i = c := by
    rintro rfl; rw [hc x hx] at hl'; exact absurd hl' (by decide)
  have h2 : ¬ (b = true ∧ i = d) := by
    rintro ⟨hb, rfl⟩; rw [hd hb x hx] at hl'; exact absurd hl' (by decide)
  simp only [if_neg h1, if_neg h2]
  exact isOrphan_mono (h i x hx hl') rfl (by simp) rfl

theorem LooseOk.set {s : Fs} (h : LooseOk s) {i : Nat} {x : Ino}
    (hx : x.loose = true → x.isOrphan = true) : LooseOk (s.setIno i (some x)) := by
  intro j y hy hl
  rw [setIno_get] at hy
  split at hy
  · cases hy; exact hx hl
  · exact h j y hy hl

theorem LooseOk.erase {s : Fs} (h : LooseOk s) (i : Nat) : LooseOk (s.erase i) := by
  intro j y hy hl
  rw [erase_ino] at hy
  split at hy
  · exact absurd hy (by simp)
  · exact h j y hy hl

/-! ### What happens to the inodes that exist -/

/-- Existing inodes keep their owner, mode and open count, and their content unless they are
up for disposal; one that is gone was not open. -/
def Keeps (s t : Fs) : Prop := ∀ j x, s.ino j = some x →
  (∃ y, t.ino j = some y ∧ y.nopen = x.nopen ∧ y.attr = x.attr ∧ (x.loose = true → y.loose = true) ∧
    (y.data = x.data ∨ y.loose = true)) ∨ (t.ino j = none ∧ x.nopen = 0)

theorem Keeps.refl (s : Fs) : Keeps s s := fun j x hx => .inl ⟨x, hx, rfl, rfl, id, .inl rfl⟩

theorem Keeps.of_ino {s t : Fs} (h : ∀ j, t.ino j = s.ino j) : Keeps s t :=
  fun j x hx => .inl ⟨x, (h j).trans hx, rfl, rfl, id, .inl rfl⟩

/-- An inode that is gone does not come back. -/
def NoNew (s t : Fs) : Prop := ∀ j, s.ino j = none → t.ino j = none

theorem Keeps.trans {s t u : Fs} (h1 : Keeps s t) (h2 : Keeps t u) (hn : NoNew t u) : Keeps s u := by
  intro j x hx
  rcases h1 j x hx with ⟨y, hy, a1, a2, a3, a4⟩ | ⟨hy, a1⟩
  · rcases h2 j y hy with ⟨z, hz, b1, b2, b3, b4⟩ | ⟨hz, b1⟩
    · refine .inl ⟨z, hz, b1.trans a1, b2.trans a2, fun h => b3 (a3 h), ?_⟩
      rcases b4 with b4 | b4
      · rcases a4 with a4 | a4
        · exact .inl (b4.trans a4)
        · exact .inr (b3 a4)
      · exact .inr b4
    · exact .inr ⟨hz, by rw [← a1]; exact b1⟩
  · exact .inr ⟨hn j hy, a1⟩

theorem keeps_map {s t : Fs} (f : Nat → Ino → Ino) (h : ∀ j, t.ino j = (s.ino j).map (f j))
    (h1 : ∀ j x, (f j x).nopen = x.nopen) (h2 : ∀ j x, (f j x).attr = x.attr)
    (h3 : ∀ j x, (f j x).loose = x.loose) (h4 : ∀ j x, (f j x).data = x.data) :
    Keeps s t ∧ NoNew s t := by
  constructor
  · intro j x hx
    refine .inl ⟨f j x, by rw [h, hx]; rfl, h1 j x, h2 j x, by rw [h3]; exact id, .inl (h4 j x)⟩
  · intro j hj
    rw [h, hj]; rfl

theorem keeps_delDent (s : Fs) (d : Nat) (n : Name) (c : Nat) (b : Bool) :
    Keeps s (s.delDent d n c b) ∧ NoNew s (s.delDent d n c b) :=
  keeps_map _ (delDent_ino s d n c b) (fun _ _ => rfl) (fun _ _ => rfl) (fun _ _ => rfl) (fun _ _ => rfl)

theorem keeps_addDent (s : Fs) (d : Nat) (n : Name) (c : Nat) (b : Bool) :
    Keeps s (s.addDent d n c b) ∧ NoNew s (s.addDent d n c b) :=
  keeps_map _ (addDent_ino s d n c b) (fun _ _ => rfl) (fun _ _ => rfl) (fun _ _ => rfl) (fun _ _ => rfl)

/-! ### try_prune_inode -/

/-- What a pruned state looks like. -/
structure Pruned (s t : Fs) (i : Nat) : Prop where
  ents : t.ents = s.ents
  other : ∀ j, j ≠ i → t.ino j = s.ino j
  keeps : Keeps s t
  nonew : NoNew s t
  gone : t.ino i = none → ∀ x, s.ino i = some x → x.nlinkOrphan = true

theorem enqueue_ino (s : Fs) (i : Nat) (x : Ino) : (s.enqueueIfLoose i x).ino = s.ino ∧
    (s.enqueueIfLoose i x).ents = s.ents := by
  unfold Fs.enqueueIfLoose; split <;> exact ⟨rfl, rfl⟩

theorem isDropable_parts {x : Ino} {b : Bool} (h : x.isDropable b = true) :
    x.nopen = 0 ∧ x.pinned = false ∧ b = false ∧ x.nlinkOrphan = true := by
  unfold Ino.isDropable Ino.isEvictable at h
  simpa [and_assoc] using h

theorem nlinkOrphan_congr {x y : Ino} (hk : y.attr.kind = x.attr.kind) (hn : y.nlink = x.nlink) :
    y.nlinkOrphan = x.nlinkOrphan := by
  unfold Ino.nlinkOrphan Ino.isDir; rw [hk, hn]

theorem isOrphan_congr {x y : Ino} (hk : y.attr.kind = x.attr.kind) (hn : y.nlink = x.nlink)
    (hp : y.nopen = x.nopen) : y.isOrphan = x.isOrphan := by
  unfold Ino.isOrphan; rw [nlinkOrphan_congr hk hn, hp]

/-- Cases of `try_prune_inode` for an existing inode. -/
theorem prune_cases (o : Orc) (s : Fs) (i : Nat) (x : Ino) (hx : s.ino i = some x)
    (hlo : x.loose = true → x.isOrphan = true) :
    -- dropped
    ((s.prune o i) = (none, s.erase i) ∧ x.isDropable o.busy = true ∧ o.drop = false) ∨
    -- kept, possibly without data
    (∃ y q, (s.prune o i).2 = { s.setIno i (some y) with looseq := q } ∧
      y.attr = x.attr ∧ y.nlink = x.nlink ∧ y.parent = x.parent ∧ y.nopen = x.nopen ∧
      y.pinned = x.pinned ∧ y.loose = x.isOrphan ∧ (y.data = x.data ∨ y.loose = true) ∧
      (∀ j ∈ s.looseq, j ∈ q) ∧ (∀ j ∈ q, j ∈ s.looseq ∨ j = i) ∧
      (o.drop = false → y.loose = true → y.pinned = false → i ∈ q) ∧
      (o.drop = false → (s.prune o i).1 = none) ∧
      (y.loose = false → (s.prune o i).1 = none ∧ q = s.looseq ∧ y = x) ∧
      ((s.prune o i).1 = none ∨ (s.prune o i).1 = some .eio)) := by
  have hset : ∀ (s : Fs) (a b : Option Ino), (s.setIno i a).setIno i b = s.setIno i b := by
    intro s a b
    unfold Fs.setIno
    simp only [Fs.mk.injEq, and_true]
    funext j
    by_cases h : j = i <;> simp [h]
  unfold Fs.prune
  rw [hx]
  simp only
  by_cases ho : x.isOrphan = true
  · rw [if_pos ho]
    have hdr : ({ x with loose := true } : Ino).isDropable o.busy = x.isDropable o.busy := rfl
    rw [hdr]
    by_cases hd : x.isDropable o.busy = true
    · rw [if_pos hd]
      unfold Fs.dropUnlinked
      cases hdp : o.drop
      · left
        refine ⟨?_, hd, rfl⟩
        simp only [Bool.false_eq_true, if_false, Prod.mk.injEq, true_and]
        unfold Fs.erase
        rw [hset]
        rfl
      · right
        simp only [if_true]
        refine ⟨{ x with loose := true, data := false }, s.looseq, ?_, rfl, rfl, rfl, rfl, rfl, ho.symm,
          .inr rfl, fun _ h => h, fun _ h => .inl h, by simp, by simp, by simp, by simp⟩
        unfold Fs.modIno
        rw [hset, setIno_get, if_pos rfl]
        rfl
    · rw [if_neg hd]
      right
      by_cases hk : x.attr.kind = .reg
      · rw [if_pos ⟨hk, rfl⟩]
        by_cases hdp : o.drop = true
        · rw [if_pos hdp]
          refine ⟨{ x with loose := true, data := false }, s.looseq, ?_, rfl, rfl, rfl, rfl, rfl, ho.symm,
            .inr rfl, fun _ h => h, fun _ h => .inl h, by simp [hdp], by simp [hdp], by simp, .inr rfl⟩
          rw [hset]
          rfl
        · rw [if_neg hdp, hset]
          unfold Fs.enqueueIfLoose
          by_cases hp : x.pinned = true
          · refine ⟨{ x with loose := true, data := false }, s.looseq, ?_, rfl, rfl, rfl, rfl, rfl, ho.symm,
              .inr rfl, fun _ h => h, fun _ h => .inl h, by simp [hp], by simp, by simp, .inl rfl⟩
            simp [hp]
            rfl
          · have hp' : x.pinned = false := by simpa using hp
            refine ⟨{ x with loose := true, data := false },
              if s.looseq.contains i then s.looseq else i :: s.looseq, ?_, rfl, rfl, rfl, rfl, rfl, ho.symm,
              .inr rfl, ?_, ?_, ?_, by simp, by simp, .inl rfl⟩
            · simp [hp']
              rfl
            · intro j hj
              split
              · exact hj
              · exact List.mem_cons_of_mem _ hj
            · intro j hj
              split at hj
              · exact .inl hj
              · rcases List.mem_cons.1 hj with h | h
                · exact .inr h
                · exact .inl h
            · intro _ _ _
              split
              · next h => simpa using h
              · exact List.mem_cons_self
      · rw [if_neg (fun h => hk h.1)]
        unfold Fs.enqueueIfLoose
        by_cases hp : x.pinned = true
        · refine ⟨{ x with loose := true }, s.looseq, ?_, rfl, rfl, rfl, rfl, rfl, ho.symm,
            .inr rfl, fun _ h => h, fun _ h => .inl h, by simp [hp], by simp, by simp, .inl rfl⟩
          simp [hp]
          rfl
        · have hp' : x.pinned = false := by simpa using hp
          refine ⟨{ x with loose := true },
            if s.looseq.contains i then s.looseq else i :: s.looseq, ?_, rfl, rfl, rfl, rfl, rfl, ho.symm,
            .inr rfl, ?_, ?_, ?_, by simp, by simp, .inl rfl⟩
          · simp [hp']
            rfl
          · intro j hj
            split
            · exact hj
            · exact List.mem_cons_of_mem _ hj
          · intro j hj
            split at hj
            · exact .inl hj
            · rcases List.mem_cons.1 hj with h | h
              · exact .inr h
              · exact .inl h
          · intro _ _ _
            split
            · next h => simpa using h
            · exact List.mem_cons_self
  · rw [if_neg ho]
    have hl0 : x.loose = false := by
      cases h : x.loose
      · rfl
      · exact absurd (hlo h) ho
    have hnd : ¬ x.isDropable o.busy = true := by
      intro h
      obtain ⟨h1, _, _, h4⟩ := isDropable_parts h
      apply ho
      unfold Ino.isOrphan
      rw [h1, h4]; rfl
    have ho' : x.isOrphan = false := by simpa using ho
    rw [if_neg hnd, if_neg (fun h => by rw [hl0] at h; exact absurd h.2 (by decide))]
    right
    refine ⟨x, s.looseq, ?_, rfl, rfl, rfl, rfl, rfl, by rw [hl0, ho'], .inl rfl, fun _ h => h,
      fun _ h => .inl h, by simp [hl0], by simp, by simp, .inl rfl⟩
    unfold Fs.enqueueIfLoose
    simp [hl0]
    rfl

theorem prune_none (o : Orc) (s : Fs) (i : Nat) (hx : s.ino i = none) : s.prune o i = (none, s) := by
  unfold Fs.prune; rw [hx]

theorem prune_err (o : Orc) (s : Fs) (i : Nat) (hlo : LooseOk s) :
    (s.prune o i).1 = none ∨ (s.prune o i).1 = some .eio := by
  cases hx : s.ino i with
  | none => rw [prune_none o s i hx]; exact .inl rfl
  | some x =>
    rcases prune_cases o s i x hx (hlo i x hx) with ⟨h, _⟩ | ⟨_, _, h⟩
    · rw [h]; exact .inl rfl
    · exact h.2.2.2.2.2.2.2.2.2.2.2.2.2

theorem prune_err_drop (o : Orc) (s : Fs) (i : Nat) (hlo : LooseOk s) (hd : o.drop = false) :
    (s.prune o i).1 = none := by
  cases hx : s.ino i with
  | none => rw [prune_none o s i hx]
  | some x =>
    rcases prune_cases o s i x hx (hlo i x hx) with ⟨h, _⟩ | ⟨_, _, h⟩
    · rw [h]
    · exact h.2.2.2.2.2.2.2.2.2.2.2.1 hd

theorem isOrphan_parts {x : Ino} (h : x.isOrphan = true) : x.nopen = 0 ∧ x.nlinkOrphan = true := by
  unfold Ino.isOrphan at h
  simpa using h

theorem prune_pruned {o : Orc} {P : Nat → Prop} {s : Fs} (hi : Inv P s) (i : Nat) (hp : ¬ P i) :
    Pruned s (s.prune o i).2 i := by
  cases hx : s.ino i with
  | none =>
    rw [prune_none o s i hx]
    exact ⟨rfl, fun _ _ => rfl, Keeps.refl s, fun _ h => h, fun _ x hx' => by rw [hx] at hx'; cases hx'⟩
  | some x =>
    rcases prune_cases o s i x hx (hi.loose i x hx) with ⟨h, hd, _⟩ | ⟨y, q, h, h1, h2, h3, h4, h5, h6, h7, _⟩
    · obtain ⟨h1, h2, _, h4⟩ := isDropable_parts hd
      obtain ⟨b1, b2, b3⟩ := orphan_bareP hi.core hi.anch hp hx h4
      rw [h]
      refine ⟨erase_ents b2, fun j hj => by rw [erase_ino, if_neg hj], ?_, ?_, ?_⟩
      · intro j z hz
        by_cases hj : j = i
        · subst hj
          rw [hx] at hz; cases hz
          exact .inr ⟨by rw [erase_ino, if_pos rfl], h1⟩
        · exact .inl ⟨z, by rw [erase_ino, if_neg hj]; exact hz, rfl, rfl, id, .inl rfl⟩
      · intro j hj
        rw [erase_ino]
        split
        · rfl
        · exact hj
      · intro _ z hz
        rw [hx] at hz; cases hz; exact h4
    · rw [h]
      refine ⟨rfl, fun j hj => by show (s.setIno i (some y)).ino j = _; rw [setIno_get, if_neg hj], ?_, ?_, ?_⟩
      · intro j z hz
        by_cases hj : j = i
        · subst hj
          rw [hx] at hz; cases hz
          refine .inl ⟨y, by show (s.setIno j (some y)).ino j = _; rw [setIno_get, if_pos rfl], h4, h1, ?_, h7⟩
          intro hl
          rw [h6]; exact hi.loose j x hx hl
        · exact .inl ⟨z, by show (s.setIno i (some y)).ino j = _; rw [setIno_get, if_neg hj]; exact hz, rfl, rfl, id, .inl rfl⟩
      · intro j hj
        show (s.setIno i (some y)).ino j = _
        rw [setIno_get]
        split
        · next h => subst h; rw [hj] at hx; cases hx
        · exact hj
      · intro hh
        have : (s.setIno i (some y)).ino i = none := hh
        rw [setIno_get, if_pos rfl] at this
        cases this

theorem Inv.prune {o : Orc} {P : Nat → Prop} {s : Fs} (hi : Inv P s) (i : Nat) (hp : ¬ P i) :
    Inv P (s.prune o i).2 := by
  cases hx : s.ino i with
  | none => rw [prune_none o s i hx]; exact hi
  | some x =>
    rcases prune_cases o s i x hx (hi.loose i x hx) with ⟨h, hd, _⟩ | ⟨y, q, h, h1, h2, h3, h4, h5, h6, h7, _⟩
    · obtain ⟨_, _, _, h4⟩ := isDropable_parts hd
      obtain ⟨b1, b2, b3⟩ := orphan_bareP hi.core hi.anch hp hx h4
      rw [h]
      exact ⟨hi.core.erase b1 b2 b3, hi.anch.erase b2, hi.loose.erase i⟩
    · rw [h]
      have hs : Same s { s.setIno i (some y) with looseq := q } :=
        (same_setIno hx (by rw [h1]) h2 h3).trans ⟨rfl, fun _ => rfl⟩
      refine ⟨hi.core.same hs, hi.anch.same hs, ?_⟩
      have hl : LooseOk (s.setIno i (some y)) := by
        apply hi.loose.set
        intro hl
        rw [h6] at hl
        rw [isOrphan_congr (by rw [h1]) h2 h4]; exact hl
      exact hl

/-! ### End of the call -/

theorem purge_inv {o : Orc} (l : List Nat) : ∀ {s t : Fs}, Inv No s → Fs.purgeList o l s = some t →
    Inv No t ∧ t.ents = s.ents ∧ Keeps s t ∧ NoNew s t ∧ t.looseq = s.looseq ∧
    (∀ i ∈ l, t.ino i = none) ∧ (∀ i, i ∉ l → t.ino i = s.ino i) := by
  induction l with
  | nil =>
    intro s t hs h
    simp only [Fs.purgeList, Option.some.injEq] at h
    subst h
    exact ⟨hs, rfl, Keeps.refl s, fun _ h => h, rfl, by simp, fun _ _ => rfl⟩
  | cons i q ih =>
    intro s t hs h
    unfold Fs.purgeList at h
    split at h
    · next hx =>
      obtain ⟨a, b, c, d, e, f, g⟩ := ih hs h
      refine ⟨a, b, c, d, e, ?_, ?_⟩
      · intro j hj
        rcases List.mem_cons.1 hj with rfl | hj
        · exact d _ hx
        · exact f j hj
      · intro j hj
        exact g j (fun hh => hj (List.mem_cons_of_mem _ hh))
    · next x hx =>
      split at h
      · next hd =>
        simp only [Bool.and_eq_true] at hd
        obtain ⟨h1, _, _, h4⟩ := isDropable_parts hd.1
        obtain ⟨b1, b2, b3⟩ := orphan_bareP hs.core hs.anch (fun h => h) hx h4
        have hs2 : Inv No (s.erase i) := ⟨hs.core.erase b1 b2 b3, hs.anch.erase b2, hs.loose.erase i⟩
        obtain ⟨a, b, c, d, e, f, g⟩ := ih hs2 h
        refine ⟨a, b.trans (erase_ents b2), Keeps.trans ?_ c d, ?_, e, ?_, ?_⟩
        · intro j z hz
          by_cases hj : j = i
          · subst hj
            rw [hx] at hz; cases hz
            exact .inr ⟨by rw [erase_ino, if_pos rfl], h1⟩
          · exact .inl ⟨z, by rw [erase_ino, if_neg hj]; exact hz, rfl, rfl, id, .inl rfl⟩
        · intro j hj
          apply d
          rw [erase_ino]
          split
          · rfl
          · exact hj
        · intro j hj
          rcases List.mem_cons.1 hj with rfl | hj
          · apply d; rw [erase_ino, if_pos rfl]
          · exact f j hj
        · intro j hj
          rw [g j (fun hh => hj (List.mem_cons_of_mem _ hh)), erase_ino,
            if_neg (fun hh => hj (by rw [hh]; exact List.mem_cons_self))]
      · exact absurd h (by simp)

theorem finish_inv {o : Orc} {r : Option Err × Fs} (hi : Inv No r.2) (hnd : (Fs.finish o r).1 ≠ .die) :
    Good (Fs.finish o r).2 ∧ (Fs.finish o r).2.ents = r.2.ents ∧ Keeps r.2 (Fs.finish o r).2 ∧
    NoNew r.2 (Fs.finish o r).2 ∧
    (∀ i ∈ r.2.looseq, (Fs.finish o r).2.ino i = none) ∧
    (∀ i, i ∉ r.2.looseq → (Fs.finish o r).2.ino i = r.2.ino i) ∧
    ((Fs.finish o r).1 = .ok ↔ r.1 = none) := by
  have hi' : Inv No { r.2 with looseq := [] } := by
    have hs : Same r.2 { r.2 with looseq := [] } := ⟨rfl, fun _ => rfl⟩
    exact ⟨hi.core.same hs, hi.anch.same hs, hi.loose⟩
  unfold Fs.finish at hnd ⊢
  cases hp : Fs.purgeList o r.2.looseq { r.2 with looseq := [] } with
  | none => rw [hp] at hnd; exact absurd rfl hnd
  | some t =>
    obtain ⟨a, b, c, d, e, f, g⟩ := purge_inv r.2.looseq hi' hp
    refine ⟨⟨a.core, anchP_no.1 a.anch, a.loose, e⟩, b, c, d, f, g, ?_⟩
    simp only
    cases r.1 <;> simp

end Silofs.Ns
