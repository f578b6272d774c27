import Verif.Spec.Whole
import Verif.Model.Whole
import Verif.Props.NameiLife
import Verif.Props.NameiFail
import Verif.Props.NameiLimits
/-
What operations on names do, in terms of the specification of the whole file system.
-/
set_option linter.unusedSimpArgs false
set_option linter.unusedVariables false
namespace Silofs.Whole

open Silofs.Ns
open Silofs.WholeSpec (AFs AEv AStep ARun Place)

/-- Handles open on an inode. -/
def nop (s : Fs) (i : Nat) : Nat :=
  match s.ino i with
  | none => 0
  | some x => x.nopen

/-- What programs see of names. -/
def entOf (s : Fs) : Place → Option Nat := fun p => s.look p.1 p.2

/-- An inode with a name or a handle, or the root. -/
def LiveN (s : Fs) (i : Nat) : Prop := (∃ p, entOf s p = some i) ∨ 0 < nop s i ∨ i = WholeSpec.root

/-- The event when the operation succeeds. -/
def evOk (s : Fs) (o : Orc) : Ns.Op → AEv
  | .create _ d n k _ => .made (d, n) (o.spawn.getD 0) (decide (k = .reg)) true
  | .mknodReg _ d n _ => .made (d, n) (o.spawn.getD 0) true false
  | .mknodSpecial _ d n k _ _ => .made (d, n) (o.spawn.getD 0) (decide (k = .reg)) false
  | .mkdir _ d n _ => .made (d, n) (o.spawn.getD 0) false false
  | .symlink _ d n _ => .made (d, n) (o.spawn.getD 0) false false
  | .link _ d n i => .linked (d, n) i
  | .unlink _ d n => .removed (d, n)
  | .rmdir _ d n => .removed (d, n)
  | .rename _ d n d2 n2 f =>
    if s.look d n = s.look d2 n2 then .removed (d, n) else .renamed (d, n) (d2, n2) f.exchange
  | .openReg _ i f => .opened i (f.trunc && isReg s i)
  | .openDir _ i _ => .opened i false
  | .release i _ _ => .closed i
  | .forget _ => .nothing

/-- The event when the storage fails. -/
def evErr (s : Fs) : Ns.Op → AEv
  | .unlink _ d n => .broken [(d, n)] none none
  | .rmdir _ d n => .broken [(d, n)] none none
  | .rename _ d n d2 n2 _ => .broken [(d, n), (d2, n2)] none none
  | .openReg _ i f => .broken [] none (if f.trunc = true ∧ isReg s i = true then some i else none)
  | .release i _ _ => .broken [] (some i) none
  | _ => .broken [] none none

/-- The event of an operation with its outcome. -/
def evName (s : Fs) (o : Orc) (op : Ns.Op) : Option Err → AEv
  | none => evOk s o op
  | some e => if e = .enospc ∨ e = .eio then evErr s op else .nothing

/-! ### Inodes that stay what they are -/

structure KN (s t : Fs) : Prop where
  keeps : Keeps s t
  nonew : NoNew s t

theorem KN.refl (s : Fs) : KN s s := ⟨Keeps.refl s, fun _ h => h⟩

theorem KN.trans {s t u : Fs} (h1 : KN s t) (h2 : KN t u) : KN s u :=
  ⟨h1.keeps.trans h2.keeps h2.nonew, fun j hj => h2.nonew j (h1.nonew j hj)⟩

theorem KN.del (s : Fs) (d : Nat) (n : Name) (c : Nat) (b : Bool) : KN s (s.delDent d n c b) :=
  ⟨(keeps_delDent s d n c b).1, (keeps_delDent s d n c b).2⟩

theorem KN.add (s : Fs) (d : Nat) (n : Name) (c : Nat) (b : Bool) : KN s (s.addDent d n c b) :=
  ⟨(keeps_addDent s d n c b).1, (keeps_addDent s d n c b).2⟩

theorem KN.nop {s t : Fs} (h : KN s t) (j : Nat) : nop t j = nop s j := by
  unfold Whole.nop
  cases hs : s.ino j with
  | none => rw [h.nonew j hs]
  | some x =>
    rcases h.keeps j x hs with ⟨y, hy, e, _⟩ | ⟨hy, e⟩
    · rw [hy]; exact e
    · rw [hy]; exact e.symm

theorem KN.reg {s t : Fs} (h : KN s t) {j : Nat} (hj : t.ino j ≠ none) : isReg t j = isReg s j := by
  unfold isReg
  cases hs : s.ino j with
  | none => exact absurd (h.nonew j hs) hj
  | some x =>
    rcases h.keeps j x hs with ⟨y, hy, _, e, _⟩ | ⟨hy, e⟩
    · rw [hy]; simp only; rw [e]
    · exact absurd hy hj

theorem live_ino {s : Fs} (hc : Core s) {j : Nat} (h : LiveN s j) : s.ino j ≠ none := by
  intro hn
  rcases h with ⟨p, hp⟩ | h | h
  · obtain ⟨x, hx⟩ := hc.childOk _ (find_mem hp)
    rw [hn] at hx; cases hx
  · unfold nop at h; rw [hn] at h; exact absurd h (Nat.lt_irrefl 0)
  · have := hc.root.1
    subst h
    unfold Fs.isDirI at this
    rw [show ROOT = WholeSpec.root from rfl, hn] at this
    cases this

theorem entOf_eq {s t : Fs} (h : t.ents = s.ents) : entOf t = entOf s := by
  funext p; exact look_of_ents h p.1 p.2

/-! ### Names after a failure -/

/-- Only the names `ps` have changed, to nothing or to what another one of them was. -/
def Near (ps : List Place) (e t : Place → Option Nat) : Prop :=
  ∀ r, t r = e r ∨ (r ∈ ps ∧ (t r = none ∨ ∃ q ∈ ps, t r = e q))

theorem Near.refl (ps : List Place) (e : Place → Option Nat) : Near ps e e := fun _ => .inl rfl

theorem Near.del {ps : List Place} {e : Place → Option Nat} {u : Fs} (h : Near ps e (entOf u)) {d : Nat} {n : Name}
    (hp : (d, n) ∈ ps) (c : Nat) (b : Bool) : Near ps e (entOf (u.delDent d n c b)) := by
  intro r
  show (u.delDent d n c b).look r.1 r.2 = _ ∨ _ ∧ ((u.delDent d n c b).look r.1 r.2 = _ ∨ ∃ q ∈ ps, (u.delDent d n c b).look r.1 r.2 = _)
  rw [delDent_look]
  by_cases hr : r.1 = d ∧ r.2 = n
  · rw [if_pos hr]
    have : r = (d, n) := Prod.ext hr.1 hr.2
    exact .inr ⟨by rw [this]; exact hp, .inl rfl⟩
  · rw [if_neg hr]; exact h r

theorem Near.add {ps : List Place} {e : Place → Option Nat} {u : Fs} (h : Near ps e (entOf u)) {d : Nat} {n : Name}
    (hp : (d, n) ∈ ps) {c : Nat} {q : Place} (hq : q ∈ ps) (hc : e q = some c) (b : Bool) :
    Near ps e (entOf (u.addDent d n c b)) := by
  intro r
  show (u.addDent d n c b).look r.1 r.2 = _ ∨ _ ∧ ((u.addDent d n c b).look r.1 r.2 = _ ∨ ∃ q ∈ ps, (u.addDent d n c b).look r.1 r.2 = _)
  rw [addDent_look]
  by_cases hr : r.1 = d ∧ r.2 = n
  · rw [if_pos hr]
    have : r = (d, n) := Prod.ext hr.1 hr.2
    exact .inr ⟨by rw [this]; exact hp, .inr ⟨q, hq, hc.symm⟩⟩
  · rw [if_neg hr]; exact h r

theorem Near.ents {ps : List Place} {e : Place → Option Nat} {u v : Fs} (h : Near ps e (entOf u)) (hv : v.ents = u.ents) :
    Near ps e (entOf v) := by rw [entOf_eq hv]; exact h

theorem Near.rem {ps : List Place} {s : Fs} {d : Nat} {n : Name} {c : Nat} {b : Bool} {r : Option Err × Fs}
    (h : RemRes s d n c b r) (hp : (d, n) ∈ ps) : Near ps (entOf s) (entOf r.2) := by
  rcases h.ents with he | he
  · exact (Near.refl ps _).ents he
  · exact ((Near.refl ps (entOf s)).del hp c b).ents he

/-- What an operation did to names, handles and types. -/
structure Obs (s b : Fs) (e : AEv) : Prop where
  names : e.Names (entOf s) (entOf b)
  handles : e.Handles (nop s) (nop b)
  kind : ∀ j, LiveN b j → e.Kind (isReg s) j (isReg b j)

/-- Nothing but names changed. -/
theorem Obs.broken {s b : Fs} (hb : Core b) (h : KN s b) {ps : List Place} (hn : Near ps (entOf s) (entOf b))
    (sh cut : Option Nat) : Obs s b (.broken ps sh cut) :=
  ⟨hn, fun j => .inl (h.nop j), fun j hj => h.reg (live_ino hb hj)⟩

/-! ### New objects -/

theorem nop_addDent (s : Fs) (d : Nat) (n : Name) (c : Nat) (b : Bool) (j : Nat) :
    nop (s.addDent d n c b) j = nop s j := (KN.add s d n c b).nop j

theorem nop_incOpen {s : Fs} {i : Nat} (hi : s.ino i ≠ none) (j : Nat) :
    nop (s.incOpen i) j = if j = i then nop s j + 1 else nop s j := by
  unfold nop
  rw [incOpen_ino]
  by_cases h : j = i
  · subst h
    cases hx : s.ino j with
    | none => exact absurd hx hi
    | some x => simp
  · cases hx : s.ino j with
    | none => simp [h]
    | some x => simp [h]

theorem nop_decOpen (s : Fs) (i j : Nat) : nop (s.decOpen i) j = if j = i then nop s j - 1 else nop s j := by
  unfold nop
  rw [decOpen_ino]
  by_cases h : j = i
  · subst h
    cases hx : s.ino j with
    | none => simp
    | some x => simp
  · cases hx : s.ino j with
    | none => simp [h]
    | some x => simp [h]

theorem reg_incOpen (s : Fs) (i j : Nat) : isReg (s.incOpen i) j = isReg s j := by
  unfold isReg
  rw [incOpen_ino]
  cases s.ino j with
  | none => rfl
  | some x => simp only [Option.map_some]

theorem reg_decOpen (s : Fs) (i j : Nat) : isReg (s.decOpen i) j = isReg s j := by
  unfold isReg
  rw [decOpen_ino]
  cases s.ino j with
  | none => rfl
  | some x => simp only [Option.map_some]

/-- What a new object looks like. -/
structure NewObj (s : Fs) (o : Orc) (d : Nat) (n : Name) (k : Kind) (isOpen : Bool) (b : Fs) (i : Nat) : Prop where
  spawn : o.spawn = some i
  old : s.ino i = none
  look : s.look d n = none
  names : ∀ p, entOf b p = if p = (d, n) then some i else entOf s p
  nop : ∀ j, nop b j = if j = i ∧ isOpen = true then 1 else nop s j
  reg : ∀ j, isReg b j = if j = i then decide (k = .reg) else isReg s j

theorem made_obj {s : Fs} {o : Orc} {cr : Cred} {d : Nat} {dx : Ino} {n : Name} {k : Kind} {m i : Nat} {t : Fs}
    (h : s.make o cr d dx n k m = .ok (i, t)) (hl : s.look d n = none) : NewObj s o d n k false t i ∧ t.ino i ≠ none := by
  obtain ⟨_, hsp, hi, _, ht⟩ := make_io.2 i t h
  obtain ⟨hnew, _⟩ := newIno_ok cr k m d dx
  refine ⟨⟨hsp, hi, hl, fun p => ?_, fun j => ?_, fun j => ?_⟩, ?_⟩
  · rw [ht]
    show ((s.setIno i (some (newIno cr k m d dx))).addDent d n i (k == .dir)).look p.1 p.2 = _
    rw [addDent_look]
    by_cases hp : p.1 = d ∧ p.2 = n
    · rw [if_pos hp, if_pos (Prod.ext hp.1 hp.2)]
    · rw [if_neg hp, if_neg (fun e => hp (by rw [e]; exact ⟨rfl, rfl⟩))]
      rfl
  · rw [ht, nop_addDent, if_neg (by simp)]
    unfold Whole.nop
    rw [setIno_get]
    by_cases hj : j = i
    · subst hj; rw [if_pos rfl, hi]; exact hnew.nopen
    · rw [if_neg hj]
  · rw [ht]
    unfold isReg
    rw [addDent_ino, setIno_get]
    by_cases hj : j = i
    · subst hj
      simp only [if_true, Option.map_some]
      rw [(newIno_attr cr k m d dx 0).2]
    · simp only [if_neg hj]
      cases s.ino j <;> rfl
  · rw [ht, addDent_ino, setIno_get, if_pos rfl]
    simp

theorem NewObj.open {s : Fs} {o : Orc} {d : Nat} {n : Name} {k : Kind} {t : Fs} {i : Nat}
    (h : NewObj s o d n k false t i) (hi : t.ino i ≠ none) : NewObj s o d n k true (t.incOpen i) i := by
  refine ⟨h.spawn, h.old, h.look, fun p => ?_, fun j => ?_, fun j => ?_⟩
  · rw [entOf_eq (incOpen_ents t i)]; exact h.names p
  · rw [nop_incOpen hi, h.nop]
    by_cases hj : j = i
    · subst hj
      simp [Whole.nop, h.old]
    · simp [hj]
  · rw [reg_incOpen]; exact h.reg j

theorem NewObj.shut {s : Fs} {o : Orc} {d : Nat} {n : Name} {k : Kind} {t : Fs} {i : Nat}
    (h : NewObj s o d n k true t i) : NewObj s o d n k false (t.decOpen i) i := by
  refine ⟨h.spawn, h.old, h.look, fun p => ?_, fun j => ?_, fun j => ?_⟩
  · rw [entOf_eq (decOpen_ents t i)]; exact h.names p
  · rw [nop_decOpen, h.nop]
    by_cases hj : j = i
    · subst hj
      simp [Whole.nop, h.old]
    · simp [hj]
  · rw [reg_decOpen]; exact h.reg j

theorem NewObj.pin {s : Fs} {o : Orc} {d : Nat} {n : Name} {k : Kind} {t : Fs} {i : Nat}
    (h : NewObj s o d n k false t i) : NewObj s o d n k false (t.modIno i (fun x => { x with pinned := true })) i := by
  refine ⟨h.spawn, h.old, h.look, fun p => h.names p, fun j => ?_, fun j => ?_⟩
  · rw [← h.nop j]
    unfold Whole.nop
    rw [modIno_get]
    by_cases hj : j = i
    · subst hj; rw [if_pos rfl]; cases t.ino j <;> rfl
    · rw [if_neg hj]
  · rw [← h.reg j]
    unfold isReg
    rw [modIno_get]
    by_cases hj : j = i
    · subst hj; rw [if_pos rfl]; cases t.ino j <;> rfl
    · rw [if_neg hj]

/-- Every operation that makes something. -/
theorem body_new {s : Fs} {o : Orc} {op : Ns.Op} {cr : Cred} {d : Nat} {n : Name} {k : Kind} {m : Nat}
    (hop : op.asks cr d n k m) (hok : (op.body s o).1 = none) :
    ∃ i, NewObj s o d n k (decide (op = .create cr d n k m)) (op.body s o).2 i := by
  have hlook : ∀ {dx : Ino} {l : List (Option Err)}, s.ino d = some dx →
      firstErr (checkName n :: s.checkDirCanAdd o.look1 cr d dx n :: l) = none → s.look d n = none := by
    intro dx l hd hc
    simp only [firstErr_cons_none] at hc
    exact (checkDirCanAdd_none hd hc.2.1).2.1
  rcases hop with rfl | ⟨rfl, rfl⟩ | ⟨bb, rfl⟩ | ⟨rfl, rfl⟩ | ⟨rfl, rfl, v, rfl⟩
  · rw [show decide (Ns.Op.create cr d n k m = Ns.Op.create cr d n k m) = true from by simp]
    simp only [Op.body, Fs.create] at hok ⊢
    cases hd : s.ino d with
    | none => rw [hd] at hok; cases hok
    | some dx =>
      rw [hd] at hok
      simp only at hok ⊢
      split at hok
      · cases hok
      · next hc =>
        cases hm : s.make o cr d dx n k m with
        | error e => rw [hm] at hok; cases hok
        | ok r =>
          obtain ⟨a, b⟩ := made_obj hm (hlook hd hc)
          exact ⟨r.1, a.open b⟩
  · rw [show decide (Ns.Op.mknodReg cr d n m = Ns.Op.create cr d n .reg m) = false from by simp]
    simp only [Op.body, Fs.mknodReg, Fs.create] at hok ⊢
    cases hd : s.ino d with
    | none => rw [hd] at hok; cases hok
    | some dx =>
      rw [hd] at hok
      simp only at hok ⊢
      split at hok
      · cases hok
      · next hx =>
        split at hx
        · cases hx
        · next hc =>
          cases hm : s.make o cr d dx n .reg m with
          | error e => rw [hm] at hx; cases hx
          | ok r =>
            rw [hm] at hx
            simp only [Prod.mk.injEq, true_and] at hx
            rw [← hx]
            have hsp := (make_io.2 r.1 r.2 hm).2.1
            obtain ⟨a, b⟩ := made_obj hm (hlook hd hc)
            refine ⟨r.1, ?_⟩
            simp only [hsp]
            exact (a.open b).shut
  · rw [show decide (Ns.Op.mknodSpecial cr d n k m bb = Ns.Op.create cr d n k m) = false from by simp]
    simp only [Op.body, Fs.mknodSpecial] at hok ⊢
    cases hd : s.ino d with
    | none => rw [hd] at hok; cases hok
    | some dx =>
      rw [hd] at hok
      simp only at hok ⊢
      split at hok
      · cases hok
      · next hc =>
        cases hm : s.make o cr d dx n k m with
        | error e => rw [hm] at hok; cases hok
        | ok r =>
          obtain ⟨a, b⟩ := made_obj hm (hlook hd hc)
          exact ⟨r.1, a.pin⟩
  · rw [show decide (Ns.Op.mkdir cr d n m = Ns.Op.create cr d n .dir m) = false from by simp]
    simp only [Op.body, Fs.mkdir] at hok ⊢
    cases hd : s.ino d with
    | none => rw [hd] at hok; cases hok
    | some dx =>
      rw [hd] at hok
      simp only at hok ⊢
      split at hok
      · cases hok
      · next hc =>
        cases hm : s.make o cr d dx n .dir m with
        | error e => rw [hm] at hok; cases hok
        | ok r =>
          obtain ⟨a, b⟩ := made_obj hm (hlook hd hc)
          exact ⟨r.1, a⟩
  · rw [show decide (Ns.Op.symlink cr d n v = Ns.Op.create cr d n .lnk 0o777) = false from by simp]
    simp only [Op.body, Fs.symlink] at hok ⊢
    cases hd : s.ino d with
    | none => rw [hd] at hok; cases hok
    | some dx =>
      rw [hd] at hok
      simp only at hok ⊢
      split at hok
      · cases hok
      · next hc =>
        cases hm : s.make o cr d dx n .lnk 0o777 with
        | error e => rw [hm] at hok; cases hok
        | ok r =>
          obtain ⟨a, b⟩ := made_obj hm (hlook hd hc)
          exact ⟨r.1, a⟩

theorem NewObj.obs {s : Fs} {o : Orc} {d : Nat} {n : Name} {k : Kind} {b : Bool} {t : Fs} {i : Nat}
    (h : NewObj s o d n k b t i) : Obs s t (.made (d, n) (o.spawn.getD 0) (decide (k = .reg)) b) := by
  rw [h.spawn]
  refine ⟨⟨h.look, h.names⟩, ⟨?_, h.nop⟩, fun j _ => h.reg j⟩
  show Whole.nop s i = 0
  unfold Whole.nop; rw [h.old]

/-! ### All operations -/

theorem obs_nothing (s : Fs) : Obs s s .nothing := ⟨fun _ => rfl, fun _ => rfl, fun _ _ => rfl⟩

theorem obs_err {s : Fs} (hc : Core s) (op : Ns.Op) : Obs s s (evErr s op) := by
  cases op <;> exact Obs.broken hc (KN.refl s) (Near.refl _ _) _ _

/-- A failure after which things are as before. -/
theorem obs_refuse {s : Fs} (hc : Core s) (o : Orc) (op : Ns.Op) (e : Err) :
    Obs s s (evName s o op (some e)) := by
  unfold evName
  simp only
  split
  · exact obs_err hc op
  · exact obs_nothing s

/-- An inode without name and handles was left behind. -/
theorem obs_leak {s : Fs} (hc : Core s) {i : Nat} (hi : s.ino i = none) {x : Ino} {cr : Cred} (hx : NewOk cr x) :
    Obs s (s.setIno i (some x)) (.broken [] none none) := by
  have hn : ∀ j, nop (s.setIno i (some x)) j = nop s j := by
    intro j
    unfold nop
    rw [setIno_get]
    by_cases hj : j = i
    · subst hj; rw [if_pos rfl, hi]; exact hx.nopen
    · rw [if_neg hj]
  refine ⟨fun r => .inl rfl, fun j => .inl (hn j), fun j hj => ?_⟩
  show isReg (s.setIno i (some x)) j = isReg s j
  have hne : j ≠ i := by
    rintro rfl
    have hl : LiveN s j := by
      rcases hj with ⟨p, hp⟩ | h | h
      · exact .inl ⟨p, hp⟩
      · rw [hn] at h; exact .inr (.inl h)
      · exact .inr (.inr h)
    exact live_ino hc hl hi
  unfold isReg
  rw [setIno_get, if_neg hne]

theorem evName_eio (s : Fs) (o : Orc) (op : Ns.Op) : evName s o op (some .eio) = evErr s op := by
  unfold evName; exact if_pos (.inr rfl)

theorem evName_enospc (s : Fs) (o : Orc) (op : Ns.Op) : evName s o op (some .enospc) = evErr s op := by
  unfold evName; exact if_pos (.inl rfl)

/-- Removing a name and disposing of the object. -/
theorem obs_rem {s : Fs} {o : Orc} {op : Ns.Op} {d : Nat} {n : Name} {c : Nat} {b : Bool} {r : Option Err × Fs}
    (hl : s.look d n = some c) (h : RemRes s d n c b r) (he : evErr s op = .broken [(d, n)] none none)
    (ho : evOk s o op = .removed (d, n)) : Obs s r.2 (evName s o op r.1) := by
  have hkn : KN s r.2 := ⟨h.keeps, h.nonew⟩
  rcases h.err with h0 | h0
  · rw [h0]
    show Obs s r.2 (evOk s o op)
    rw [ho]
    refine ⟨⟨?_, fun p => ?_⟩, hkn.nop, fun j hj => hkn.reg (live_ino h.inv.core hj)⟩
    · show s.look d n ≠ none
      rw [hl]; simp
    · rw [entOf_eq (h.done h0).1]
      show (s.delDent d n c b).look p.1 p.2 = _
      rw [delDent_look]
      by_cases hp : p.1 = d ∧ p.2 = n
      · rw [if_pos hp, if_pos (Prod.ext hp.1 hp.2)]
      · rw [if_neg hp, if_neg (fun e => hp (by rw [e]; exact ⟨rfl, rfl⟩))]
        rfl
  · rw [h0, evName_eio, he]
    exact Obs.broken h.inv.core hkn (Near.rem h (List.mem_singleton.2 rfl)) _ _

theorem pruned_kn {s t : Fs} {i : Nat} (h : Pruned s t i) : KN s t := ⟨h.keeps, h.nonew⟩

theorem nop_of {s : Fs} {i : Nat} {x : Ino} (h : s.ino i = some x) : nop s i = x.nopen := by
  unfold nop; rw [h]

/-- What a rename did to names on failure, and to inodes in any case. -/
theorem rename_near {s : Fs} {o : Orc} {cr : Cred} {d : Nat} {n : Name} {d2 : Nat} {n2 : Name} {f : RFlags}
    (hg : Good s) (hv : Vfs s (.rename cr d n d2 n2 f)) :
    KN s ((Op.rename cr d n d2 n2 f).body s o).2 ∧
    Near [(d, n), (d2, n2)] (entOf s) (entOf ((Op.rename cr d n d2 n2 f).body s o).2) ∧
    (((Op.rename cr d n d2 n2 f).body s o).1 = none ∨ ((Op.rename cr d n d2 n2 f).body s o).2 = s ∨
      ((Op.rename cr d n d2 n2 f).body s o).1 = some .eio ∨ ((Op.rename cr d n d2 n2 f).body s o).1 = some .enospc) := by
  have he := body_eff s o (.rename cr d n d2 n2 f)
  have hi := hg.inv
  have m1 : (d, n) ∈ [(d, n), (d2, n2)] := by simp
  have m2 : (d2, n2) ∈ [(d, n), (d2, n2)] := by simp
  have n0 := Near.refl [(d, n), (d2, n2)] (entOf s)
  generalize hr : (Op.rename cr d n d2 n2 f).body s o = r at he
  cases he with
  | refuse op e => exact ⟨KN.refl s, n0, .inr (.inl rfl)⟩
  | undo op cr d n i x hop hx hu => rw [setIno_undo hx]; exact ⟨KN.refl s, n0, .inr (.inl rfl)⟩
  | leak op cr d n i x hop hx hu hnew =>
    rcases hop with ⟨_, _, h⟩ | ⟨_, h⟩ | ⟨_, _, _, h⟩ | ⟨_, h⟩ | ⟨_, h⟩ <;> cases h
  | made op m cr d dx n i x hop hd hn hl hx h0 hnew hadd =>
    rcases hop with ⟨_, _, h⟩ | ⟨_, h⟩ | ⟨_, _, _, h⟩ | ⟨_, h⟩ | ⟨_, h⟩ <;> cases h
  | renSame cr d dx n d2 dx2 n2 f c x hrm hd2 hl2 hnr =>
    have hdir : x.isDir = false := by
      have : s.isDirI c = false := hv c hrm.look hl2
      rw [isDirI_of hrm.ino] at this; exact this
    have hp := remPrune_res hi (o := o) (rr := o.rem1) hrm.ino hrm.look (by rw [hdir]; intro h; exact absurd h (by decide))
    refine ⟨⟨hp.keeps, hp.nonew⟩, Near.rem hp m1, ?_⟩
    rcases hp.err with h | h
    · exact .inl h
    · exact .inr (.inr (.inl h))
  | moved cr d dx n d2 dx2 n2 f c x hrm hd2 hl2 hn2 hex hca =>
    have hq : entOf s (d, n) = some c := hrm.look
    rcases renameMove_cases (s := s) (o := o) (d := d) (n := n) (d2 := d2) (n2 := n2) (c := c) (b := x.isDir) hca with
      ⟨h1, hh⟩ | ⟨h1, hh⟩ | ⟨h1, hh, hh2⟩ | ⟨h1, hh, hh2⟩ <;> rw [h1]
    · exact ⟨KN.refl s, n0, .inr (.inl rfl)⟩
    · exact ⟨KN.del _ _ _ _ _, n0.del m1 _ _, .inr (.inr (.inl rfl))⟩
    · exact ⟨KN.del _ _ _ _ _, n0.del m1 _ _, .inr (.inr (.inr rfl))⟩
    · exact ⟨(KN.del _ _ _ _ _).trans (KN.add _ _ _ _ _), (n0.del m1 _ _).add m2 m1 hq _, .inl rfl⟩
  | exchanged cr d dx n d2 dx2 n2 f c x c2 x2 hrm hrm2 hne hex hnr =>
    have hq : entOf s (d, n) = some c := hrm.look
    have hq2 : entOf s (d2, n2) = some c2 := hrm2.look
    have k1 := KN.del s d n c x.isDir
    have k2 := k1.trans (KN.del _ d2 n2 c2 x2.isDir)
    have k3 := k2.trans (KN.add _ d2 n2 c x.isDir)
    have e1 := n0.del m1 c x.isDir
    have e2 := e1.del m2 c2 x2.isDir
    have e3 := e2.add m2 m1 hq x.isDir
    rcases renameExchange_cases (s := s) (o := o) (d := d) (n := n) (d2 := d2) (n2 := n2) (c := c) (b := x.isDir)
      (c2 := c2) (b2 := x2.isDir) with
      ⟨h1, hh⟩ | ⟨h1, hh⟩ | ⟨h1, hh, hh2⟩ | ⟨h1, hh, hh2, hh3, hh4⟩ | ⟨h1, hh, hh2, hh3, hh4⟩
    · rw [h1]; exact ⟨KN.refl s, n0, .inr (.inl rfl)⟩
    · rw [h1]; exact ⟨k1, e1, .inr (.inr (.inl rfl))⟩
    · rcases h1 with h1 | h1 <;> rw [h1]
      · exact ⟨k2, e2, .inr (.inr (.inl rfl))⟩
      · exact ⟨k2, e2, .inr (.inr (.inr rfl))⟩
    · rw [h1]; exact ⟨k3, e3, .inr (.inr (.inr rfl))⟩
    · rw [h1]; exact ⟨k3.trans (KN.add _ _ _ _ _), e3.add m1 m2 hq2 _, .inl rfl⟩
  | replaced cr d dx n d2 dx2 n2 f c x c2 x2 hrm hrm2 hne hex hnr hemp =>
    have hb : s.ndents c2 = 0 := by
      cases h : x2.isDir with
      | true => exact isEmpty_ndents (hemp h).1
      | false => exact ndents_file hi.core (by rw [isDirI_of hrm2.ino]; exact h)
    have hq : entOf s (d, n) = some c := hrm.look
    have hp := remPrune_res hi (o := o) (rr := o.rem2) hrm2.ino hrm2.look (fun _ => hb)
    have hcases := renameReplace_cases (s := s) (o := o) (d := d) (n := n) (d2 := d2) (n2 := n2) (c := c) (b := x.isDir)
      (c2 := c2) (b2 := x2.isDir)
    simp only at hcases
    have kp : KN s (s.remPrune o o.rem2 d2 n2 c2 x2.isDir).2 := ⟨hp.keeps, hp.nonew⟩
    have np := Near.rem hp m2
    rcases hcases with ⟨h1, hh⟩ | ⟨hp0, h1, hh⟩ | ⟨hp0, h1, hh⟩ | ⟨hp0, h1, hh, hh2⟩ | ⟨hp0, h1, hh, hh2⟩ <;> rw [h1]
    · refine ⟨kp, np, ?_⟩
      rcases hp.err with h | h
      · exact .inl h
      · exact .inr (.inr (.inl h))
    · exact ⟨kp, np, .inr (.inr (.inl rfl))⟩
    · exact ⟨kp.trans (KN.del _ _ _ _ _), np.del m1 _ _, .inr (.inr (.inl rfl))⟩
    · exact ⟨kp.trans (KN.del _ _ _ _ _), np.del m1 _ _, .inr (.inr (.inr rfl))⟩
    · exact ⟨(kp.trans (KN.del _ _ _ _ _)).trans (KN.add _ _ _ _ _), (np.del m1 _ _).add m2 m1 hq _, .inl rfl⟩

theorem body_obs {s : Fs} {o : Orc} {op : Ns.Op} (hg : Good s) (hv : Vfs s op) (ht : TearFree s o op) :
    Obs s (op.body s o).2 (evName s o op (op.body s o).1) := by
  have he := body_eff s o op
  have hi := hg.inv
  have hres := body_res hg hv ht
  by_cases hren : ∃ cr d n d2 n2 f, op = .rename cr d n d2 n2 f
  · obtain ⟨cr, d, n, d2, n2, f, rfl⟩ := hren
    obtain ⟨hkn, hnear, hout⟩ := rename_near (o := o) hg hv
    have hlk := body_rename_look (o := o) hg hv
    generalize hr : (Op.rename cr d n d2 n2 f).body s o = r at *
    cases h1 : r.1 with
    | none =>
      obtain ⟨c, a1, a2, a3, a4, a5⟩ := hlk h1
      have hpl : ∀ p : Place, ∀ d n, (p.1 = d ∧ p.2 = n) ↔ p = (d, n) := by
        intro p d n
        constructor
        · rintro ⟨rfl, rfl⟩; rfl
        · rintro rfl; exact ⟨rfl, rfl⟩
      show Obs s r.2 (evOk s o (.rename cr d n d2 n2 f))
      unfold evOk
      simp only
      by_cases hs : s.look d n = s.look d2 n2
      · rw [if_pos hs]
        rw [a1] at hs
        refine ⟨⟨?_, fun p => ?_⟩, hkn.nop, fun j hj => hkn.reg (live_ino hres.inv.core hj)⟩
        · show s.look d n ≠ none
          rw [a1]; simp
        · show r.2.look p.1 p.2 = _
          rw [a3 hs.symm]
          by_cases hp : p = (d, n)
          · rw [if_pos hp, if_pos ((hpl p d n).2 hp)]
          · rw [if_neg hp, if_neg (fun h => hp ((hpl p d n).1 h))]; rfl
      · rw [if_neg hs]
        have hne : s.look d2 n2 ≠ some c := fun h => hs (a1.trans h.symm)
        have hfin : ∀ (v : Option Nat), (v = if f.exchange = true then s.look d2 n2 else none) →
            (f.exchange = true → s.look d2 n2 ≠ none) →
            (∀ d' n', r.2.look d' n' = if d' = d2 ∧ n' = n2 then some c else if d' = d ∧ n' = n then v else s.look d' n') →
            Obs s r.2 (.renamed (d, n) (d2, n2) f.exchange) := by
          intro v hv2 hx hl
          refine ⟨⟨?_, hx, fun p => ?_⟩, hkn.nop, fun j hj => hkn.reg (live_ino hres.inv.core hj)⟩
          · show s.look d n ≠ none
            rw [a1]; simp
          · show r.2.look p.1 p.2 = if p = (d2, n2) then s.look d n else if p = (d, n) then (if f.exchange = true then s.look d2 n2 else none) else s.look p.1 p.2
            rw [hl, a1, ← hv2]
            simp only [hpl]
        cases hx : f.exchange with
        | false =>
          rw [← hx]
          exact hfin none (by rw [hx]; rfl) (by rw [hx]; intro h; cases h) (a4 hne hx)
        | true =>
          rw [← hx]
          obtain ⟨c2, b1, b2⟩ := a5 hne hx
          exact hfin (some c2) (by rw [hx, b1]; rfl) (by rw [b1]; simp) b2
    | some e =>
      rcases hout with h | h | h | h
      · rw [h] at h1; cases h1
      · rw [h]; exact obs_refuse hg.core o _ e
      · rw [h] at h1; cases h1
        rw [evName_eio]
        exact Obs.broken hres.inv.core hkn hnear _ _
      · rw [h] at h1; cases h1
        rw [evName_enospc]
        exact Obs.broken hres.inv.core hkn hnear _ _
  · generalize hr : op.body s o = r at he hres
    cases he with
    | refuse op e => exact obs_refuse hg.core o op e
    | nothing i => exact obs_nothing s
    | undo op cr d n i x hop hx hu => rw [setIno_undo hx]; exact obs_refuse hg.core o op _
    | leak op cr d n i x hop hx hu hnew =>
      show Obs s _ (evName s o op (some .enospc))
      rw [evName_enospc]
      rcases hop with ⟨_, _, h⟩ | ⟨_, h⟩ | ⟨_, _, _, h⟩ | ⟨_, h⟩ | ⟨_, h⟩ <;> subst h <;> exact obs_leak hg.core hx hnew
    | made op m cr d dx n i x hop hd hn hl hx h0 hnew hadd =>
      rw [← hr]
      have hok : (op.body s o).1 = none := by rw [hr]
      rw [hok]
      show Obs s _ (evOk s o op)
      rcases hop with ⟨k, m, h⟩ | ⟨m, h⟩ | ⟨k, m, b, h⟩ | ⟨m, h⟩ | ⟨v, h⟩ <;> subst h
      · obtain ⟨i, h⟩ := body_new (k := k) (m := m) (.inl rfl) hok
        have := h.obs
        rwa [show decide (Ns.Op.create cr d n k m = Ns.Op.create cr d n k m) = true from by simp] at this
      · obtain ⟨i, h⟩ := body_new (k := .reg) (m := m) (.inr (.inl ⟨rfl, rfl⟩)) hok
        exact h.obs
      · obtain ⟨i, h⟩ := body_new (k := k) (m := m) (.inr (.inr (.inl ⟨b, rfl⟩))) hok
        exact h.obs
      · obtain ⟨i, h⟩ := body_new (k := .dir) (m := m) (.inr (.inr (.inr (.inl ⟨rfl, rfl⟩)))) hok
        exact h.obs
      · obtain ⟨i, h⟩ := body_new (k := .lnk) (m := 0o777) (.inr (.inr (.inr (.inr ⟨rfl, rfl, v, rfl⟩)))) hok
        exact h.obs
    | linked cr d dx n i x hd hl hx hdir hlm hadd =>
      have hkn := KN.add s d n i x.isDir
      refine ⟨⟨hl, fun p => ?_⟩, hkn.nop, fun j hj => hkn.reg (live_ino hres.inv.core hj)⟩
      show (s.addDent d n i x.isDir).look p.1 p.2 = _
      rw [addDent_look]
      by_cases hp : p.1 = d ∧ p.2 = n
      · rw [if_pos hp, if_pos (Prod.ext hp.1 hp.2)]
      · rw [if_neg hp, if_neg (fun e => hp (by rw [e]; exact ⟨rfl, rfl⟩))]
        rfl
    | unlinked cr d dx n c x hrm hdir =>
      exact obs_rem hrm.look (remPrune_res hi (o := o) (rr := o.rem1) hrm.ino hrm.look
        (by rw [hdir]; intro h; exact absurd h (by decide))) rfl rfl
    | rmdired cr d dx n c x hrm hdir hemp hroot =>
      exact obs_rem hrm.look (remPrune_res hi (o := o) (rr := o.rem1) hrm.ino hrm.look
        (fun _ => isEmpty_ndents hemp)) rfl rfl
    | openedReg cr i f x hx hdir hacc =>
      have hne : s.ino i ≠ none := by rw [hx]; simp
      exact ⟨fun p => look_of_ents (incOpen_ents s i) p.1 p.2, nop_incOpen hne, fun j _ => reg_incOpen s i j⟩
    | openedDir cr i f x hx hdir hacc =>
      have hne : s.ino i ≠ none := by rw [hx]; simp
      exact ⟨fun p => look_of_ents (incOpen_ents s i) p.1 p.2, nop_incOpen hne, fun j _ => reg_incOpen s i j⟩
    | released i b f x hx hop =>
      have hs := decOpen_same s i
      have hi1 : Inv No (s.decOpen i) := ⟨hi.core.same hs, hi.anch.same hs, hi.loose.decOpen i⟩
      have hp := prune_pruned (o := o) hi1 i (fun h => h)
      have hkn := pruned_kn hp
      have hents : entOf ((s.decOpen i).prune o i).2 = entOf s := entOf_eq (hp.ents.trans (decOpen_ents s i))
      have hnop : ∀ j, nop ((s.decOpen i).prune o i).2 j = if j = i then nop s j - 1 else nop s j := by
        intro j; rw [hkn.nop, nop_decOpen]
      have hpos : 0 < nop s i := by rw [nop_of hx]; exact hop
      have hkind : ∀ j, LiveN ((s.decOpen i).prune o i).2 j → isReg ((s.decOpen i).prune o i).2 j = isReg s j := by
        intro j hj
        rw [hkn.reg (live_ino hres.inv.core hj), reg_decOpen]
      rcases prune_err o (s.decOpen i) i (hi.loose.decOpen i) with h | h <;> rw [h]
      · exact ⟨fun p => congrFun hents p, ⟨hpos, hnop⟩, hkind⟩
      · rw [evName_eio]
        refine ⟨fun p => .inl (congrFun hents p), fun j => ?_, hkind⟩
        rw [hnop]
        by_cases hj : j = i
        · subst hj; exact .inr ⟨rfl, by rw [if_pos rfl]; omega⟩
        · exact .inl (if_neg hj)
    | forgotten i x hx hpin =>
      have hs : Same s (s.setIno i (some { x with pinned := false })) := same_setIno hx rfl rfl rfl
      have hi1 : Inv No (s.setIno i (some { x with pinned := false })) :=
        ⟨hi.core.same hs, hi.anch.same hs, hi.loose.set (fun h => hi.loose i x hx h)⟩
      have hp := prune_pruned (o := o) hi1 i (fun h => h)
      have hk0 : KN s (s.setIno i (some { x with pinned := false })) := by
        refine ⟨fun j y hy => ?_, fun j hj => ?_⟩
        · rw [setIno_get]
          by_cases h : j = i
          · subst h; rw [hx] at hy; cases hy
            exact .inl ⟨_, if_pos rfl, rfl, rfl, id, .inl rfl⟩
          · exact .inl ⟨y, by rw [if_neg h]; exact hy, rfl, rfl, id, .inl rfl⟩
        · rw [setIno_get, if_neg (by rintro rfl; rw [hx] at hj; cases hj)]; exact hj
      have hkn := hk0.trans (pruned_kn hp)
      have hents : entOf ((s.setIno i (some { x with pinned := false })).prune o i).2 = entOf s := entOf_eq hp.ents
      rcases prune_err o (s.setIno i (some { x with pinned := false })) i hi1.loose with h | h <;> rw [h]
      · exact ⟨fun p => congrFun hents p, hkn.nop, fun j hj => hkn.reg (live_ino hres.inv.core hj)⟩
      · rw [evName_eio]
        exact Obs.broken hres.inv.core hkn (by rw [hents]; exact Near.refl _ _) _ _
    | _ => exact absurd ⟨_, _, _, _, _, _, rfl⟩ hren

end Silofs.Whole
