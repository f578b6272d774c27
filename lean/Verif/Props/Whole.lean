import Verif.Props.WholeNames
import Verif.Props.NameiWit
import Verif.Props.FileCopy
/-
C63: names and contents together.
-/
set_option linter.unusedSimpArgs false
set_option linter.unusedVariables false
namespace Silofs.Whole

open Silofs.Ns (Fs Orc Ino Out Good Vfs TearFree Err Kind Keeps NoNew Cred)
open Silofs.WholeSpec (AFs AEv AStep ARun Place)

/-- What programs see. -/
def absW (w : W) : AFs :=
  { ent := entOf w.ns
    reg := isReg w.ns
    file := File.abs w.st
    nopen := nop w.ns }

/-- The error reported. -/
def outErr : Out → Option Err
  | .ok => none
  | .err e => some e
  | .die => none

/-- What a request and its outcome mean to programs. -/
def Req.ev (w : W) : Req → AEv
  | .name q => evName w.ns (q.orc w) q.op (outErr (q.run w).1)
  | .data i op fo => if mayIo w.ns i op then .io i op.spec (op.run i w.st fo).1.spec else .nothing
  | .copy i1 off1 i2 off2 len fo =>
    if mayIo w.ns i1 (.read 0 0) ∧ mayIo w.ns i2 (.read 0 0) then
      match (File.opCopy i1 off1 i2 off2 len w.st fo).1 with
      | .ok _ => .copied i1 off1.toNat i2 off2.toNat len
      | .failed _ => .copyBroken i2 off2.toNat len
      | .rejected _ => .nothing
    else .nothing

/-- What is asked of a request: the kernel's guarantees about names (`Vfs`; truncation by path is
of a file within reach), no rename that fails half-way with a directory in its hands, no abort;
arguments of the right size; copies as in `C04_copy_partial`. -/
def Req.Fine (w : W) : Req → Prop
  | .name q => Vfs w.ns q.op ∧ TearFree w.ns (q.orc w) q.op ∧ (q.run w).1 ≠ .die
  | .data i op _ => op.Arg ∧ (∀ off, op = .truncate off → LiveN w.ns i)
  | .copy i1 off1 i2 off2 len fo => File.Plain w.st i1 off1.toNat i2 off2.toNat len ∧ 0 ≤ off2 ∧
      ((∀ e, (File.opCopy i1 off1 i2 off2 len w.st fo).1 ≠ .failed e) ∨ off2.toNat + len ≤ (w.st.file i2).size)

/-- Invariant. -/
structure WInv (w : W) : Prop where
  ns : Good w.ns
  st : File.Inv w.st

theorem orc_spawn (q : NReq) (w : W) : (q.orc w).spawn = q.o.spawn := by
  unfold NReq.orc
  split
  · split <;> rfl
  · split <;> rfl

theorem outErr_eq {s : Fs} {o : Orc} {op : Ns.Op} (h : (s.step o op).1 ≠ .die) :
    outErr (s.step o op).1 = (op.body s o).1 := by
  cases ho : (s.step o op).1 with
  | ok => rw [Ns.step_ok ho]; rfl
  | err e => rw [Ns.step_err ho]; rfl
  | die => exact absurd ho h

/-! ### The data part -/

theorem dropRun_zap {st : File.St} (h : File.Inv st) (i : Nat) (fo : List File.Ans) :
    File.Zap i st (dropRun i st fo).2 := by
  have := File.dropAll_wp h.ok i fo
  unfold dropRun
  rcases hx : File.dropAll i st fo with ⟨r | d, s', o'⟩
  · rw [hx] at this; exact this
  · rw [hx] at this; exact this.1

theorem dropRun_inv {st : File.St} (h : File.Inv st) (i : Nat) (fo : List File.Ans) :
    File.Inv (dropRun i st fo).2 ∧ ∀ j, j ≠ i → File.abs (dropRun i st fo).2 j = File.abs st j :=
  (dropRun_zap h i fo).cut.inv h

theorem fresh_inv {st : File.St} (h : File.Inv st) (i : Nat) (ft2 : Bool) :
    File.Inv (st.setFile i { ft2 := ft2 }) ∧ File.abs (st.setFile i { ft2 := ft2 }) i = .empty ∧
    ∀ j, j ≠ i → File.abs (st.setFile i { ft2 := ft2 }) j = File.abs st j := by
  refine ⟨⟨h.ok.emptyFile i ft2, fun f' p hp => ?_, fun f' => ?_, fun f' => ?_⟩, File.afile_ext ?_ (fun p => ?_),
    fun j hj => File.afile_ext ?_ (fun p => ?_)⟩
  · rw [File.byteAt_emptyFile]
    split
    · rfl
    · rename_i hf
      rw [File.setFile_other _ _ hf] at hp
      exact h.tail f' p hp
  · by_cases hf : f' = i
    · subst hf; rw [File.setFile_same]; exact Nat.zero_le _
    · rw [File.setFile_other _ _ hf]; exact h.size f'
  · by_cases hf : f' = i
    · subst hf; rw [File.setFile_same]; exact Nat.zero_le _
    · rw [File.setFile_other _ _ hf]; exact h.span f'
  · show ((st.setFile i _).file i).size = _
    rw [File.setFile_same]; rfl
  · show File.byteAt (st.setFile i _) i p = _
    rw [File.byteAt_emptyFile, if_pos rfl]; rfl
  · show ((st.setFile i _).file j).size = _
    rw [File.setFile_other _ _ hj]; rfl
  · show File.byteAt (st.setFile i _) j p = _
    rw [File.byteAt_emptyFile, if_neg hj]; rfl

theorem truncRun_step {st : File.St} (h : File.Inv st) (i : Nat) (fo : List File.Ans) :
    File.Inv (truncRun i st fo).2 ∧ (∀ j, j ≠ i → File.abs (truncRun i st fo).2 j = File.abs st j) ∧
    ((truncRun i st fo).1 = false → File.abs (truncRun i st fo).2 i = (File.abs st i).truncate 0) ∧
    (File.abs (truncRun i st fo).2 i = File.abs st i ∨
      (FileSpec.Op.truncate 0).Partial (File.abs st i) (File.abs (truncRun i st fo).2 i) ∨ (truncRun i st fo).1 = false) := by
  have := File.C01_request_partial h i (.truncate 0) (by constructor <;> decide) fo
  unfold truncRun
  rcases hx : File.FOp.run i (.truncate 0) st fo with ⟨r, s'⟩
  rw [hx] at this
  obtain ⟨h1, h2, h3⟩ := this
  cases r with
  | ok d => exact ⟨h1, h2, fun _ => h3.1, .inr (.inr rfl)⟩
  | failed e => exact ⟨h1, h2, fun h => by simp at h, .inr (.inl h3)⟩
  | rejected e => exact ⟨h1, h2, fun h => by simp at h, .inl h3⟩

/-! ### Who is affected -/

theorem live_same {s t : Fs} (he : t.ents = s.ents) (hn : ∀ j, nop t j = nop s j) {j : Nat} (h : LiveN t j) : LiveN s j := by
  rcases h with ⟨p, hp⟩ | h | h
  · exact .inl ⟨p, by rw [← entOf_eq he]; exact hp⟩
  · exact .inr (.inl (by rw [← hn]; exact h))
  · exact .inr (.inr h)

/-- A file whose data were touched by disposal is out of reach. -/
theorem dropped_dead {s : Fs} {o : Orc} {op : Ns.Op} (hg : Good s) (hv : Vfs s op) (ht : TearFree s o op) {v : Nat}
    (hd : dropped s (op.body s o).2 v = true) : ¬ LiveN (op.body s o).2 v := by
  have hr := Ns.body_res hg hv ht
  intro hl
  have hne := live_ino hr.inv.core hl
  cases hy : (op.body s o).2.ino v with
  | none => exact hne hy
  | some y =>
    have hy' := hy
    have hloose : y.loose = true := by
      unfold dropped at hd
      rw [hy] at hd
      cases hx : s.ino v with
      | none => rw [hx] at hd; cases hd
      | some x =>
        rw [hx] at hd
        simp only [Bool.and_eq_true, Bool.or_eq_true, decide_eq_true_eq, Bool.not_eq_true'] at hd
        obtain ⟨⟨_, d1 | ⟨d3, _⟩⟩, d2⟩ := hd
        case inr => exact d3
        rcases hr.keeps with hk | ⟨i, z, hz, _, hk⟩ | ⟨i, z, hz, _, _, hk⟩
        · rcases hk v x hx with ⟨y', e1, _, _, _, e2⟩ | ⟨e1, _⟩
          · rw [hy] at e1; cases e1
            rcases e2 with e2 | e2
            · rw [d1, d2] at e2; cases e2
            · exact e2
          · rw [hy] at e1; cases e1
        · rw [hk, Ns.incOpen_ino, hx] at hy
          simp only [Option.map_some, Option.some.injEq] at hy
          rw [← hy] at d2
          exfalso
          simp only at d2
          rw [d1] at d2
          cases d2
        · have hx2 : ∃ x2, (s.decOpen i).ino v = some x2 ∧ x2.data = x.data := by
            rw [Ns.decOpen_ino, hx]
            exact ⟨_, rfl, rfl⟩
          obtain ⟨x2, hx2, hx3⟩ := hx2
          rcases hk v x2 hx2 with ⟨y', e1, _, _, _, e2⟩ | ⟨e1, _⟩
          · rw [hy] at e1; cases e1
            rcases e2 with e2 | e2
            · rw [hx3, d1, d2] at e2; cases e2
            · exact e2
          · rw [hy] at e1; cases e1
    have hlv : v = Ns.ROOT ∨ 0 < (op.body s o).2.names v ∨ 0 < y.nopen := by
      rcases hl with ⟨p, hp⟩ | h | h
      · exact .inr (.inl (Ns.names_pos_look hp))
      · rw [nop_of hy'] at h; exact .inr (.inr h)
      · exact .inl h
    have := hr.inv.noLoose hy' hlv
    rw [this] at hloose; cases hloose

/-- Only operations that make something have a new inode. -/
theorem body_nonew {s : Fs} {o : Orc} {op : Ns.Op} (hg : Good s) (hv : Vfs s op) (ht : TearFree s o op)
    (hm : ¬ ∃ cr d n, op.makes cr d n) : NoNew s (op.body s o).2 := by
  have he := Ns.body_eff s o op
  have hi := hg.inv
  by_cases hren : ∃ cr d n d2 n2 f, op = .rename cr d n d2 n2 f
  · obtain ⟨cr, d, n, d2, n2, f, rfl⟩ := hren
    exact (rename_near (o := o) hg hv).1.nonew
  · generalize hr : op.body s o = r at he
    cases he with
    | refuse op e => exact fun _ h => h
    | nothing i => exact fun _ h => h
    | undo op cr d n i x hop hx hu => exact absurd ⟨_, _, _, hop⟩ hm
    | leak op cr d n i x hop hx hu hnew => exact absurd ⟨_, _, _, hop⟩ hm
    | made op m cr d dx n i x hop hd hn hl hx h0 hnew hadd => exact absurd ⟨_, _, _, hop⟩ hm
    | linked cr d dx n i x hd hl hx hdir hlm hadd => exact (KN.add s d n i x.isDir).nonew
    | unlinked cr d dx n c x hrm hdir =>
      exact (Ns.remPrune_res hi (o := o) (rr := o.rem1) hrm.ino hrm.look
        (by rw [hdir]; intro h; exact absurd h (by decide))).nonew
    | rmdired cr d dx n c x hrm hdir hemp hroot =>
      exact (Ns.remPrune_res hi (o := o) (rr := o.rem1) hrm.ino hrm.look (fun _ => Ns.isEmpty_ndents hemp)).nonew
    | openedReg cr i f x hx hdir hacc =>
      intro j hj
      show (s.incOpen i).ino j = none
      rw [Ns.incOpen_ino, hj]; rfl
    | openedDir cr i f x hx hdir hacc =>
      intro j hj
      show (s.incOpen i).ino j = none
      rw [Ns.incOpen_ino, hj]; rfl
    | released i b f x hx hop =>
      have hs := Ns.decOpen_same s i
      have hi1 : Ns.Inv Ns.No (s.decOpen i) := ⟨hi.core.same hs, hi.anch.same hs, hi.loose.decOpen i⟩
      intro j hj
      refine (Ns.prune_pruned (o := o) hi1 i (fun h => h)).nonew j ?_
      rw [Ns.decOpen_ino, hj]; rfl
    | forgotten i x hx hpin =>
      have hs : Ns.Same s (s.setIno i (some { x with pinned := false })) := Ns.same_setIno hx rfl rfl rfl
      have hi1 : Ns.Inv Ns.No (s.setIno i (some { x with pinned := false })) :=
        ⟨hi.core.same hs, hi.anch.same hs, hi.loose.set (fun h => hi.loose i x hx h)⟩
      intro j hj
      refine (Ns.prune_pruned (o := o) hi1 i (fun h => h)).nonew j ?_
      rw [Ns.setIno_get, if_neg (by rintro rfl; rw [hx] at hj; cases hj)]; exact hj
    | _ => exact absurd ⟨_, _, _, _, _, _, rfl⟩ hren

/-- Events that leave all bytes alone. -/
def Calm : AEv → Prop
  | .linked _ _ => True
  | .removed _ => True
  | .renamed _ _ _ => True
  | .opened _ trunc => trunc = false
  | .closed _ => True
  | .nothing => True
  | .broken _ _ _ => True
  | _ => False

theorem Calm.bytes {e : AEv} (h : Calm e) {x : FileSpec.FS} {j : Nat} {a : FileSpec.AFile} (ha : a = x j) :
    e.Bytes x j a := by
  cases e with
  | opened i tr =>
    have h' : tr = false := h
    subst h'
    show if j = i ∧ false = true then _ else a = x j
    rw [if_neg (by simp)]
    exact ha
  | broken ps sh cut =>
    show if cut = some j then _ else a = x j
    split
    · exact .inl ha
    · exact ha
  | made p i b o => exact absurd h (fun h => h)
  | io i op r => exact absurd h (fun h => h)
  | copied i1 o1 i2 o2 len => exact absurd h (fun h => h)
  | copyBroken i2 o2 len => exact absurd h (fun h => h)
  | _ => exact ha

theorem calm_err (s : Fs) (op : Ns.Op) : Calm (evErr s op) := by cases op <;> trivial

theorem calm_name {s : Fs} {o : Orc} {op : Ns.Op} (r : Option Err) (hm : ¬ ∃ cr d n, op.makes cr d n)
    (ho : ∀ cr i f, op = .openReg cr i f → f.trunc = false ∨ isReg s i = false) : Calm (evName s o op r) := by
  cases r with
  | some e =>
    unfold evName
    simp only
    split
    · exact calm_err s op
    · trivial
  | none =>
    show Calm (evOk s o op)
    cases op with
    | create cr d n k m => exact absurd ⟨cr, d, n, .inl ⟨k, m, rfl⟩⟩ hm
    | mknodReg cr d n m => exact absurd ⟨cr, d, n, .inr (.inl ⟨m, rfl⟩)⟩ hm
    | mknodSpecial cr d n k m b => exact absurd ⟨cr, d, n, .inr (.inr (.inl ⟨k, m, b, rfl⟩))⟩ hm
    | mkdir cr d n m => exact absurd ⟨cr, d, n, .inr (.inr (.inr (.inl ⟨m, rfl⟩)))⟩ hm
    | symlink cr d n v => exact absurd ⟨cr, d, n, .inr (.inr (.inr (.inr ⟨v, rfl⟩)))⟩ hm
    | rename cr d n d2 n2 f => unfold evOk; simp only; split <;> trivial
    | openReg cr i f =>
      show (f.trunc && isReg s i) = false
      rcases ho cr i f rfl with h | h <;> rw [h] <;> simp
    | openDir cr i f => rfl
    | _ => trivial

/-- The data part of an operation on names. -/
theorem data_part {w : W} (h : WInv w) (q : NReq) (hv : Vfs w.ns q.op) (ht : TearFree w.ns (q.orc w) q.op) :
    File.Inv (q.data w) ∧ ∀ j, LiveN (q.op.body w.ns (q.orc w)).2 j → isReg (q.op.body w.ns (q.orc w)).2 j = true →
      (evName w.ns (q.orc w) q.op (q.op.body w.ns (q.orc w)).1).Bytes (File.abs w.st) j (File.abs (q.data w) j) := by
  have hobs := body_obs h.ns hv ht
  by_cases hopen : ∃ cr i f, q.op = .openReg cr i f
  · obtain ⟨cr, i, f, hop⟩ := hopen
    have hdata : q.data w = if f.trunc = true ∧ isReg w.ns i = true ∧
        (w.ns.openReg { q.o with trunc := false } cr i f).1 = none then (truncRun i w.st q.fo).2 else w.st := by
      unfold NReq.data; rw [hop]
    have horc : q.orc w = if f.trunc = true ∧ isReg w.ns i = true then { q.o with trunc := (truncRun i w.st q.fo).1 } else q.o := by
      unfold NReq.orc; rw [hop]
    rw [hop] at hobs ⊢
    show _ ∧ ∀ j, LiveN (w.ns.openReg (q.orc w) cr i f).2 j → isReg (w.ns.openReg (q.orc w) cr i f).2 j = true →
      (evName w.ns (q.orc w) (.openReg cr i f) (w.ns.openReg (q.orc w) cr i f).1).Bytes (File.abs w.st) j (File.abs (q.data w) j)
    by_cases hc : f.trunc = true ∧ isReg w.ns i = true
    · rw [if_pos hc] at horc
      by_cases hc2 : (w.ns.openReg { q.o with trunc := false } cr i f).1 = none
      · rw [if_pos ⟨hc.1, hc.2, hc2⟩] at hdata
        obtain ⟨t1, t2, t3, t4⟩ := truncRun_step h.st i q.fo
        have hres : (w.ns.openReg (q.orc w) cr i f).1 = if (truncRun i w.st q.fo).1 = true then some .eio else none := by
          rw [horc]
          unfold Fs.openReg at hc2 ⊢
          cases hx : w.ns.ino i with
          | none => rw [hx] at hc2; cases hc2
          | some x =>
            rw [hx] at hc2
            simp only at hc2 ⊢
            split at hc2
            · cases hc2
            · rw [hc.1]
              cases (truncRun i w.st q.fo).1 <;> rfl
        rw [hdata, hres]
        refine ⟨t1, fun j _ _ => ?_⟩
        by_cases hf : (truncRun i w.st q.fo).1 = true
        · rw [if_pos hf, evName_eio]
          show if (if f.trunc = true ∧ isReg w.ns i = true then some i else none) = some j then _ else _
          rw [if_pos hc]
          by_cases hj : j = i
          · subst hj
            rw [if_pos rfl]
            rcases t4 with t | t | t
            · exact .inl t
            · exact .inr t
            · rw [hf] at t; cases t
          · rw [if_neg (fun e => hj (by simpa using e.symm))]
            exact t2 j hj
        · rw [if_neg hf]
          show if j = i ∧ (f.trunc && isReg w.ns i) = true then _ else _
          rw [hc.1, hc.2]
          by_cases hj : j = i
          · subst hj
            rw [if_pos ⟨rfl, rfl⟩]
            exact t3 (by simpa using hf)
          · rw [if_neg (fun e => hj e.1)]
            exact t2 j hj
      · rw [if_neg (fun e => hc2 e.2.2)] at hdata
        rw [hdata]
        refine ⟨h.st, fun j _ _ => ?_⟩
        have hne : (w.ns.openReg (q.orc w) cr i f).1 ≠ none := by
          rw [horc]
          intro hn
          apply hc2
          unfold Fs.openReg at hn ⊢
          cases hx : w.ns.ino i with
          | none => rw [hx] at hn; cases hn
          | some x =>
            rw [hx] at hn
            simp only at hn ⊢
            split at hn
            · cases hn
            · simp
        cases he : (w.ns.openReg (q.orc w) cr i f).1 with
        | none => exact absurd he hne
        | some e =>
          refine Calm.bytes ?_ rfl
          unfold evName
          simp only
          split
          · exact calm_err _ _
          · trivial
    · rw [if_neg (fun e => hc ⟨e.1, e.2.1⟩)] at hdata
      rw [hdata]
      refine ⟨h.st, fun j _ _ => Calm.bytes (calm_name _ ?_ ?_) rfl⟩
      · rintro ⟨_, _, _, hm⟩
        rcases hm with ⟨_, _, h⟩ | ⟨_, h⟩ | ⟨_, _, _, h⟩ | ⟨_, h⟩ | ⟨_, h⟩ <;> cases h
      · intro cr' i' f' he
        cases he
        cases ht : f.trunc with
        | false => exact .inl rfl
        | true =>
          right
          cases hr : isReg w.ns i with
          | false => rfl
          | true => exact absurd ⟨ht, hr⟩ hc
  · have hnot : ∀ cr i f, q.op = .openReg cr i f → f.trunc = false ∨ isReg w.ns i = false :=
      fun cr i f e => absurd ⟨cr, i, f, e⟩ hopen
    have hdata : q.data w = match victim w.ns q.op with
        | some v =>
          if dropped w.ns (q.op.body w.ns (q.orc w)).2 v then
            (if q.early && q.o.drop then w.st else (dropRun v w.st q.fo).2)
          else w.st
        | none =>
          match born w.ns (q.op.body w.ns (q.orc w)).2 q.o with
          | none => w.st
          | some i => w.st.setFile i { ft2 := q.ft2 } := by
      unfold NReq.data
      split
      · rename_i cr i f he; exact absurd ⟨cr, i, f, he⟩ hopen
      · rfl
    cases hvic : victim w.ns q.op with
    | some v =>
      rw [hvic] at hdata
      simp only at hdata
      have hm : ¬ ∃ cr d n, q.op.makes cr d n := by
        rintro ⟨_, _, _, hm⟩
        rcases hm with ⟨_, _, h⟩ | ⟨_, h⟩ | ⟨_, _, _, h⟩ | ⟨_, h⟩ | ⟨_, h⟩ <;> rw [h] at hvic <;> cases hvic
      have hcalm := calm_name (s := w.ns) (o := q.orc w) (q.op.body w.ns (q.orc w)).1 hm hnot
      rw [hdata]
      by_cases hd : dropped w.ns (q.op.body w.ns (q.orc w)).2 v = true
      · rw [if_pos hd]
        have hdead := dropped_dead h.ns hv ht hd
        by_cases he : (q.early && q.o.drop) = true
        · rw [if_pos he]
          exact ⟨h.st, fun j _ _ => hcalm.bytes rfl⟩
        · rw [if_neg he]
          obtain ⟨d1, d2⟩ := dropRun_inv h.st v q.fo
          refine ⟨d1, fun j hj _ => hcalm.bytes (d2 j ?_)⟩
          rintro rfl; exact hdead hj
      · rw [if_neg hd]
        exact ⟨h.st, fun j _ _ => hcalm.bytes rfl⟩
    | none =>
      rw [hvic] at hdata
      simp only at hdata
      by_cases hm : ∃ cr d n, q.op.makes cr d n
      · obtain ⟨cr, d, n, hm⟩ := hm
        cases hres : (q.op.body w.ns (q.orc w)).1 with
        | some e =>
          rw [hres] at hobs
          have hcalm : Calm (evName w.ns (q.orc w) q.op (some e)) := by
            unfold evName
            simp only
            split
            · exact calm_err _ _
            · trivial
          cases hb : born w.ns (q.op.body w.ns (q.orc w)).2 q.o with
          | none =>
            rw [hb] at hdata
            rw [hdata]
            exact ⟨h.st, fun j _ _ => hcalm.bytes rfl⟩
          | some i =>
            rw [hb] at hdata
            simp only at hdata
            rw [hdata]
            obtain ⟨f1, f2, f3⟩ := fresh_inv h.st i q.ft2
            refine ⟨f1, fun j hj hr => hcalm.bytes (f3 j ?_)⟩
            rintro rfl
            unfold born at hb
            split at hb
            · cases hb
            · split at hb
              · rename_i i' _ hcond
                simp only [Option.some.injEq] at hb
                subst hb
                have hk := hobs.kind i' hj
                have hk' : isReg (q.op.body w.ns (q.orc w)).2 i' = isReg w.ns i' := by
                  unfold evName at hk
                  simp only at hk
                  split at hk
                  · revert hk
                    cases q.op <;> exact id
                  · exact hk
                rw [hcond.2] at hk'
                unfold isReg at hk'
                rw [hcond.1] at hk'
                cases hk'
              · cases hb
        | none =>
          show _ ∧ ∀ j, _ → _ → (evOk w.ns (q.orc w) q.op).Bytes (File.abs w.st) j (File.abs (q.data w) j)
          have hnew : ∃ k m i b, NewObj w.ns (q.orc w) d n k b (q.op.body w.ns (q.orc w)).2 i ∧
              evOk w.ns (q.orc w) q.op = .made (d, n) ((q.orc w).spawn.getD 0) (decide (k = .reg)) b ∧ m = 0 := by
            rcases hm with ⟨k, m, e⟩ | ⟨m, e⟩ | ⟨k, m, b, e⟩ | ⟨m, e⟩ | ⟨v, e⟩
            · obtain ⟨i, hn⟩ := body_new (k := k) (m := m) (.inl e) hres
              rw [show decide (q.op = Ns.Op.create cr d n k m) = true from by rw [e]; simp] at hn
              exact ⟨k, 0, i, _, hn, by rw [e]; rfl, rfl⟩
            · obtain ⟨i, hn⟩ := body_new (k := .reg) (m := m) (.inr (.inl ⟨rfl, e⟩)) hres
              rw [show decide (q.op = Ns.Op.create cr d n .reg m) = false from by rw [e]; simp] at hn
              exact ⟨_, 0, i, _, hn, by rw [e]; rfl, rfl⟩
            · obtain ⟨i, hn⟩ := body_new (k := k) (m := m) (.inr (.inr (.inl ⟨b, e⟩))) hres
              rw [show decide (q.op = Ns.Op.create cr d n k m) = false from by rw [e]; simp] at hn
              exact ⟨_, 0, i, _, hn, by rw [e]; rfl, rfl⟩
            · obtain ⟨i, hn⟩ := body_new (k := .dir) (m := m) (.inr (.inr (.inr (.inl ⟨rfl, e⟩)))) hres
              rw [show decide (q.op = Ns.Op.create cr d n .dir m) = false from by rw [e]; simp] at hn
              exact ⟨_, 0, i, _, hn, by rw [e]; rfl, rfl⟩
            · obtain ⟨i, hn⟩ := body_new (k := .lnk) (m := 0o777) (.inr (.inr (.inr (.inr ⟨rfl, rfl, v, e⟩)))) hres
              rw [show decide (q.op = Ns.Op.create cr d n .lnk 0o777) = false from by rw [e]; simp] at hn
              exact ⟨_, 0, i, _, hn, by rw [e]; rfl, rfl⟩
          obtain ⟨k, _, i, b, hn, hev, _⟩ := hnew
          have hsp : q.o.spawn = some i := by rw [← orc_spawn q w]; exact hn.spawn
          have hreg : isReg (q.op.body w.ns (q.orc w)).2 i = decide (k = .reg) := by rw [hn.reg, if_pos rfl]
          rw [hev, hn.spawn]
          have hborn : born w.ns (q.op.body w.ns (q.orc w)).2 q.o = if k = .reg then some i else none := by
            unfold born
            rw [hsp]
            simp only [hn.old, hreg, true_and, decide_eq_true_eq]
          rw [hborn] at hdata
          by_cases hk : k = .reg
          · rw [if_pos hk] at hdata
            simp only at hdata
            obtain ⟨f1, f2, f3⟩ := fresh_inv h.st i q.ft2
            rw [hdata]
            refine ⟨f1, fun j _ _ => ?_⟩
            show if j = i then _ else _
            by_cases hj : j = i
            · subst hj; rw [if_pos rfl]; exact fun _ => f2
            · rw [if_neg hj]; exact f3 j hj
          · rw [if_neg hk] at hdata
            simp only at hdata
            rw [hdata]
            refine ⟨h.st, fun j _ _ => ?_⟩
            show if j = i then _ else _
            by_cases hj : j = i
            · subst hj; rw [if_pos rfl]
              intro hh
              exact absurd (by simpa using hh) hk
            · rw [if_neg hj]
      · have hcalm := calm_name (s := w.ns) (o := q.orc w) (q.op.body w.ns (q.orc w)).1 hm hnot
        have hnn := body_nonew h.ns hv ht hm
        have hborn : born w.ns (q.op.body w.ns (q.orc w)).2 q.o = none := by
          unfold born
          split
          · rfl
          · rw [if_neg]
            rintro ⟨a, b⟩
            unfold isReg at b
            rw [hnn _ a] at b
            cases b
        rw [hborn] at hdata
        simp only at hdata
        rw [hdata]
        exact ⟨h.st, fun j _ _ => hcalm.bytes rfl⟩

theorem live_of_vfs {s : Fs} (hg : Good s) {i : Nat}
    (h : i = Ns.ROOT ∨ 0 < s.names i ∨ ∃ x, s.ino i = some x ∧ 0 < x.nopen) : LiveN s i := by
  rcases h with h | h | ⟨x, hx, h⟩
  · exact .inr (.inr h)
  · obtain ⟨e, he, rfl⟩ := Ns.names_pos_iff.mp h
    exact .inl ⟨(e.dir, e.name), Ns.find_of_mem hg.inv.core.keys he⟩
  · exact .inr (.inl (by rw [nop_of hx]; exact h))

/-- What programs are told by operations on names. -/
theorem told_part {s : Fs} {o : Orc} {op : Ns.Op} (hg : Good s) (hv : Vfs s op) (x : AFs)
    (hx : ∀ j, x.live j ↔ LiveN s j) : (evName s o op (op.body s o).1).Told x := by
  cases hres : (op.body s o).1 with
  | some e =>
    unfold evName
    simp only
    split
    · cases op <;> trivial
    · trivial
  | none =>
    show (evOk s o op).Told x
    have key : ∀ {d n k b i}, NewObj s o d n k b (op.body s o).2 i → ¬ x.live (o.spawn.getD 0) := by
      intro d n k b i hn
      rw [hx, hn.spawn]
      exact fun hl => live_ino hg.inv.core hl hn.old
    cases op with
    | create cr d n k m =>
      obtain ⟨i, hn⟩ := body_new (k := k) (m := m) (.inl rfl) hres
      exact key hn
    | mknodReg cr d n m =>
      obtain ⟨i, hn⟩ := body_new (k := .reg) (m := m) (.inr (.inl ⟨rfl, rfl⟩)) hres
      exact key hn
    | mknodSpecial cr d n k m b =>
      obtain ⟨i, hn⟩ := body_new (k := k) (m := m) (.inr (.inr (.inl ⟨b, rfl⟩))) hres
      exact key hn
    | mkdir cr d n m =>
      obtain ⟨i, hn⟩ := body_new (k := .dir) (m := m) (.inr (.inr (.inr (.inl ⟨rfl, rfl⟩)))) hres
      exact key hn
    | symlink cr d n v =>
      obtain ⟨i, hn⟩ := body_new (k := .lnk) (m := 0o777) (.inr (.inr (.inr (.inr ⟨rfl, rfl, v, rfl⟩)))) hres
      exact key hn
    | link cr d n i => exact (hx i).mpr (live_of_vfs hg (.inr hv.2))
    | openReg cr i f => exact (hx i).mpr (live_of_vfs hg hv)
    | openDir cr i f => exact (hx i).mpr (live_of_vfs hg hv)
    | rename cr d n d2 n2 f => unfold evOk; simp only; split <;> trivial
    | _ => trivial

/-! ### One request -/

theorem mayIo_reg {s : Fs} {i : Nat} {op : File.FOp} (h : mayIo s i op = true) : isReg s i = true := by
  unfold mayIo at h
  unfold isReg
  split at h
  · rename_i hx; rw [hx]; exact h
  · cases h
  · rename_i hx _ _; rw [hx]
    simp only [decide_eq_true_eq] at h
    simp only [h.1, decide_true]
  · cases h

theorem mayIo_live {s : Fs} {i : Nat} {op : File.FOp} (h : mayIo s i op = true)
    (ht : ∀ off, op = .truncate off → LiveN s i) : LiveN s i := by
  unfold mayIo at h
  split at h
  · exact ht _ rfl
  · cases h
  · rename_i hx _ _
    simp only [decide_eq_true_eq] at h
    exact .inr (.inl (by rw [nop_of hx]; exact h.2))
  · cases h

theorem step_name {w : W} (h : WInv w) (q : NReq) (hok : (Req.name q).Fine w) :
    WInv (q.run w).2 ∧ AStep (absW w) (Req.ev w (.name q)) (absW (q.run w).2) := by
  obtain ⟨hv, ht, hd⟩ := hok
  have hd' : (Fs.finish (q.orc w) (q.op.body w.ns (q.orc w))).1 ≠ .die := hd
  have hr := Ns.body_res h.ns hv ht
  obtain ⟨g1, g2, g3, g4, _, _, _⟩ := Ns.finish_inv hr.inv hd'
  have kn : KN (q.op.body w.ns (q.orc w)).2 (Fs.finish (q.orc w) (q.op.body w.ns (q.orc w))).2 := ⟨g3, g4⟩
  have hev : Req.ev w (.name q) = evName w.ns (q.orc w) q.op (q.op.body w.ns (q.orc w)).1 :=
    congrArg (evName w.ns (q.orc w) q.op) (outErr_eq hd)
  obtain ⟨d1, d2⟩ := data_part h q hv ht
  have hobs := body_obs h.ns hv ht
  have hlive : ∀ j, (absW (q.run w).2).live j → LiveN (q.op.body w.ns (q.orc w)).2 j :=
    fun j hj => live_same g2 kn.nop hj
  have hreg : ∀ j, (absW (q.run w).2).live j →
      isReg (Fs.finish (q.orc w) (q.op.body w.ns (q.orc w))).2 j = isReg (q.op.body w.ns (q.orc w)).2 j :=
    fun j hj => kn.reg (live_ino g1.inv.core hj)
  refine ⟨⟨g1, d1⟩, ?_⟩
  rw [hev]
  refine ⟨told_part h.ns hv _ (fun j => Iff.rfl), ?_, ?_, fun j hj => ?_, fun j hj hjr => ?_⟩
  · have : entOf (Fs.finish (q.orc w) (q.op.body w.ns (q.orc w))).2 = entOf (q.op.body w.ns (q.orc w)).2 :=
      entOf_eq g2
    show AEv.Names (entOf w.ns) (entOf (Fs.finish (q.orc w) (q.op.body w.ns (q.orc w))).2) _
    rw [this]; exact hobs.names
  · have : nop (Fs.finish (q.orc w) (q.op.body w.ns (q.orc w))).2 = nop (q.op.body w.ns (q.orc w)).2 :=
      funext kn.nop
    show AEv.Handles (nop w.ns) (nop (Fs.finish (q.orc w) (q.op.body w.ns (q.orc w))).2) _
    rw [this]; exact hobs.handles
  · show AEv.Kind (isReg w.ns) j (isReg (Fs.finish (q.orc w) (q.op.body w.ns (q.orc w))).2 j) _
    rw [hreg j hj]
    exact hobs.kind j (hlive j hj)
  · refine d2 j (hlive j hj) ?_
    rw [← hreg j hj]
    exact hjr

theorem astep_nothing (x : AFs) : AStep x .nothing x :=
  ⟨trivial, fun _ => rfl, fun _ => rfl, fun _ _ => rfl, fun _ _ _ => rfl⟩

theorem step_data {w : W} (h : WInv w) (i : Nat) (op : File.FOp) (fo : List File.Ans) (hok : (Req.data i op fo).Fine w) :
    WInv (Req.run w (.data i op fo)).2 ∧
    AStep (absW w) (Req.ev w (.data i op fo)) (absW (Req.run w (.data i op fo)).2) := by
  unfold Req.run Req.ev
  by_cases hm : mayIo w.ns i op = true
  · simp only [if_pos hm]
    obtain ⟨c1, c2, c3⟩ := File.C01_request_partial h.st i op hok.1 fo
    have hlive : (absW w).live i := mayIo_live hm hok.2
    have hreg : (absW w).reg i = true := mayIo_reg hm
    refine ⟨⟨h.ns, c1⟩, ⟨?_, fun _ => rfl, fun _ => rfl, fun _ _ => rfl, fun j _ _ => ?_⟩⟩
    · cases hr : (op.run i w.st fo).1.spec with
      | ok out =>
        rw [hr] at c3
        exact ⟨hlive, hreg, c3.2⟩
      | failed => exact ⟨hlive, hreg⟩
      | rejected => exact ⟨hlive, hreg⟩
    · show if j = i then _ else _
      by_cases hj : j = i
      · subst hj
        rw [if_pos rfl]
        cases hr : (op.run j w.st fo).1.spec with
        | ok out => rw [hr] at c3; exact c3.1
        | failed => rw [hr] at c3; exact c3
        | rejected => rw [hr] at c3; exact c3
      · rw [if_neg hj]; exact c2 j hj
  · simp only [if_neg hm]
    exact ⟨h, astep_nothing _⟩

theorem step_copy {w : W} (h : WInv w) (i1 : Nat) (off1 : Int) (i2 : Nat) (off2 : Int) (len : Nat) (fo : List File.Ans)
    (hok : (Req.copy i1 off1 i2 off2 len fo).Fine w) :
    WInv (Req.run w (.copy i1 off1 i2 off2 len fo)).2 ∧
    AStep (absW w) (Req.ev w (.copy i1 off1 i2 off2 len fo)) (absW (Req.run w (.copy i1 off1 i2 off2 len fo)).2) := by
  unfold Req.run Req.ev
  by_cases hm : mayIo w.ns i1 (.read 0 0) = true ∧ mayIo w.ns i2 (.read 0 0) = true
  · simp only [if_pos hm]
    obtain ⟨hp, h0, hf⟩ := hok
    have key := File.C04_copy_partial h.st hp fo
    rcases hx : File.opCopy i1 off1 i2 off2 len w.st fo with ⟨r, s'⟩
    rw [hx] at key hf
    have l1 : (absW w).live i1 := mayIo_live hm.1 (fun _ e => by cases e)
    have l2 : (absW w).live i2 := mayIo_live hm.2 (fun _ e => by cases e)
    cases r with
    | ok n =>
      obtain ⟨_, k1, k2⟩ := key
      exact ⟨⟨h.ns, k1⟩, ⟨⟨l1, mayIo_reg hm.1, l2, mayIo_reg hm.2⟩, fun _ => rfl, fun _ => rfl, fun _ _ => rfl,
        fun j _ _ => congrFun k2 j⟩⟩
    | failed e =>
      obtain ⟨k1, k2, k3⟩ := key
      have hsz : off2.toNat + len ≤ (w.st.file i2).size := by
        rcases hf with hf | hf
        · exact absurd rfl (hf e)
        · exact hf
      refine ⟨⟨h.ns, k1 hsz⟩, ⟨trivial, fun _ => rfl, fun _ => rfl, fun _ _ => rfl, fun j _ _ => ?_⟩⟩
      show if j = i2 then _ else _
      by_cases hj : j = i2
      · rw [if_pos hj]
        exact ⟨k2 j, fun p hp => k3 j p (fun e => hp (by omega))⟩
      · rw [if_neg hj]
        exact File.afile_ext (k2 j) (fun p => k3 j p (fun e => hj e.1))
    | rejected e =>
      rw [key]
      exact ⟨h, astep_nothing _⟩
  · simp only [if_neg hm]
    exact ⟨h, astep_nothing _⟩

/-- C63 (partial): one request of any kind does to names, handles and contents together exactly
what the specification says.  Not covered: failing renames of directories half-way (C16), copies
from unwritten or to shared blocks and failing copies that extend (C04), requests during which the
process aborts, and requests the kernel never sends. -/
theorem C63_step_partial {w : W} (h : WInv w) (r : Req) (hok : r.Fine w) :
    WInv (r.run w).2 ∧ AStep (absW w) (r.ev w) (absW (r.run w).2) := by
  cases r with
  | name q => exact step_name h q hok
  | data i op fo => exact step_data h i op fo hok
  | copy i1 off1 i2 off2 len fo => exact step_copy h i1 off1 i2 off2 len fo hok

/-! ### Histories -/

/-- Any sequence of requests. -/
def runAll (w : W) : List Req → W
  | [] => w
  | r :: t => runAll (r.run w).2 t

/-- Every request is fine when its turn comes. -/
def FineAll (w : W) : List Req → Prop
  | [] => True
  | r :: t => r.Fine w ∧ FineAll (r.run w).2 t

/-- What programs saw. -/
def evAll (w : W) : List Req → List AEv
  | [] => []
  | r :: t => r.ev w :: evAll (r.run w).2 t

theorem _root_.Silofs.WholeSpec.ARun.cons {x y z : AFs} {e : AEv} {t : List AEv} (h : AStep x e y) (h2 : ARun y t z) :
    ARun x (e :: t) z := by
  induction h2 with
  | nil => exact ARun.snoc (ARun.nil _) h
  | snoc _ h4 ih => exact ARun.snoc (t := _ :: _) ih h4

theorem run_inv {w : W} (h : WInv w) (rs : List Req) (hok : FineAll w rs) :
    WInv (runAll w rs) ∧ ARun (absW w) (evAll w rs) (absW (runAll w rs)) := by
  induction rs generalizing w with
  | nil => exact ⟨h, ARun.nil _⟩
  | cons r t ih =>
    obtain ⟨h1, h2⟩ := C63_step_partial h r hok.1
    obtain ⟨h3, h4⟩ := ih h1 hok.2
    exact ⟨h3, h4.cons h2⟩

theorem init_winv (a : Ns.Attr) (m : Nat) (raw : Nat → Nat → Nat) : WInv (W.init a m raw) :=
  ⟨Ns.init_good a m, File.Inv.init raw⟩

/-- C63 (partial): any sequence of requests to a new file system, whichever of them the storage makes
fail, is a run of the specification from the file system with only an empty root. -/
theorem C63_history_partial (a : Ns.Attr) (m : Nat) (raw : Nat → Nat → Nat) (rs : List Req)
    (hok : FineAll (W.init a m raw) rs) :
    ARun (absW (W.init a m raw)) (evAll (W.init a m raw) rs) (absW (runAll (W.init a m raw) rs)) ∧
    (∀ p, (absW (W.init a m raw)).ent p = none) :=
  ⟨(run_inv (init_winv a m raw) rs hok).2, fun p => rfl⟩

/-- C63 (partial): whatever programs do in between — renaming it, giving it further names, removing
names, opening and closing it, working on other files, failing — a regular file that is still
within reach has the bytes it had, unless it was written to itself. -/
theorem C63_bytes_stay_partial {w : W} (h : WInv w) (rs : List Req) (hok : FineAll w rs) (i : Nat)
    (hs : ∀ e ∈ evAll w rs, e.Spares i) (hl : (absW (runAll w rs)).live i) (hr : isReg (runAll w rs).ns i = true) :
    (absW w).live i ∧ isReg w.ns i = true ∧ File.abs (runAll w rs).st i = File.abs w.st i :=
  (run_inv h rs hok).2.spared hs hl hr

/-- C63 (partial): a file that was renamed is read through the new name with the bytes it had under
the old one. -/
theorem C63_rename_keeps_bytes_partial {w : W} (h : WInv w) (q : NReq) (cr : Cred) (d : Nat) (n : Ns.Name) (d2 : Nat)
    (n2 : Ns.Name) (f : Ns.RFlags) (hq : q.op = .rename cr d n d2 n2 f) (hok : (Req.name q).Fine w)
    (hne : (d2, n2) ≠ (d, n)) (hok2 : (q.run w).1 = .ok) (i : Nat) (hi : w.ns.look d n = some i) (hr : isReg w.ns i = true) :
    (q.run w).2.ns.look d2 n2 = some i ∧ File.abs (q.run w).2.st i = File.abs w.st i := by
  obtain ⟨_, hs⟩ := step_name h q hok
  have hev : Req.ev w (.name q) = evOk w.ns (q.orc w) q.op := by
    show evName w.ns (q.orc w) q.op (outErr (q.run w).1) = _
    rw [hok2]; rfl
  rw [hev, hq] at hs
  have hlook : (q.run w).2.ns.look d2 n2 = some i := by
    unfold evOk at hs
    simp only at hs
    by_cases he : w.ns.look d n = w.ns.look d2 n2
    · rw [if_pos he] at hs
      have := hs.names.2 (d2, n2)
      rw [if_neg hne] at this
      have h2 : (q.run w).2.ns.look d2 n2 = w.ns.look d2 n2 := this
      rw [h2, ← he]; exact hi
    · rw [if_neg he] at hs
      have := hs.names.2.2 (d2, n2)
      rw [if_pos rfl] at this
      have h2 : (q.run w).2.ns.look d2 n2 = w.ns.look d n := this
      rw [h2]; exact hi
  refine ⟨hlook, ?_⟩
  have hsp : (evOk w.ns (q.orc w) (.rename cr d n d2 n2 f)).Spares i := by
    unfold evOk; simp only; split <;> trivial
  have hlive : (absW (q.run w).2).live i := .inl ⟨(d2, n2), hlook⟩
  have hk := hs.kind i hlive
  have hk' : isReg (q.run w).2.ns i = isReg w.ns i := by
    revert hk
    unfold evOk
    simp only
    split <;> exact id
  exact (hs.spared hsp hlive (by show isReg (q.run w).2.ns i = true; rw [hk']; exact hr)).2.2

/-- C63: only data of files that no program can get at are ever dropped by removing names or
closing handles. -/
theorem C63_dropped_unreachable {w : W} (h : WInv w) (q : NReq) (hok : (Req.name q).Fine w) (v : Nat)
    (hd : dropped w.ns (q.op.body w.ns (q.orc w)).2 v = true) : ¬ (absW (q.run w).2).live v := by
  obtain ⟨hv, ht, hdie⟩ := hok
  have hd' : (Fs.finish (q.orc w) (q.op.body w.ns (q.orc w))).1 ≠ .die := hdie
  obtain ⟨_, g2, g3, g4, _, _, _⟩ := Ns.finish_inv (Ns.body_res h.ns hv ht).inv hd'
  have kn : KN (q.op.body w.ns (q.orc w)).2 (Fs.finish (q.orc w) (q.op.body w.ns (q.orc w))).2 := ⟨g3, g4⟩
  exact fun hl => dropped_dead h.ns hv ht hd (live_same g2 kn.nop hl)

/-! ### What is gone leaves no data behind -/

theorem enqueue_get (s : Fs) (i : Nat) (x : Ino) : (s.enqueueIfLoose i x).ino = s.ino ∧
    (s.looseq = [] → ∀ j, j ∈ (s.enqueueIfLoose i x).looseq → j = i ∧ x.loose = true) := by
  unfold Fs.enqueueIfLoose
  split
  · rename_i h
    refine ⟨rfl, fun hq j hj => ?_⟩
    have hj : j ∈ (if s.looseq.contains i then s.looseq else i :: s.looseq) := hj
    rw [hq] at hj
    simp only [List.contains_nil, Bool.false_eq_true, if_false, List.mem_singleton] at hj
    exact ⟨hj, (Bool.and_eq_true _ _ ▸ h).1⟩
  · exact ⟨rfl, fun hq j hj => by rw [hq] at hj; cases hj⟩

/-- Disposal of inode `i` that is told to have worked. -/
theorem prune_gone {s : Fs} {o : Orc} {i : Nat} {x : Ino} (hx : s.ino i = some x) (hk : x.attr.kind = .reg) (hq : s.looseq = [])
    (h : (s.prune o i).2.ino i = none ∨ i ∈ (s.prune o i).2.looseq) :
    o.drop = false ∧ ((s.prune o i).2.ino i = none ∨
      ∃ y, (s.prune o i).2.ino i = some y ∧ y.loose = true ∧ y.data = false ∧ i ∈ (s.prune o i).2.looseq) := by
  unfold Fs.prune at h ⊢
  rw [hx] at h ⊢
  simp only at h ⊢
  generalize hx1 : (if x.isOrphan then { x with loose := true } else x) = x1 at h ⊢
  have hk1 : x1.attr.kind = .reg := by rw [← hx1]; split <;> exact hk
  have hget : ∀ (t : Fs) (z : Option Ino), (t.setIno i z).ino i = z := fun t z => by rw [Ns.setIno_get, if_pos rfl]
  have hnot : ∀ z : Ino, ¬ ((s.setIno i (some z)).ino i = none ∨ i ∈ (s.setIno i (some z)).looseq) := by
    rintro z (h | h)
    · rw [hget] at h; cases h
    · have : i ∈ s.looseq := h
      rw [hq] at this; cases this
  by_cases h1 : x1.isDropable o.busy = true
  · rw [if_pos h1] at h ⊢
    unfold Fs.dropUnlinked at h ⊢
    cases hd : o.drop with
    | true =>
      rw [hd] at h
      exfalso
      rcases h with h | h
      · have h : ((s.setIno i (some x1)).modIno i _).ino i = none := h
        unfold Fs.modIno at h
        rw [hget, hget] at h
        cases h
      · have h : i ∈ ((s.setIno i (some x1)).modIno i _).looseq := h
        unfold Fs.modIno at h
        rw [hget] at h
        have : i ∈ s.looseq := h
        rw [hq] at this; cases this
    | false =>
      refine ⟨rfl, .inl ?_⟩
      show ((s.setIno i (some x1)).erase i).ino i = none
      rw [Ns.erase_ino, if_pos rfl]
  · rw [if_neg h1] at h ⊢
    by_cases h2 : x1.attr.kind = .reg ∧ x1.loose = true
    · rw [if_pos h2] at h ⊢
      cases hd : o.drop with
      | true =>
        rw [hd] at h
        exfalso
        rcases h with h | h
        · have h : ((s.setIno i (some x1)).setIno i _).ino i = none := h
          rw [hget] at h; cases h
        · have : i ∈ s.looseq := h
          rw [hq] at this; cases this
      | false =>
        rw [hd] at h
        have he := enqueue_get ((s.setIno i (some x1)).setIno i (some { x1 with data := false })) i x1
        have hi : (((s.setIno i (some x1)).setIno i (some { x1 with data := false })).enqueueIfLoose i x1).ino i = some { x1 with data := false } := by
          rw [he.1, hget]
        refine ⟨rfl, .inr ⟨_, hi, h2.2, rfl, ?_⟩⟩
        rcases h with h | h
        · have h : (((s.setIno i (some x1)).setIno i (some { x1 with data := false })).enqueueIfLoose i x1).ino i = none := h
          rw [hi] at h; cases h
        · exact h
    · rw [if_neg h2] at h ⊢
      exfalso
      have he := enqueue_get (s.setIno i (some x1)) i x1
      rcases h with h | h
      · have h : ((s.setIno i (some x1)).enqueueIfLoose i x1).ino i = none := h
        rw [he.1, hget] at h; cases h
      · exact h2 ⟨hk1, (he.2 hq i h).2⟩

/-- Disposal of `i` does not touch `j`. -/
theorem prune_spare {s : Fs} {o : Orc} {i j : Nat} (hj : j ≠ i) (hq : s.looseq = []) :
    (s.prune o i).2.ino j = s.ino j ∧ j ∉ (s.prune o i).2.looseq := by
  have hget : ∀ (t : Fs) (z : Option Ino), (t.setIno i z).ino j = t.ino j := fun t z => by rw [Ns.setIno_get, if_neg hj]
  have hno : j ∉ s.looseq := by rw [hq]; simp
  unfold Fs.prune
  cases hx : s.ino i with
  | none => exact ⟨rfl, hno⟩
  | some x =>
    simp only
    generalize (if x.isOrphan then { x with loose := true } else x) = x1
    split
    · unfold Fs.dropUnlinked
      split
      · exact ⟨(hget _ _).trans (hget _ _), hno⟩
      · refine ⟨?_, hno⟩
        show ((s.setIno i (some x1)).erase i).ino j = _
        rw [Ns.erase_ino, if_neg hj, hget]
    · split
      · split
        · exact ⟨(hget _ _).trans (hget _ _), hno⟩
        · have he := enqueue_get ((s.setIno i (some x1)).setIno i (some { x1 with data := false })) i x1
          refine ⟨?_, fun h => hj (he.2 hq j h).1⟩
          show (((s.setIno i (some x1)).setIno i (some { x1 with data := false })).enqueueIfLoose i x1).ino j = _
          rw [he.1, hget, hget]
      · have he := enqueue_get (s.setIno i (some x1)) i x1
        refine ⟨?_, fun h => hj (he.2 hq j h).1⟩
        show ((s.setIno i (some x1)).enqueueIfLoose i x1).ino j = _
        rw [he.1, hget]

/-- There still, and not to be disposed of. -/
def Stays (t : Fs) (i : Nat) : Prop := t.ino i ≠ none ∧ i ∉ t.looseq

theorem Stays.del {t : Fs} {i : Nat} (h : Stays t i) (d : Nat) (n : Ns.Name) (c : Nat) (b : Bool) : Stays (t.delDent d n c b) i := by
  obtain ⟨x, hx⟩ := Option.ne_none_iff_exists'.1 h.1
  obtain ⟨y, hy, _⟩ := Ns.delDent_get hx d n c b
  exact ⟨by rw [hy]; simp, by rw [Ns.looseq_delDent]; exact h.2⟩

theorem Stays.add {t : Fs} {i : Nat} (h : Stays t i) (d : Nat) (n : Ns.Name) (c : Nat) (b : Bool) : Stays (t.addDent d n c b) i := by
  obtain ⟨x, hx⟩ := Option.ne_none_iff_exists'.1 h.1
  obtain ⟨y, hy, _⟩ := Ns.addDent_get hx d n c b
  exact ⟨by rw [hy]; simp, by rw [Ns.looseq_addDent]; exact h.2⟩

theorem Stays.set {t : Fs} {i : Nat} (h : Stays t i) (j : Nat) (x : Ino) : Stays (t.setIno j (some x)) i := by
  refine ⟨?_, h.2⟩
  rw [Ns.setIno_get]
  split
  · simp
  · exact h.1

theorem Stays.rem {t : Fs} {i : Nat} (h : Stays t i) (r : Ns.Rem) (d : Nat) (n : Ns.Name) (c : Nat) (b : Bool) : Stays (t.rem r d n c b).2 i := by
  unfold Fs.rem
  cases r
  all_goals first | exact h | exact h.del ..

theorem Stays.addR {t : Fs} {i : Nat} (h : Stays t i) (r : Bool) (d : Nat) (n : Ns.Name) (c : Nat) (b : Bool) : Stays (t.add r d n c b).2 i := by
  unfold Fs.add
  split
  · exact h
  · exact h.add ..

theorem Stays.incOpen {t : Fs} {i : Nat} (h : Stays t i) (j : Nat) : Stays (t.incOpen j) i := by
  refine ⟨?_, ?_⟩
  · rw [Ns.incOpen_ino]
    intro hx
    rw [Option.map_eq_none_iff] at hx
    exact h.1 hx
  · have : (t.incOpen j).looseq = t.looseq := by unfold Fs.incOpen; split <;> rfl
    rw [this]; exact h.2

theorem Stays.decOpen {t : Fs} {i : Nat} (h : Stays t i) (j : Nat) : Stays (t.decOpen j) i := by
  refine ⟨?_, ?_⟩
  · rw [Ns.decOpen_ino]
    intro hx
    rw [Option.map_eq_none_iff] at hx
    exact h.1 hx
  · have : (t.decOpen j).looseq = t.looseq := by unfold Fs.decOpen; split <;> rfl
    rw [this]; exact h.2

theorem Stays.mk {t : Fs} {i : Nat} (h : Stays t i) (m : Ns.Mk) (j : Nat) : Stays (m.app t j) i := by
  cases m with
  | plain => exact h
  | opened => exact h.incOpen j
  | closed => exact (h.incOpen j).decOpen j
  | pin =>
    show Stays (t.modIno j _) i
    refine ⟨?_, h.2⟩
    unfold Fs.modIno
    rw [Ns.setIno_get]
    split
    · rename_i hj
      subst hj
      intro hx
      rw [Option.map_eq_none_iff] at hx
      exact h.1 hx
    · exact h.1

/-- The victim of a disposal, seen from before. -/
theorem prune_victim {s u : Fs} {o : Orc} {i : Nat} {x z : Ino} (hx : s.ino i = some x) (hk : x.attr.kind = .reg)
    (hz : u.ino i = some z) (hzk : z.attr = x.attr) (hq : u.looseq = [])
    (h : ¬ Stays (u.prune o i).2 i) : o.drop = false ∧ dropped s (u.prune o i).2 i = true := by
  have h' : (u.prune o i).2.ino i = none ∨ i ∈ (u.prune o i).2.looseq := by
    unfold Stays at h
    by_cases h1 : (u.prune o i).2.ino i = none
    · exact .inl h1
    · exact .inr (Decidable.not_not.1 (fun h2 => h ⟨h1, h2⟩))
  obtain ⟨h1, h2⟩ := prune_gone hz (by rw [hzk]; exact hk) hq h'
  refine ⟨h1, ?_⟩
  unfold dropped
  rw [hx]
  rcases h2 with h2 | ⟨y, h2, h3, h4, h5⟩
  · rw [h2]; simpa using hk
  · rw [h2]
    simp [hk, h3, h4, h5]

theorem dropped_of {s t u : Fs} {i : Nat} (h : dropped s t i = true) (hq : u.looseq = t.looseq)
    (hn : ∀ y, t.ino i = some y → ∃ z, u.ino i = some z ∧ z.loose = y.loose ∧ z.data = y.data) (h0 : t.ino i = none → u.ino i = none) :
    dropped s u i = true := by
  unfold dropped at h ⊢
  cases hx : s.ino i with
  | none => rw [hx] at h; cases h
  | some x =>
    rw [hx] at h
    cases hy : t.ino i with
    | none => rw [hy] at h; rw [h0 hy]; exact h
    | some y =>
      rw [hy] at h
      obtain ⟨z, hz, e1, e2⟩ := hn y hy
      rw [hz]
      show (_ && (_ || (z.loose && u.looseq.contains i)) && !z.data) = true
      rw [e1, e2, hq]
      exact h

theorem dropped_del {s t : Fs} {i : Nat} (h : dropped s t i = true) (d : Nat) (n : Ns.Name) (c : Nat) (b : Bool) :
    dropped s (t.delDent d n c b) i = true :=
  dropped_of h (Ns.looseq_delDent ..) (fun y hy => by
    obtain ⟨z, hz, _, e1, _, _, e2⟩ := Ns.delDent_get hy d n c b
    exact ⟨z, hz, e1, e2⟩) (fun hy => by rw [Ns.delDent_ino, hy]; rfl)

theorem dropped_add {s t : Fs} {i : Nat} (h : dropped s t i = true) (d : Nat) (n : Ns.Name) (c : Nat) (b : Bool) :
    dropped s (t.addDent d n c b) i = true :=
  dropped_of h (Ns.looseq_addDent ..) (fun y hy => by
    obtain ⟨z, hz, _, e1, _, _, e2⟩ := Ns.addDent_get hy d n c b
    exact ⟨z, hz, e1, e2⟩) (fun hy => by rw [Ns.addDent_ino, hy]; rfl)

theorem dropped_rem {s t : Fs} {i : Nat} (h : dropped s t i = true) (r : Ns.Rem) (d : Nat) (n : Ns.Name) (c : Nat) (b : Bool) :
    dropped s (t.rem r d n c b).2 i = true := by
  unfold Fs.rem
  cases r
  all_goals first | exact h | exact dropped_del h ..

theorem dropped_addR {s t : Fs} {i : Nat} (h : dropped s t i = true) (r : Bool) (d : Nat) (n : Ns.Name) (c : Nat) (b : Bool) :
    dropped s (t.add r d n c b).2 i = true := by
  unfold Fs.add
  split
  · exact h
  · exact dropped_add h ..

/-- Only the inode that is disposed of goes, and only if dropping it worked. -/
theorem body_gone {s : Fs} {o : Orc} {op : Ns.Op} (hg : Good s) {i : Nat} {x : Ino} (hx : s.ino i = some x) (hk : x.attr.kind = .reg)
    (h : ¬ Stays (op.body s o).2 i) : victim s op = some i ∧ o.drop = false ∧ dropped s (op.body s o).2 i = true := by
  have h0 : Stays s i := ⟨by rw [hx]; simp, by rw [hg.looseq]; simp⟩
  have he := Ns.body_eff s o op
  have hremp : ∀ {rr : Ns.Rem} {d : Nat} {n : Ns.Name} {c : Nat} {b : Bool}, ¬ Stays (s.remPrune o rr d n c b).2 i →
      c = i ∧ o.drop = false ∧ dropped s (s.remPrune o rr d n c b).2 i = true := by
    intro rr d n c b hn
    unfold Fs.remPrune at hn ⊢
    have hr := h0.rem rr d n c b
    have hrq : (s.rem rr d n c b).2.looseq = [] := by
      unfold Fs.rem
      cases rr
      all_goals first | exact hg.looseq | exact (Ns.looseq_delDent ..).trans hg.looseq
    obtain ⟨z, hz, hza⟩ : ∃ z, (s.rem rr d n c b).2.ino i = some z ∧ z.attr = x.attr := by
      unfold Fs.rem
      cases rr
      case fail => exact ⟨x, hx, rfl⟩
      all_goals
        obtain ⟨y, hy, ha, _⟩ := Ns.delDent_get hx d n c b
        exact ⟨y, hy, ha⟩
    generalize s.rem rr d n c b = r at hn hr hrq hz ⊢
    obtain ⟨re, s1⟩ := r
    cases re with
    | some e => exact absurd hr hn
    | none =>
      have hn : ¬ Stays (s1.prune o c).2 i := hn
      by_cases hc : i = c
      · subst hc
        exact ⟨rfl, prune_victim hx hk hz hza hrq hn⟩
      · obtain ⟨k1, k2⟩ := prune_spare (o := o) (s := s1) hc hrq
        exact absurd ⟨by rw [k1]; exact hr.1, k2⟩ hn
  generalize hr : op.body s o = r at he h
  cases he with
  | refuse op e => exact absurd h0 h
  | nothing j => exact absurd h0 h
  | undo op cr d n j y hop hy hu =>
    rw [Ns.setIno_undo hy] at h
    exact absurd h0 h
  | leak op cr d n j y hop hy hu hnew => exact absurd (h0.set ..) h
  | made op m cr d dx n j y hop hd hn hl hy hj hnew hadd => exact absurd (((h0.set ..).add ..).mk ..) h
  | linked cr d dx n j y hd hl hy hdir hlm hadd => exact absurd (h0.add ..) h
  | unlinked cr d dx n c y hrm hdir =>
    obtain ⟨rfl, h2, h3⟩ := hremp h
    exact ⟨hrm.look, h2, h3⟩
  | rmdired cr d dx n c y hrm hdir hemp hroot =>
    obtain ⟨rfl, h2, h3⟩ := hremp h
    have := hrm.ino
    rw [hx] at this
    cases this
    unfold Ino.isDir at hdir
    rw [hk] at hdir
    cases hdir
  | renSame cr d dx n d2 dx2 n2 f c y hrm hd2 hl2 hnr =>
    obtain ⟨rfl, h2, h3⟩ := hremp h
    exact ⟨hl2, h2, h3⟩
  | moved cr d dx n d2 dx2 n2 f c y hrm hd2 hl2 hn2 hex hca =>
    exfalso
    apply h
    unfold Fs.renameMove
    rw [hca]
    have h1 := h0.rem o.rem1 d n c y.isDir
    generalize s.rem o.rem1 d n c y.isDir = r at h1 ⊢
    obtain ⟨re, s1⟩ := r
    cases re with
    | some e => exact h1
    | none => exact Stays.addR h1 ..
  | exchanged cr d dx n d2 dx2 n2 f c y c2 y2 hrm hrm2 hne hex hnr =>
    exfalso
    apply h
    unfold Fs.renameExchange
    have h1 := h0.rem o.rem1 d n c y.isDir
    generalize s.rem o.rem1 d n c y.isDir = r at h1 ⊢
    obtain ⟨re, s1⟩ := r
    cases re with
    | some e => exact h1
    | none =>
      show Stays (match s1.rem o.rem2 d2 n2 c2 y2.isDir with | (some e, s2) => (some e, s2) | (none, s2) => _).2 i
      have h2 := Stays.rem h1 o.rem2 d2 n2 c2 y2.isDir
      have h2 : Stays (s1.rem o.rem2 d2 n2 c2 y2.isDir).2 i := h2
      generalize s1.rem o.rem2 d2 n2 c2 y2.isDir = r at h2 ⊢
      obtain ⟨re, s2⟩ := r
      cases re with
      | some e => exact h2
      | none =>
        have h2 : Stays s2 i := h2
        have h3 := h2.addR o.add1 d2 n2 c y.isDir
        simp only
        generalize s2.add o.add1 d2 n2 c y.isDir = r at h3 ⊢
        obtain ⟨re, s3⟩ := r
        cases re with
        | some e => exact h3
        | none => exact Stays.addR h3 ..
  | replaced cr d dx n d2 dx2 n2 f c y c2 y2 hrm hrm2 hne hex hnr hemp =>
    by_cases hs1 : Stays (s.remPrune o o.rem2 d2 n2 c2 y2.isDir).2 i
    · exfalso
      apply h
      unfold Fs.renameReplace
      generalize s.remPrune o o.rem2 d2 n2 c2 y2.isDir = r at hs1 ⊢
      obtain ⟨re, s1⟩ := r
      cases re with
      | some e => exact hs1
      | none =>
        have h2 := Stays.rem hs1 o.rem1 d n c y.isDir
        have h2 : Stays (s1.rem o.rem1 d n c y.isDir).2 i := h2
        simp only
        generalize s1.rem o.rem1 d n c y.isDir = r at h2 ⊢
        obtain ⟨re, s2⟩ := r
        cases re with
        | some e => exact h2
        | none => exact Stays.addR h2 ..
    · obtain ⟨rfl, h2, h3⟩ := hremp hs1
      refine ⟨hrm2.look, h2, ?_⟩
      unfold Fs.renameReplace
      generalize s.remPrune o o.rem2 d2 n2 c2 y2.isDir = r at h3 ⊢
      obtain ⟨re, s1⟩ := r
      cases re with
      | some e => exact h3
      | none =>
        have h4 := dropped_rem h3 o.rem1 d n c y.isDir
        have h4 : dropped s (s1.rem o.rem1 d n c y.isDir).2 c2 = true := h4
        simp only
        generalize s1.rem o.rem1 d n c y.isDir = r at h4 ⊢
        obtain ⟨re, s2⟩ := r
        cases re with
        | some e => exact h4
        | none => exact dropped_addR h4 ..
  | openedReg cr j f y hy hdir hacc => exact absurd (h0.incOpen ..) h
  | openedDir cr j f y hy hdir hacc => exact absurd (h0.incOpen ..) h
  | released j dir f y hy hop =>
    have hq : (s.decOpen j).looseq = [] := by
      have : (s.decOpen j).looseq = s.looseq := by unfold Fs.decOpen; split <;> rfl
      rw [this]; exact hg.looseq
    by_cases hj : i = j
    · subst hj
      have hz : (s.decOpen i).ino i = some { x with nopen := x.nopen - 1 } := by
        rw [Ns.decOpen_ino, hx]
        simp
      exact ⟨rfl, prune_victim hx hk hz rfl hq h⟩
    · obtain ⟨k1, k2⟩ := prune_spare (o := o) (s := s.decOpen j) hj hq
      exact absurd ⟨by rw [k1]; exact (h0.decOpen j).1, k2⟩ h
  | forgotten j y hy hp =>
    by_cases hj : i = j
    · subst hj
      rw [hx] at hy
      cases hy
      exact ⟨rfl, prune_victim (z := { x with pinned := false }) hx hk (by rw [Ns.setIno_get, if_pos rfl]) rfl hg.looseq h⟩
    · obtain ⟨k1, k2⟩ := prune_spare (o := o) (s := s.setIno j (some { y with pinned := false })) hj hg.looseq
      exact absurd ⟨by rw [k1]; exact (h0.set ..).1, k2⟩ h

/-- **C63.**  When a regular file is gone for good, all of its data are: nothing is left mapped. -/
theorem C63_freed {w : W} (h : WInv w) (q : NReq) (hok : (Req.name q).Fine w) (i : Nat) (hr : isReg w.ns i = true)
    (hgone : (q.run w).2.ns.ino i = none) :
    File.NoTree ((q.run w).2.st.file i) ∧ ∀ p, ((q.run w).2.st.file i).leaf (File.keyOf ((q.run w).2.st.file i).ft2 p) = none := by
  obtain ⟨hv, ht, hdie⟩ := hok
  have hd' : (Fs.finish (q.orc w) (q.op.body w.ns (q.orc w))).1 ≠ .die := hdie
  obtain ⟨_, _, _, _, _, g6, _⟩ := Ns.finish_inv (Ns.body_res h.ns hv ht).inv hd'
  have hst : ¬ Stays (q.op.body w.ns (q.orc w)).2 i := by
    intro hs
    apply hs.1
    rw [← g6 i hs.2]
    exact hgone
  obtain ⟨x, hx, hk⟩ : ∃ x, w.ns.ino i = some x ∧ x.attr.kind = .reg := by
    unfold isReg at hr
    cases hx : w.ns.ino i with
    | none => rw [hx] at hr; cases hr
    | some x => rw [hx] at hr; exact ⟨x, rfl, by simpa using hr⟩
  obtain ⟨v1, v2, v3⟩ := body_gone h.ns hx hk hst
  have hno : ∀ cr j f, q.op ≠ .openReg cr j f := by
    intro cr j f e
    rw [e] at v1
    cases v1
  have horc : q.o.drop = false ∧ (dropRun i w.st q.fo).1 = false := by
    unfold NReq.orc at v2
    split at v2
    · rename_i e
      exact absurd e (hno _ _ _)
    · rw [v1] at v2
      simp only [Bool.or_eq_false_iff, hr, Bool.true_and] at v2
      exact v2
  have hdata : (q.run w).2.st = (dropRun i w.st q.fo).2 := by
    show q.data w = _
    unfold NReq.data
    split
    · rename_i e
      exact absurd e (hno _ _ _)
    · rw [v1]
      simp only
      rw [if_pos v3, if_neg (by rw [horc.1]; simp)]
  rw [hdata]
  have := File.dropAll_wp h.st.ok i q.fo
  have hd := horc.2
  unfold dropRun at hd ⊢
  rcases hx : File.dropAll i w.st q.fo with ⟨r | d, s', o'⟩
  · rw [hx] at hd; cases hd
  · rw [hx] at this
    exact this.2

/-! ### Not vacuous -/

/-- Decides `Fine` for requests without copies. -/
def fineB (w : W) : Req → Bool
  | .name q => Ns.vfsB w.ns q.op && Ns.tearB w.ns (q.orc w) q.op && decide ((q.run w).1 ≠ .die)
  | _ => false

theorem fineB_ok {w : W} {r : Req} (h : fineB w r = true) : r.Fine w := by
  cases r with
  | name q =>
    simp only [fineB, Bool.and_eq_true, decide_eq_true_eq] at h
    exact ⟨Ns.vfsB_ok h.1.1, Ns.tearB_ok h.1.2, h.2⟩
  | _ => cases h

def nr (op : Ns.Op) (o : Orc) : Req := .name { op := op, o := o, fo := File.granted 100, early := false, ft2 := false }

/-- A file is made and written, renamed, its name removed, and it is still read through the handle. -/
def hist : List Req :=
  [ nr (.create Ns.su 1 Ns.na .reg 0o644) (Ns.spw 2),
    .data 2 (.write 3 [1, 2, 3] false) (File.granted 0),
    nr (.rename Ns.su 1 Ns.na 1 Ns.nb {}) {},
    nr (.unlink Ns.su 1 Ns.nb) {},
    .data 2 (.read 0 100) (File.granted 0),
    nr (.release 2 false {}) {} ]

def wi : W := W.init Ns.wA 100 (fun _ _ => 7)

example : FineAll wi hist := by
  refine ⟨fineB_ok (by decide +kernel), ⟨?_, fun _ e => by cases e⟩, fineB_ok (by decide +kernel),
    fineB_ok (by decide +kernel), ⟨?_, fun _ e => by cases e⟩, fineB_ok (by decide +kernel), trivial⟩
  · exact ⟨by constructor <;> decide, by decide, by decide⟩
  · exact ⟨by constructor <;> decide, by decide⟩

example : evAll wi hist =
    [.made (1, Ns.na) 2 true true, .io 2 (.write 3 [1, 2, 3]) (.ok []), .renamed (1, Ns.na) (1, Ns.nb) false,
     .removed (1, Ns.nb), .io 2 (.read 0 100) (.ok [0, 0, 0, 1, 2, 3]), .closed 2] := by
  decide +kernel

/-- At the end the file is gone, which is what `C63_freed` is about. -/
example : ((runAll wi (hist.take 5)).ns.ino 2).isSome = true ∧ ((runAll wi hist).ns.ino 2).isNone = true := by
  decide +kernel

/-- An unlink whose dropping of data fails: the name is gone, the program is told of the failure. -/
example :
    let w := runAll wi (hist.take 3 ++ [nr (.release 2 false {}) {}])
    (Req.run w (nr (.unlink Ns.su 1 Ns.nb) { drop := true })).2.ns.look 1 Ns.nb = none := by
  decide +kernel

end Silofs.Whole
