/-
C62: large writes whose data arrive after the lock was released.
-/
import Verif.Props.FileAsyncLow
import Verif.Props.FileCopy
import Verif.Spec.FileAsync

set_option linter.unusedSimpArgs false
set_option linter.unusedVariables false

namespace Silofs.File
open AsyncSpec (PFile PFS PSt PEv PRes PStep PRun Part Tiles Sees Lands)

/-! ### Refinement -/

/-- A vector in its second phase, as the user sees it. -/
def Flight.part (q : Flight) : Part := ⟨q.file, q.piece.pos, q.piece.len, q.dat⟩

/-- The outcome as the user sees it. -/
def FRes.pspec : FRes → PRes
  | .ok d => .ok d
  | .failed _ => .failed
  | .rejected _ => .rejected

/-- The action with its outcome as the user sees it. -/
def Act.spec (r : FRes) : Act → PEv
  | .read f off len => .read f off.toNat len r.pspec
  | .write f off dat _ => .write f off.toNat dat.length (fun p => dat.getD (p - off.toNat) 0) r.pspec
  | .start f off len dat _ => .start f off.toNat len dat r.pspec
  | .store i m => .store i m

/-- Arguments a caller can pass; a write has data. -/
def Act.Arg : Act → Prop
  | .read _ off len => Off64 off ∧ len < 2 ^ 64
  | .write _ off dat _ => Off64 off ∧ dat.length < 2 ^ 64 ∧ dat ≠ []
  | .start _ off len _ _ => Off64 off ∧ len < 2 ^ 64 ∧ 0 < len
  | .store _ _ => True

/-- State `x` of the system, and what the user knows of it. -/
structure Meets (x : Sys) (y : PSt) : Prop where
  inv : Inv x.st
  good : ∀ q ∈ x.pend, Good x.st q.file q.piece
  size : ∀ q ∈ x.pend, q.piece.pos + q.piece.len ≤ (x.st.file q.file).size
  sees : Sees y.fs (fun f => (x.st.file f).size) (byteAt x.st)
  pend : y.pend = x.pend.map Flight.part

theorem Cover.tiles (f : Nat) (dat : Nat → Nat) : ∀ {ps : List Piece} {lo hi : Nat}, Cover lo hi ps →
    Tiles lo hi ((ps.map fun p => (⟨f, p, dat⟩ : Flight)).map Flight.part)
  | [], lo, hi, h => h
  | x :: l, lo, hi, h => ⟨h.1, h.2.1, Cover.tiles f dat h.2.2⟩

theorem Cover.le : ∀ {ps : List Piece} {lo hi : Nat}, Cover lo hi ps → lo ≤ hi
  | [], lo, hi, h => by have : lo = hi := h; omega
  | x :: l, lo, hi, ⟨a, b, c⟩ => by have := Cover.le c; omega

theorem Cover.inside : ∀ {ps : List Piece} {lo hi : Nat}, Cover lo hi ps → ∀ q ∈ ps, q.pos + q.len ≤ hi
  | [], lo, hi, h, q, hq => by cases hq
  | x :: l, lo, hi, ⟨a, b, c⟩, q, hq => by
    rcases List.mem_cons.1 hq with rfl | hq
    · have := c.le; omega
    · exact Cover.inside c q hq

theorem map_eraseIdx {α β : Type} (g : α → β) : ∀ (l : List α) (i : Nat), (l.map g).eraseIdx i = (l.eraseIdx i).map g
  | [], i => rfl
  | a :: l, 0 => rfl
  | a :: l, i + 1 => by
    show g a :: (l.map g).eraseIdx i = g a :: (l.eraseIdx i).map g
    rw [map_eraseIdx g l i]

/-- What is known after file `f` was replaced. -/
theorem sees_set {y : PFS} {size size' : Nat → Nat} {byte byte' : Nat → Nat → Nat} {f : Nat} {a : PFile}
    (h : Sees y size byte) (ho : ∀ f', f' ≠ f → size' f' = size f' ∧ ∀ p, byte' f' p = byte f' p)
    (hs : size' f = a.size) (hb : ∀ p v, a.byte p = some v → byte' f p = v) : Sees (y.set f a) size' byte' := by
  intro f'
  by_cases hf : f' = f
  · subst hf
    rw [AsyncSpec.set_same]
    exact ⟨hs, hb⟩
  · rw [AsyncSpec.set_other _ _ hf]
    obtain ⟨o1, o2⟩ := ho f' hf
    obtain ⟨s1, s2⟩ := h f'
    exact ⟨o1.trans s1, fun p v hv => (o2 p).trans (s2 p v hv)⟩

/-- A request that wrote, or collected, `[beg, q)` of file `f`. -/
theorem Meets.wrote {x : Sys} {y : PSt} (h : Meets x y) {f beg q : Nat} {t : St} (hu : Unk f beg q x.st t)
    {s' : St} (hd : Hold x.st s') (he : s' = t.setFile f { t.file f with
        size := max q (x.st.file f).size, span := max q (x.st.file f).span }) (hbq : beg ≤ q) (hq : q ≤ sizeMax) (g : Nat → Option Nat)
    (hg : ∀ p v, beg ≤ p → p < q → g p = some v → byteAt t f p = v) :
    Meets ⟨s', x.pend⟩ { y with fs := y.fs.set f (((y.fs f).over beg q g).grow q) } := by
  subst he
  have hs := h.inv.size f
  have hsp := h.inv.span f
  obtain ⟨i1, i2, i3, i4⟩ := h.inv.after (f := f) hu.ok
    (fun f' hf p => hu.upd f' p (fun hh => hf hh.1)) hu.size hu.span
    (sz := max q (x.st.file f).size) (sp := max q (x.st.file f).span)
    (fun p hp => by rw [hu.upd f p (by omega)]; exact h.inv.tail f p (by omega)) (by omega) (by omega)
  refine ⟨i1, fun r hr => ?_, fun r hr => ?_, ?_, h.pend⟩
  · refine (h.good r hr).hold hd ?_
    by_cases hf : r.file = f
    · rw [hf]
      show ((t.setFile f _).file f).ft2 = _
      rw [setFile_same]; exact hu.ft2 f
    · show ((t.setFile f _).file r.file).ft2 = _
      rw [setFile_other _ _ hf]; exact hu.ft2 _
  · have h0 := h.size r hr
    show _ ≤ ((t.setFile f _).file r.file).size
    by_cases hf : r.file = f
    · rw [hf] at h0 ⊢; rw [setFile_same]
      show _ ≤ max q (x.st.file f).size
      omega
    · rw [setFile_other _ _ hf, hu.size]; exact h0
  · refine sees_set h.sees (fun f' hf => ⟨?_, fun p => ?_⟩) ?_ (fun p v hv => ?_)
    · show ((t.setFile f _).file f').size = _
      rw [setFile_other _ _ hf, hu.size]
    · rw [byteAt_setMeta]; exact hu.upd f' p (fun hh => hf hh.1)
    · show ((t.setFile f _).file f).size = max (y.fs f).size q
      rw [setFile_same, ← (h.sees f).1]
      exact Nat.max_comm _ _
    · rw [byteAt_setMeta]
      have hv' : (if beg ≤ p ∧ p < q then g p else (y.fs f).byte p) = some v := hv
      by_cases hp : beg ≤ p ∧ p < q
      · rw [if_pos hp] at hv'; exact hg p v hp.1 hp.2 hv'
      · rw [if_neg hp] at hv'
        rw [hu.upd f p (fun hh => hp hh.2)]
        exact (h.sees f).2 p v hv'

/-- A state that differs in the cursor only. -/
theorem Meets.only {x : Sys} {y : PSt} (h : Meets x y) {s : St} (ho : OnlyPos x.st s) : Meets ⟨s, x.pend⟩ y := by
  obtain ⟨q, rfl⟩ := ho
  exact ⟨⟨h.inv.ok.setPos q, h.inv.tail, h.inv.size, h.inv.span⟩, fun r hr =>
    ⟨(h.good r hr).off, (h.good r hr).fit, (h.good r hr).held⟩, h.size, h.sees, h.pend⟩

/-- C62: every action of every thread, in every state.  What it does and answers is as the
user expects: a large write that is accepted makes the bytes of its range unknown until
they arrive, and nothing else ever changes bytes outside the range of a request. -/
theorem C62_step {x : Sys} {y : PSt} (h : Meets x y) (a : Act) (harg : a.Arg) (o : List Ans) :
    ∃ y', PStep y (a.spec (a.run x o).1) y' ∧ Meets (a.run x o).2 y' := by
  cases a with
  | read f off len =>
    obtain ⟨hi, ho, hst⟩ := C01_request_partial h.inv f (.read off len) harg o
    have hpos : OnlyPos x.st (FOp.run f (.read off len) x.st o).2 := by
      unfold FOp.run
      split
      · exact OnlyPos.refl _
      · have := readIter_wp h.inv.ok f off.toNat len o
        have he : FOp.exec f (.read off len) x.st o = readIter f off.toNat len x.st o := rfl
        rw [he]
        rcases hx : readIter f off.toNat len x.st o with ⟨r | d, s', o'⟩
        · rw [hx] at this; exact this
        · rw [hx] at this; exact this.1
    refine ⟨y, ?_, h.only hpos⟩
    revert hst
    simp only [Act.run, Act.spec]
    generalize (FOp.run f (.read off len) x.st o).1 = r
    intro hst
    cases r with
    | failed e => rfl
    | rejected e => rfl
    | ok out =>
      obtain ⟨_, hout⟩ := hst
      obtain ⟨s1, s2⟩ := h.sees f
      refine ⟨rfl, ?_, fun i hi v hv => ?_⟩
      · rw [hout]
        simp only [FOp.spec, FileSpec.Op.output, FileSpec.AFile.read, List.length_map, List.length_range]
        rw [← s1]; rfl
      · have hval : out.getD i 0 = byteAt x.st f (off.toNat + i) := by
          rw [hout] at hi ⊢
          simp only [FOp.spec, FileSpec.Op.output, FileSpec.AFile.read, List.length_map, List.length_range] at hi ⊢
          rw [List.getD_eq_getElem?_getD, List.getElem?_map, List.getElem?_range hi]
          rfl
        rw [hval]; exact s2 _ _ hv
  | write f off dat sync =>
    obtain ⟨a1, a2, a3⟩ := harg
    simp only [Act.run, FOp.run]
    cases hchk : FOp.check (x.st.file f) (.write off dat sync) with
    | some e => exact ⟨y, rfl, h⟩
    | none =>
      obtain ⟨c1, c2, c3⟩ := (C07_write (size := ((x.st.file f).size : Int)) a1 a2).1 hchk
      have hoff : off.toNat + dat.length ≤ sizeMax := by omega
      have hw : wp (FOp.exec f (.write off dat sync))
          (fun d s' => ∃ y', PStep y (Act.spec (.ok d) (.write f off dat sync)) y' ∧ Meets ⟨s', x.pend⟩ y')
          (fun s' => ∀ e, ∃ y', PStep y (Act.spec (.failed e) (.write f off dat sync)) y' ∧ Meets ⟨s', x.pend⟩ y')
          x.st := by
        refine wp_bind (wp_mono (wp_and (writeIter_wp h.inv.ok f off.toNat (off.toNat + dat.length)
            (fun p => dat.getD (p - off.toNat) 0) sync (by omega) (by omega))
          (writeIter_hold h.inv.ok f off.toNat (off.toNat + dat.length)
            (fun p => dat.getD (p - off.toNat) 0) sync (by omega))) ?_ ?_)
        · rintro _ s' ⟨⟨t, hr, e⟩, hd⟩
          refine wp_pure ⟨_, rfl, h.wrote hr.unk hd e (by omega) hoff _ (fun p v h1 h2 hv => ?_)⟩
          rw [hr.upd, if_pos ⟨rfl, h1, h2⟩]
          exact Option.some.inj hv
        · rintro s' ⟨⟨q, t, q1, q2, hr, e⟩, hd⟩ err
          refine ⟨_, ⟨q - off.toNat, by omega, rfl⟩, ?_⟩
          have := h.wrote hr.unk hd e q1 (by omega) (fun p => some (dat.getD (p - off.toNat) 0))
            (fun p v h1 h2 hv => by rw [hr.upd, if_pos ⟨rfl, h1, h2⟩]; exact Option.some.inj hv)
          unfold PFile.write
          rw [show off.toNat + (q - off.toNat) = q by omega]
          exact this
      have := hw o
      rcases hx : FOp.exec f (.write off dat sync) x.st o with ⟨r | d, s', o'⟩
      · rw [hx] at this; exact this r
      · rw [hx] at this; exact this
  | start f off len dat sync =>
    obtain ⟨a1, a2, a3⟩ := harg
    simp only [Act.run, startRun]
    cases hchk : checkFileIo (rwReq .write off len (x.st.file f).size) with
    | some e => exact ⟨y, rfl, h⟩
    | none =>
      obtain ⟨c1, c2, c3⟩ := (C07_write (size := ((x.st.file f).size : Int)) a1 a2).1 hchk
      have hoff : off.toNat + len ≤ sizeMax := by omega
      have hw := gatherIter_wp h.inv.ok f off.toNat (off.toNat + len) sync (by omega) (by omega) o
      rcases hx : gatherIter f off.toNat (off.toNat + len) sync x.st o with ⟨r | ps, s', o'⟩
      · rw [hx] at hw
        obtain ⟨q, t, q1, q2, hu, hd, e⟩ := hw
        refine ⟨_, ⟨q - off.toNat, by omega, rfl⟩, ?_⟩
        have := h.wrote hu (by rw [e]; exact hd.setMeta f _ _) e q1 (by omega) (fun _ => none)
          (fun p v _ _ hv => by cases hv)
        unfold PFile.blur
        rw [show off.toNat + (q - off.toNat) = q by omega]
        exact this
      · rw [hx] at hw
        obtain ⟨t, hu, hd, hc, hgood, e⟩ := hw
        have hm := h.wrote hu (by rw [e]; exact hd.setMeta f _ _) e (by omega) hoff (fun _ => none)
          (fun p v _ _ hv => by cases hv)
        refine ⟨_, ⟨_, hc.tiles f dat, ?_, rfl⟩, ?_⟩
        · intro q hq
          simp only [List.mem_map] at hq
          obtain ⟨fl, ⟨p, _, rfl⟩, rfl⟩ := hq
          exact ⟨rfl, rfl⟩
        · refine ⟨hm.inv, fun q hq => ?_, fun q hq => ?_, hm.sees, ?_⟩
          · rcases List.mem_append.1 hq with hq | hq
            · exact hm.good q hq
            · obtain ⟨p, hp, rfl⟩ := List.mem_map.1 hq
              exact hgood p hp
          · rcases List.mem_append.1 hq with hq | hq
            · exact hm.size q hq
            · obtain ⟨p, hp, rfl⟩ := List.mem_map.1 hq
              have := hc.inside p hp
              show p.pos + p.len ≤ (s'.file f).size
              rw [e, setFile_same]
              show _ ≤ max (off.toNat + len) (x.st.file f).size
              omega
          · show y.pend ++ _ = List.map Flight.part (x.pend ++ _)
            rw [List.map_append, h.pend]
  | store i m =>
    simp only [Act.run, Act.spec]
    refine ⟨y.store i m, rfl, ?_⟩
    unfold PSt.store
    rw [h.pend, List.getElem?_map]
    cases hq : x.pend[i]? with
    | none => exact h
    | some q =>
      have hmem := List.mem_of_getElem? hq
      obtain ⟨hr, hd⟩ := copyPiece_rel h.inv.ok (h.good q hmem) q.dat m
      have hsz := h.size q hmem
      simp only [Option.map_some]
      refine ⟨⟨hr.ok, fun f' p hp => ?_, fun f' => by rw [hr.size]; exact h.inv.size f',
        fun f' => by rw [hr.span]; exact h.inv.span f'⟩, fun r hr' => ?_, fun r hr' => ?_, ?_, ?_⟩
      · rw [hr.size] at hp
        rw [hr.upd, if_neg]
        · exact h.inv.tail f' p hp
        · rintro ⟨rfl, h1, h2⟩; omega
      · exact (h.good r (List.mem_of_mem_eraseIdx hr')).hold hd (hr.ft2 _)
      · show _ ≤ ((copyPiece q.piece q.dat m x.st).file r.file).size
        rw [hr.size]; exact h.size r (List.mem_of_mem_eraseIdx hr')
      · refine sees_set h.sees (fun f' hf => ⟨hr.size f', fun p => ?_⟩) ?_ (fun p v hv => ?_)
        · rw [hr.upd, if_neg (fun hh => hf hh.1)]
        · show ((copyPiece q.piece q.dat m x.st).file q.file).size = (y.fs q.file).size
          rw [hr.size]; exact (h.sees q.file).1
        · have hv' : (if q.piece.pos ≤ p ∧ p < q.piece.pos + min m q.piece.len then some (q.dat p)
              else (y.fs q.file).byte p) = some v := hv
          rw [show q.part.file = q.file from rfl, hr.upd]
          by_cases hp : q.piece.pos ≤ p ∧ p < q.piece.pos + min m q.piece.len
          · rw [if_pos hp] at hv'
            rw [if_pos ⟨rfl, hp⟩]; exact Option.some.inj hv'
          · rw [if_neg hp] at hv'
            rw [if_neg (fun hh => hp hh.2)]
            exact (h.sees q.file).2 p v hv'
      · show (List.map Flight.part x.pend).eraseIdx i = List.map Flight.part (x.pend.eraseIdx i)
        rw [map_eraseIdx]

/-! ### Histories -/

/-- Run a history of actions. -/
def runActs (x : Sys) : List (Act × List Ans) → Sys
  | [] => x
  | (a, o) :: t => runActs (a.run x o).2 t

/-- What the user saw of a history. -/
def actTrace (x : Sys) : List (Act × List Ans) → List PEv
  | [] => []
  | (a, o) :: t => a.spec (a.run x o).1 :: actTrace (a.run x o).2 t

/-- A new file system, as the user sees it. -/
def PSt.new : PSt := ⟨fun _ => ⟨0, fun _ => some 0⟩, []⟩

theorem meets_init (raw : Nat → Nat → Nat) : Meets ⟨St.init raw, []⟩ PSt.new :=
  ⟨Inv.init raw, by simp, by simp, fun f => ⟨rfl, fun p v hv => Option.some.inj hv⟩, rfl⟩

theorem acts_run {x : Sys} {y : PSt} (h : Meets x y) (t : List (Act × List Ans)) (harg : ∀ e ∈ t, e.1.Arg) :
    ∃ y', PRun y (actTrace x t) y' ∧ Meets (runActs x t) y' := by
  induction t generalizing x y with
  | nil => exact ⟨y, .nil y, h⟩
  | cons e t ih =>
    obtain ⟨a, o⟩ := e
    obtain ⟨y1, s1, m1⟩ := C62_step h a (harg (a, o) (by simp)) o
    obtain ⟨y2, r2, m2⟩ := ih m1 (fun e he => harg e (by simp [he]))
    exact ⟨y2, .cons s1 r2, m2⟩

/-- C62: whatever reads, writes and large writes any number of threads make on any number of
files of a new file system, in whatever order the data of the large writes arrive, how
many of them ever do, and whatever fails: sizes, contents and answers are as expected.
Missing for the full claim: that no reader sees bytes nobody wrote while data are on their
way or did not arrive (`C62_stale_read_violated`, `C62_lost_data_violated`,
`C62_no_space_violated`), and range copies meanwhile (`C62_copy_violated`). -/
theorem C62_history_partial (raw : Nat → Nat → Nat) (t : List (Act × List Ans)) (harg : ∀ e ∈ t, e.1.Arg) :
    ∃ y, PRun PSt.new (actTrace ⟨St.init raw, []⟩ t) y ∧
      Sees y.fs (fun f => ((runActs ⟨St.init raw, []⟩ t).st.file f).size)
        (byteAt (runActs ⟨St.init raw, []⟩ t).st) := by
  obtain ⟨y, r, m⟩ := acts_run (meets_init raw) t harg
  exact ⟨y, r, m.sees⟩

/-- A vector on its way is for byte `p` of file `f`. -/
def Flight.For (q : Flight) (f p : Nat) : Prop :=
  q.file = f ∧ q.piece.pos ≤ p ∧ p < q.piece.pos + q.piece.len

/-- No new write of byte `p` of file `f` begins; data arrive as whole vectors. -/
def Act.Calm (f p : Nat) : Act → Prop
  | .read _ _ _ => True
  | .write f' off dat _ => ¬ (f' = f ∧ off.toNat ≤ p ∧ p < off.toNat + dat.length)
  | .start f' off len _ _ => ¬ (f' = f ∧ off.toNat ≤ p ∧ p < off.toNat + len)
  | .store _ m => 65536 ≤ m

theorem key_size_le (k : Key) : k.size ≤ 65536 := by cases k <;> simp [Key.size]

theorem Act.Calm.spec {f p : Nat} {a : Act} (h : a.Calm f p) {x : Sys} {y : PSt} (hm : Meets x y) (r : FRes) :
    (a.spec r).Calm y f p := by
  cases a with
  | read f' off len => trivial
  | write f' off dat sync => exact h
  | start f' off len dat sync => exact h
  | store i m =>
    intro q hq
    rw [hm.pend, List.getElem?_map] at hq
    cases hx : x.pend[i]? with
    | none => rw [hx] at hq; cases hq
    | some fl =>
      rw [hx] at hq
      cases hq
      have hg := hm.good fl (List.mem_of_getElem? hx)
      have h1 := hg.fit
      have h2 := key_size_le (keyOf (x.st.file fl.file).ft2 fl.piece.pos)
      have h3 : 65536 ≤ m := h
      show fl.piece.len ≤ m
      omega

theorem lands_run {f p v n : Nat} {x : Sys} {y : PSt} (h : Meets x y) (hl : Lands f p v y) (hn : n ≤ (y.fs f).size)
    (t : List (Act × List Ans)) (harg : ∀ e ∈ t, e.1.Arg) (hc : ∀ e ∈ t, e.1.Calm f p) :
    ∃ y', Meets (runActs x t) y' ∧ Lands f p v y' ∧ n ≤ (y'.fs f).size := by
  induction t generalizing x y with
  | nil => exact ⟨y, h, hl, hn⟩
  | cons e t ih =>
    obtain ⟨a, o⟩ := e
    obtain ⟨y1, s1, m1⟩ := C62_step h a (harg (a, o) (by simp)) o
    exact ih m1 (hl.step s1 ((hc (a, o) (by simp)).spec h _)) (Nat.le_trans hn (s1.size_le f))
      (fun e he => harg e (by simp [he])) (fun e he => hc e (by simp [he]))

/-- C62: a large write that is accepted at any moment of any history.  Once its data for byte
`p` arrived, with whatever other reads and writes in between (of other bytes, also of the
same block), every read gives that byte. -/
theorem C62_lands (raw : Nat → Nat → Nat) (t1 t2 : List (Act × List Ans)) (f : Nat) (off : Int) (len : Nat)
    (dat : Nat → Nat) (sync : Bool) (o : List Ans) (p : Nat)
    (harg : ∀ e ∈ t1 ++ (.start f off len dat sync, o) :: t2, e.1.Arg)
    (hok : (Act.run (runActs ⟨St.init raw, []⟩ t1) o (.start f off len dat sync)).1 = .ok [])
    (hp1 : off.toNat ≤ p) (hp2 : p < off.toNat + len)
    (hpre : ∀ q ∈ (runActs ⟨St.init raw, []⟩ t1).pend, ¬ q.For f p)
    (hcalm : ∀ e ∈ t2, e.1.Calm f p)
    (hend : ∀ q ∈ (runActs ⟨St.init raw, []⟩ (t1 ++ (.start f off len dat sync, o) :: t2)).pend, ¬ q.For f p)
    (roff : Int) (rlen : Nat) (hroff : Off64 roff) (hrlen : rlen < 2 ^ 64) (ro : List Ans) {out : List Nat}
    (hr : (FOp.run f (.read roff rlen)
      (runActs ⟨St.init raw, []⟩ (t1 ++ (.start f off len dat sync, o) :: t2)).st ro).1 = .ok out)
    (h1 : roff.toNat ≤ p) (h2 : p < roff.toNat + rlen) :
    out[p - roff.toNat]? = some (dat p) := by
  have happ : ∀ (x : Sys) (u v : List (Act × List Ans)), runActs x (u ++ v) = runActs (runActs x u) v := by
    intro x u v
    induction u generalizing x with
    | nil => rfl
    | cons e u ih => exact ih _
  rw [happ] at hend hr
  obtain ⟨y1, r1, m1⟩ := acts_run (meets_init raw) t1 (fun e he => harg e (by simp [he]))
  obtain ⟨y2, s2, m2⟩ := C62_step m1 (.start f off len dat sync) (harg (.start f off len dat sync, o) (by simp)) o
  have hs2 := s2
  rw [hok] at s2
  obtain ⟨ps, ht, hf, e⟩ := s2
  have hl : Lands f p (dat p) y2 := by
    refine ⟨fun q hq hfor => ?_, .inr ?_⟩
    · rw [e] at hq
      rcases List.mem_append.1 hq with hq | hq
      · exfalso
        rw [m1.pend] at hq
        obtain ⟨fl, hfl, rfl⟩ := List.mem_map.1 hq
        exact hpre fl hfl hfor
      · rw [(hf q hq).2]
    · obtain ⟨q, hq, h3⟩ := ht.mem hp1 hp2
      exact ⟨q, by rw [e]; exact List.mem_append_right _ hq, (hf q hq).1, h3⟩
  have hn : off.toNat + len ≤ (y2.fs f).size := by
    rw [e]
    show _ ≤ ((y1.fs.set f _) f).size
    rw [AsyncSpec.set_same]
    exact Nat.le_max_right _ _
  obtain ⟨y3, m3, l3, n3⟩ := lands_run m2 hl hn t2 (fun e he => harg e (by simp [he])) hcalm
  have hb : (y3.fs f).byte p = some (dat p) := by
    rcases l3.2 with hb | ⟨q, hq, hfor⟩
    · exact hb
    · exfalso
      rw [m3.pend] at hq
      obtain ⟨fl, hfl, rfl⟩ := List.mem_map.1 hq
      exact hend fl hfl hfor
  obtain ⟨y4, s4, _⟩ := C62_step m3 (.read f roff rlen) ⟨hroff, hrlen⟩ ro
  have hres : (Act.run (runActs (Act.run (runActs ⟨St.init raw, []⟩ t1) o (.start f off len dat sync)).2 t2) ro
      (.read f roff rlen)).1 = .ok out := hr
  rw [hres] at s4
  obtain ⟨_, hlen, hval⟩ := s4
  have hi : p - roff.toNat < out.length := by rw [hlen]; omega
  have := hval _ hi (dat p) (by rw [show roff.toNat + (p - roff.toNat) = p by omega]; exact hb)
  rw [List.getD_eq_getElem?_getD, List.getElem?_eq_getElem hi] at this
  rw [List.getElem?_eq_getElem hi]
  simpa using this

/-! ### One large write -/

/-- All vectors of a request are copied, in order (fuseq.c:2652-2680). -/
def copyAll (dat : Nat → Nat) (s : St) : List Piece → St
  | [] => s
  | p :: l => copyAll dat (copyPiece p dat p.len s) l

theorem copyAll_rel {f : Nat} (dat : Nat → Nat) : ∀ (ps : List Piece) (lo hi : Nat) (s : St), Ok s →
    Cover lo hi ps → (∀ p ∈ ps, Good s f p) → Rel f lo hi dat s (copyAll dat s ps)
  | [], lo, hi, s, h, hc, hg => by
    have : lo = hi := hc
    subst this
    exact Rel.refl _ _ _ h
  | x :: l, lo, hi, s, h, ⟨c1, c2, c3⟩, hg => by
    obtain ⟨hr, hd⟩ := copyPiece_rel h (hg x (by simp)) dat x.len
    rw [Nat.min_self] at hr
    have := copyAll_rel dat l (lo + x.len) hi _ hr.ok c3
      (fun p hp => (hg p (by simp [hp])).hold hd (hr.ft2 f))
    rw [c1] at hr
    exact hr.trans this (by omega) c3.le

/-- C62: a large write with nothing in between does to the files what an ordinary write of
the same data does. -/
theorem C62_complete {s : St} (h : Inv s) (f : Nat) (off : Int) (dat : List Nat) (sync : Bool) (o : List Ans)
    (hoff : Off64 off) (hlen : dat.length < 2 ^ 64) (hne : dat ≠ [])
    (hchk : checkFileIo (rwReq .write off dat.length (s.file f).size) = none) {ps : List Piece} {s' : St} {o' : List Ans}
    (hrun : gatherIter f off.toNat (off.toNat + dat.length) sync s o = (.ok ps, s', o')) :
    ∃ s'', s'' = copyAll (fun p => dat.getD (p - off.toNat) 0) s' ps ∧ Inv s'' ∧
      abs s'' = FileSpec.FS.set (abs s) f ((abs s f).write off.toNat dat) := by
  obtain ⟨c1, c2, c3⟩ := (C07_write (size := ((s.file f).size : Int)) hoff hlen).1 hchk
  have hle : off.toNat + dat.length ≤ sizeMax := by omega
  have hpos : 0 < dat.length := List.length_pos_iff.2 hne
  have hw := gatherIter_wp h.ok f off.toNat (off.toNat + dat.length) sync (by omega) (by omega) o
  rw [hrun] at hw
  obtain ⟨t, hu, hd, hc, hg, e⟩ := hw
  have hs := h.size f
  have hsp := h.span f
  obtain ⟨i1, i2, i3, i4⟩ := h.after (f := f) hu.ok
    (fun f' hf p => hu.upd f' p (fun hh => hf hh.1)) hu.size hu.span
    (sz := max (off.toNat + dat.length) (s.file f).size) (sp := max (off.toNat + dat.length) (s.file f).span)
    (fun p hp => by rw [hu.upd f p (by omega)]; exact h.tail f p (by omega)) (by omega) (by omega)
  rw [← e] at i1 i2 i3 i4
  have hr := copyAll_rel (f := f) (fun p => dat.getD (p - off.toNat) 0) ps _ _ s' i1.ok hc hg
  refine ⟨_, rfl, ⟨hr.ok, fun f' p hp => ?_, fun f' => by rw [hr.size]; exact i1.size f',
    fun f' => by rw [hr.span]; exact i1.span f'⟩, ?_⟩
  · rw [hr.size] at hp
    rw [hr.upd, if_neg]
    · exact i1.tail f' p hp
    · rintro ⟨rfl, h1, h2⟩
      have : (s'.file f').size = max (off.toNat + dat.length) (s.file f').size := i3
      omega
  · funext f'
    by_cases hf : f' = f
    · subst hf
      rw [show FileSpec.FS.set (abs s) f' ((abs s f').write off.toNat dat) f' = (abs s f').write off.toNat dat by
        simp [FileSpec.FS.set]]
      refine afile_ext ?_ (fun p => ?_)
      · show ((copyAll _ s' ps).file f').size = _
        rw [hr.size]
        have : (s'.file f').size = max (off.toNat + dat.length) (s.file f').size := i3
        rw [this]
        simp only [FileSpec.AFile.write, hne, if_false, abs]
        exact Nat.max_comm _ _
      · show byteAt (copyAll _ s' ps) f' p = _
        rw [hr.upd]
        simp only [FileSpec.AFile.write, hne, if_false, abs, true_and]
        by_cases hp : off.toNat ≤ p ∧ p < off.toNat + dat.length
        · rw [if_pos hp, if_pos hp]
        · rw [if_neg hp, if_neg hp]
          have : byteAt s' f' p = byteAt t f' p := i4 p
          rw [this, hu.upd f' p (fun hh => hp hh.2)]
    · rw [show FileSpec.FS.set (abs s) f ((abs s f).write off.toNat dat) f' = abs s f' by
        simp [FileSpec.FS.set, hf]]
      rw [← i2 f' hf]
      refine afile_ext (hr.size f') (fun p => ?_)
      show byteAt (copyAll _ s' ps) f' p = byteAt s' f' p
      rw [hr.upd, if_neg (fun hh => hf hh.1)]

/-! ### Non-vacuity and counterexamples -/

/-- A new file system; its blocks hold 7s. -/
def sysNew : Sys := ⟨St.init (fun _ _ => 7), []⟩

/-- Two blocks are written as a whole; the second arrives before the first, and another
write changes two bytes of a third block meanwhile. -/
example :
    let x1 := (Act.run sysNew (granted 0) (.start 0 65536 131072 (fun p => p % 256) false)).2
    let x2 := (Act.run x1 [] (.store 1 65536)).2
    let x3 := (Act.run x2 (granted 100) (.write 0 196608 [5, 6] false)).2
    let x4 := (Act.run x3 [] (.store 0 65536)).2
    x1.pend.length = 2 ∧ x4.pend.length = 0 ∧
    (Act.run x4 (granted 0) (.read 0 65537 3)).1 = .ok [1, 2, 3] ∧
    (Act.run x4 (granted 0) (.read 0 196606 10)).1 = .ok [254, 255, 5, 6] := by decide +kernel

/-- Answers that give block 5, which holds what it held before, to every claim. -/
def reuse (s : St) : List Ans := (List.range 40).map fun _ => .ok 5 (s.blk 5).raw

/-- File 1 is written and deleted; its block is given to file 0 for a large write.  Until the
data arrive, a reader of file 0 sees what was in the deleted file. -/
theorem C62_stale_read_violated :
    let s1 := (FOp.run 1 (.write 65536 [42, 43] false) (St.init (fun _ _ => 0)) (reuse (St.init (fun _ _ => 0)))).2
    let s2 := (FOp.run 1 (.recreate false) s1 (granted 0)).2
    let r := Act.run ⟨s2, []⟩ (reuse s2) (.start 0 65536 65536 (fun _ => 1) false)
    r.1 = .ok [] ∧ (Act.run r.2 (granted 0) (.read 0 65536 3)).1 = .ok [42, 43, 0] := by decide +kernel

/-- The data do not arrive: the request fails, and from then on the file shows what its
blocks held before. -/
theorem C62_lost_data_violated :
    let x1 := (Act.run sysNew (granted 0) (.start 0 65536 131072 (fun _ => 1) false)).2
    let x2 := (Act.run x1 [] (.store 0 0)).2
    let x3 := (Act.run x2 [] (.store 0 0)).2
    x3.pend.length = 0 ∧ (x3.st.file 0).size = 196608 ∧
    (Act.run x3 (granted 0) (.read 0 65536 2)).1 = .ok [7, 7] := by decide +kernel

/-- There is space for the first block of a request but not for the second: the request
fails, and the file, extended by the first block, shows what that block held before.  An
ordinary write would have stored its first 65536 bytes. -/
theorem C62_no_space_violated :
    let o := (granted 0).take 8 ++ [.fail .eio]
    let r := Act.run sysNew o (.start 0 65536 131072 (fun _ => 1) false)
    r.1 = .failed .eio ∧ r.2.pend.length = 0 ∧ (r.2.st.file 0).size = 131072 ∧
    (Act.run r.2 (granted 0) (.read 0 65536 2)).1 = .ok [7, 7] := by decide +kernel

/-- The range of a large write whose data are on their way is copied to another file, which
shares the block.  When the data arrive they change both files, after the copy was done. -/
theorem C62_copy_violated :
    let x1 := (Act.run sysNew (granted 0) (.start 0 65536 65536 (fun _ => 1) false)).2
    let c := opCopy 0 65536 1 65536 65536 x1.st (granted 200)
    let x2 : Sys := ⟨c.2, x1.pend⟩
    let x3 := (Act.run x2 [] (.store 0 65536)).2
    c.1 = .ok 65536 ∧
    (Act.run x2 (granted 0) (.read 1 65536 2)).1 = .ok [7, 7] ∧
    (Act.run x3 (granted 0) (.read 1 65536 2)).1 = .ok [1, 1] := by decide +kernel

end Silofs.File
