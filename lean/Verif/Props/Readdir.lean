import Verif.Props.ReaddirBase
import Verif.Props.Dir
/-
C09/C10: listing a directory in chunks, quietly and under concurrent changes.
-/
set_option linter.unusedSimpArgs false
set_option linter.unusedVariables false
namespace Silofs.Dir

/-! ### One reply -/

def nxt : List Item → Int
  | [] => -1
  | y :: _ => y.off

def annotate : List Item → List (Item × Int)
  | [] => []
  | x :: l => (x, nxt l) :: annotate l

theorem annotate_map (l : List Item) : (annotate l).map (·.1) = l := by
  induction l with
  | nil => rfl
  | cons x l ih => simp [annotate, ih]

theorem annotate_length (l : List Item) : (annotate l).length = l.length := by
  induction l with
  | nil => rfl
  | cons x l ih => simp [annotate, ih]

theorem feed_some (hdr rem : Nat) (x : Item) (l : List Item) :
    ∃ k, feed hdr rem (some x) l = (annotate (x :: l)).take k ∧
      (fits hdr rem x.name = true → 1 ≤ k) := by
  induction l generalizing rem x with
  | nil =>
    simp only [feed]
    split
    · exact ⟨1, by simp [annotate, nxt], by simp⟩
    · rename_i h; exact ⟨0, by simp, by simp [h]⟩
  | cons y l ih =>
    simp only [feed]
    split
    · obtain ⟨k, hk, _⟩ := ih (rem - entSize hdr x.name) y
      refine ⟨k + 1, ?_, by simp⟩
      rw [hk]; simp [annotate, nxt]
    · rename_i h; exact ⟨0, by simp, by simp [h]⟩

/-- A reply is a prefix of what is offered, each entry with the offset of the
following one; it is not empty if something is offered and the first fits. -/
theorem feed_none (hdr rem : Nat) (l : List Item) :
    ∃ k, feed hdr rem none l = (annotate l).take k ∧ k ≤ l.length ∧
      (∀ x ∈ l.head?, fits hdr rem x.name = true → 1 ≤ k) := by
  cases l with
  | nil => exact ⟨0, by simp [feed, annotate], by simp, by simp⟩
  | cons x l =>
    obtain ⟨k, hk, h1⟩ := feed_some hdr rem x l
    refine ⟨min k (l.length + 1), ?_, by simp; omega, ?_⟩
    · rw [feed, hk]
      rcases Nat.lt_or_ge k (l.length + 1) with h | h
      · rw [Nat.min_eq_left (by omega)]
      · rw [Nat.min_eq_right h, List.take_of_length_le (by simp [annotate_length]; omega),
          List.take_of_length_le (by simp [annotate_length])]
    · intro y hy hf
      simp at hy; subst hy
      have := h1 hf; omega

theorem nextPos_take (pos : Int) (l : List Item) (k : Nat) (hk : k ≤ l.length) (h1 : 1 ≤ k) :
    nextPos pos ((annotate l).take k) = nxt (l.drop k) := by
  induction l generalizing k with
  | nil => simp at hk; omega
  | cons x l ih =>
    cases k with
    | zero => omega
    | succ k =>
      simp only [List.length_cons] at hk
      cases k with
      | zero => simp [annotate, nextPos]
      | succ k =>
        have h := ih (k + 1) (by omega) (by omega)
        cases l with
        | nil => simp at hk
        | cons y l =>
          rw [List.drop_succ_cons, ← h]
          simp [annotate, nextPos, List.getLast?_cons_cons]

theorem nextPos_nil (pos : Int) : nextPos pos [] = pos := rfl

/-- A buffer in which every entry fits. -/
def Big (hdr bsz : Nat) : Prop := hdr + 262 ≤ bsz

theorem fits_big (hdr bsz : Nat) (h : Big hdr bsz) (nm : Name) (hn : nm.length ≤ 255) :
    fits hdr bsz nm = true := by
  unfold fits entSize Big at *
  simp only [Bool.and_eq_true, decide_eq_true_eq]
  omega

theorem fullList_name_len {d : Dir} (hv : Inv d) (selfIno upIno : Nat) (x : Item)
    (hx : x ∈ fullList d selfIno upIno) : x.name.length ≤ 255 := by
  unfold fullList at hx
  rcases List.mem_cons.1 hx with rfl | hx
  · simp
  · rcases List.mem_cons.1 hx with rfl | hx
    · simp
    · obtain ⟨i, s, e, he, _, rfl⟩ := (mem_treeItems hv x).1 hx
      exact (hv.ents i s e he).2.2.2

/-- Splitting a sorted list by offset. -/
theorem sorted_filter_split (l : List Item) (hs : l.Pairwise (fun a b => a.off < b.off)) (k : Nat)
    (y : Item) (rest : List Item) (hd : l.drop k = y :: rest) :
    l.take k = l.filter (fun x => decide (x.off < y.off)) ∧
    l.drop k = l.filter (fun x => decide (y.off ≤ x.off)) := by
  have happ : l = l.take k ++ (y :: rest) := by rw [← hd, List.take_append_drop]
  have hs' : (l.take k ++ (y :: rest)).Pairwise (fun a b => a.off < b.off) := by rw [← happ]; exact hs
  rw [List.pairwise_append, List.pairwise_cons] at hs'
  constructor
  · conv => rhs; rw [happ]
    rw [List.filter_append, List.filter_eq_self.2, filter_all_false _ (y :: rest), List.append_nil]
    · intro x hx
      rcases List.mem_cons.1 hx with rfl | hx
      · simp
      · have := hs'.2.1.1 x hx
        simp; omega
    · intro x hx
      have := hs'.2.2 x hx y (by simp)
      simp; exact this
  · conv => rhs; rw [happ]
    rw [List.filter_append, filter_all_false _ (l.take k), List.nil_append, List.filter_eq_self.2, hd]
    · intro x hx
      rcases List.mem_cons.1 hx with rfl | hx
      · simp
      · have := hs'.2.1.1 x hx
        simp; omega
    · intro x hx
      have := hs'.2.2 x hx y (by simp)
      simp; exact this

/-- What one reply reports and where the caller continues. -/
theorem readdir_spec {d : Dir} (hv : Inv d) (selfIno upIno hdr bsz : Nat) (hb : Big hdr bsz)
    (pos : Int) (hp : PosOK d pos) :
    let full := fullList d selfIno upIno
    let r := readdir d selfIno upIno hdr bsz pos
    let pos' := nextPos pos r
    (r = [] ∧ full.filter (fun x => decide (pos ≤ x.off)) = []) ∨
    (r ≠ [] ∧ pos' = -1 ∧ r.map (·.1) = full.filter (fun x => decide (pos ≤ x.off))) ∨
    (r ≠ [] ∧ pos < pos' ∧ PosOK d pos' ∧
      r.map (·.1) = full.filter (fun x => decide (pos ≤ x.off ∧ x.off < pos')) ∧
      full.filter (fun x => decide (pos ≤ x.off)) =
        r.map (·.1) ++ full.filter (fun x => decide (pos' ≤ x.off))) := by
  have hoff := offers_eq hv selfIno upIno pos hp
  have hsort := fullList_sorted hv selfIno upIno
  have hposok := fullList_posOK hv selfIno upIno
  have hlen := fullList_name_len hv selfIno upIno
  simp only
  unfold readdir
  rw [hoff]
  generalize fullList d selfIno upIno = full at *
  have hLs : (full.filter (fun x => decide (pos ≤ x.off))).Pairwise (fun a b => a.off < b.off) :=
    hsort.filter _
  have hLm : ∀ x ∈ full.filter (fun x => decide (pos ≤ x.off)), x ∈ full ∧ pos ≤ x.off := by
    intro x hx; rw [List.mem_filter] at hx; simpa using hx
  have hLf : full.filter (fun x => decide (pos ≤ x.off)) = full.filter (fun x => decide (pos ≤ x.off)) := rfl
  generalize hL : full.filter (fun x => decide (pos ≤ x.off)) = L at *
  obtain ⟨k, hk, hkl, hk1⟩ := feed_none hdr bsz L
  rw [hk]
  by_cases hLnil : L = []
  · left
    subst hLnil
    simp [annotate]
  · right
    have hk1' : 1 ≤ k := by
      cases hh : L with
      | nil => exact absurd hh hLnil
      | cons x l =>
        apply hk1 x (by simp [hh])
        exact fits_big hdr bsz hb _ (hlen x (hLm x (by simp [hh])).1)
    have hne : (annotate L).take k ≠ [] := by
      intro h
      have := congrArg List.length h
      simp [annotate_length] at this
      rcases this with h' | h'
      · omega
      · exact hLnil h'
    have hmap : ((annotate L).take k).map (·.1) = L.take k := by
      rw [List.map_take, annotate_map]
    rw [nextPos_take pos L k hkl hk1', hmap]
    cases hd : L.drop k with
    | nil =>
      left
      refine ⟨hne, rfl, ?_⟩
      have := List.take_append_drop k L
      rw [hd, List.append_nil] at this; exact this
    | cons y rest =>
      right
      have hyL : y ∈ L := List.mem_of_mem_drop (by rw [hd]; simp)
      have hy := hLm y hyL
      have hsp := sorted_filter_split L hLs k y rest hd
      -- the first entry precedes y
      have hlt : pos < y.off := by
        cases hh : L with
        | nil => exact absurd hh hLnil
        | cons x l =>
          have hx : x ∈ L.take k := by rw [hh]; cases k with
            | zero => omega
            | succ k => simp
          have : x ∈ L.filter (fun z => decide (z.off < y.off)) := by rw [← hsp.1]; exact hx
          rw [List.mem_filter] at this
          have h1 := this.2
          simp at h1
          have := (hLm x this.1).2
          omega
      have hfilt : full.filter (fun x => decide (y.off ≤ x.off)) = L.drop k := by
        rw [hsp.2, ← hL, List.filter_filter]
        apply List.filter_congr
        intro x _
        rw [Bool.eq_iff_iff]; simp; omega
      refine ⟨hne, hlt, hposok y hy.1, ?_, ?_⟩
      · show L.take k = full.filter (fun x => decide (pos ≤ x.off ∧ x.off < y.off))
        rw [hsp.1, ← hL, List.filter_filter]
        apply List.filter_congr
        intro x _
        rw [Bool.eq_iff_iff]; simp; omega
      · show L = L.take k ++ full.filter (fun x => decide (y.off ≤ x.off))
        rw [hfilt, List.take_append_drop]

theorem readdir_eos (d : Dir) (selfIno upIno hdr bsz : Nat) : readdir d selfIno upIno hdr bsz (-1) = [] := by
  unfold readdir offers
  simp [feed]

/-! ### Sessions -/

/-- A caller listing a directory: position, everything reported so far, and
whether an empty reply (end of directory) was seen. -/
structure Sess where
  d : Dir
  pos : Int
  rep : List Item
  eod : Bool

/-- What happens during a listing: another operation changes the directory, or
the caller issues the next request. -/
inductive Ev where
  | op (op : Op) (o : Orc)
  | read (bsz : Nat)

def Sess.step (selfIno upIno hdr : Nat) (c : Sess) : Ev → Sess
  | .op op o => { c with d := (Silofs.Dir.step c.d o op).2 }
  | .read bsz =>
    let r := readdir c.d selfIno upIno hdr bsz c.pos
    { c with pos := nextPos c.pos r, rep := c.rep ++ r.map (·.1), eod := c.eod || r.isEmpty }

def Sess.run (selfIno upIno hdr : Nat) (c : Sess) : List Ev → Sess
  | [] => c
  | e :: es => Sess.run selfIno upIno hdr (c.step selfIno upIno hdr e) es

/-- Start of a listing. -/
def Sess.start (d : Dir) : Sess := ⟨d, 0, [], false⟩

/-! ### C09 -/

/-- State of a quiet listing: what is reported and what remains make up the
complete listing. -/
def QuietInv (d : Dir) (selfIno upIno : Nat) (c : Sess) : Prop :=
  c.d = d ∧
  ((c.pos = -1 ∧ c.rep = fullList d selfIno upIno) ∨
   (PosOK d c.pos ∧ c.rep ++ (fullList d selfIno upIno).filter (fun x => decide (c.pos ≤ x.off))
      = fullList d selfIno upIno)) ∧
  (c.eod = true → c.rep = fullList d selfIno upIno)

theorem quiet_start {d : Dir} (hv : Inv d) (selfIno upIno : Nat) : QuietInv d selfIno upIno (Sess.start d) := by
  refine ⟨rfl, Or.inr ⟨Or.inl rfl, ?_⟩, by simp [Sess.start]⟩
  show [] ++ (fullList d selfIno upIno).filter (fun x => decide ((0 : Int) ≤ x.off)) = _
  rw [List.nil_append]
  apply List.filter_eq_self.2
  intro x hx
  unfold fullList at hx
  rcases List.mem_cons.1 hx with rfl | hx
  · simp
  · rcases List.mem_cons.1 hx with rfl | hx
    · simp
    · have := (treeItems_off hv x hx).2
      simp; omega

theorem quiet_step {d : Dir} (hv : Inv d) (selfIno upIno hdr bsz : Nat) (hb : Big hdr bsz) (c : Sess)
    (h : QuietInv d selfIno upIno c) :
    QuietInv d selfIno upIno (c.step selfIno upIno hdr (.read bsz)) ∧
    ((c.step selfIno upIno hdr (.read bsz)).eod = true ∨
      c.rep.length < (c.step selfIno upIno hdr (.read bsz)).rep.length) := by
  obtain ⟨hd, hst, heod⟩ := h
  simp only [Sess.step, hd]
  rcases hst with ⟨hp, hr⟩ | ⟨hp, hr⟩
  · rw [hp, readdir_eos]
    refine ⟨⟨rfl, Or.inl ⟨nextPos_nil _, by simpa using hr⟩, ?_⟩, by simp⟩
    intro _; simpa using hr
  · rcases readdir_spec hv selfIno upIno hdr bsz hb c.pos hp with ⟨h1, h2⟩ | ⟨h1, h2, h3⟩ | ⟨h1, h2, h3, h4, h5⟩
    · rw [h2, List.append_nil] at hr
      simp only [h1, nextPos_nil, List.map_nil, List.append_nil]
      refine ⟨⟨rfl, Or.inr ⟨hp, by rw [h2, List.append_nil]; exact hr⟩, fun _ => hr⟩, by simp⟩
    · refine ⟨⟨rfl, Or.inl ⟨h2, by simp only [h3]; exact hr⟩, fun _ => by simp only [h3]; exact hr⟩, ?_⟩
      right
      have : 0 < (readdir d selfIno upIno hdr bsz c.pos).length := List.length_pos_iff.2 h1
      simp; exact this
    · rw [h5] at hr
      refine ⟨⟨rfl, Or.inr ⟨h3, by simp only [List.append_assoc]; exact hr⟩, ?_⟩, ?_⟩
      · intro he
        simp only [List.isEmpty_iff, Bool.or_eq_true] at he
        rcases he with he | he
        · -- end seen before although something remained: impossible unless nothing was left
          have hfull := heod he
          rw [hfull] at hr
          have := congrArg List.length hr
          simp only [List.length_append] at this
          have hnil : (readdir d selfIno upIno hdr bsz c.pos).map (·.1) = [] :=
            List.eq_nil_of_length_eq_zero (by omega)
          simp at hnil
          exact absurd hnil h1
        · exact absurd he h1
      · right
        simp; exact List.length_pos_iff.2 h1

theorem quiet_run {d : Dir} (hv : Inv d) (selfIno upIno hdr : Nat) (bs : List Nat)
    (hb : ∀ b ∈ bs, Big hdr b) (c : Sess) (h : QuietInv d selfIno upIno c) :
    QuietInv d selfIno upIno (c.run selfIno upIno hdr (bs.map .read)) ∧
    ((c.run selfIno upIno hdr (bs.map .read)).eod = true ∨
      c.rep.length + bs.length ≤ (c.run selfIno upIno hdr (bs.map .read)).rep.length) := by
  induction bs generalizing c with
  | nil => exact ⟨h, Or.inr (by simp [Sess.run])⟩
  | cons b bs ih =>
    have h1 := quiet_step hv selfIno upIno hdr b (hb b (by simp)) c h
    have h2 := ih (fun x hx => hb x (by simp [hx])) _ h1.1
    simp only [List.map_cons, Sess.run]
    refine ⟨h2.1, ?_⟩
    have mono : ∀ (bs : List Nat) (c : Sess), c.eod = true →
        (c.run selfIno upIno hdr (bs.map .read)).eod = true := by
      intro bs
      induction bs with
      | nil => intro c hc; exact hc
      | cons b bs ih =>
        intro c hc
        simp only [List.map_cons, Sess.run]
        apply ih
        simp [Sess.step, hc]
    rcases h1.2 with h3 | h3
    · exact Or.inl (mono _ _ h3)
    · rcases h2.2 with h4 | h4
      · exact Or.inl h4
      · right; simp only [List.length_cons]; omega

theorem nodup_names {d : Dir} (hv : Inv d) : ((treeItems d).map (·.name)).Nodup := by
  have hs := itemsFrom_sorted hv 1 d.last
  rw [List.Nodup, List.pairwise_map]
  refine List.Pairwise.imp_of_mem ?_ hs
  intro a b ha hb hlt hne
  obtain ⟨i, s, e, he, _, rfl⟩ := (mem_treeItems hv a).1 ha
  obtain ⟨i', s', e', he', _, rfl⟩ := (mem_treeItems hv b).1 hb
  have := hv.uniq _ _ _ _ _ _ he he' hne
  simp only [itemOf, this.1, this.2] at hlt
  omega

/-- C09 (partial).  Listing a directory that is not changed meanwhile, from the
start and continuing at every returned offset, with any sequence of buffer sizes
in which an entry fits, reports ".", ".." and then every name of the directory
exactly once, with its inode and type, and ends with an empty reply.  Missing:
directories with nodes of depth 4 (`C09_deep_violated`). -/
theorem C09_quiet_partial (hash : Name → Nat) (ops : List (Op × Orc))
    (hd : ∀ x ∈ ops, x.2.drop = false)
    (hshallow : ∀ i n, (run (Dir.fresh hash) ops).2.nodes i = some n → depth i < 4)
    (selfIno upIno hdr : Nat) :
    ∃ rest : List Item,
      (∀ nm ino dt, (∃ x ∈ rest, x.name = nm ∧ x.ino = ino ∧ x.dt = dt) ↔
        specRun (fun _ => none) ops (run (Dir.fresh hash) ops).1 nm = some (ino, dt)) ∧
      (rest.map (·.name)).Nodup ∧
      ∀ bs : List Nat, (∀ b ∈ bs, Big hdr b) →
        let c := (Sess.start (run (Dir.fresh hash) ops).2).run selfIno upIno hdr (bs.map .read)
        (∃ k, c.rep = (⟨[46], selfIno, 4, 0⟩ :: ⟨[46, 46], upIno, 4, 1⟩ :: rest : List Item).take k) ∧
        (c.eod = true → c.rep = ⟨[46], selfIno, 4, 0⟩ :: ⟨[46, 46], upIno, 4, 1⟩ :: rest) ∧
        (rest.length + 3 ≤ bs.length → c.eod = true) := by
  have h := run_spec (Inv.fresh hash) (Repr.fresh hash) ops hd
  revert h hshallow
  generalize (run (Dir.fresh hash) ops).2 = d
  generalize specRun (fun _ => none) ops (run (Dir.fresh hash) ops).1 = m
  rintro hshallow ⟨hv, hr, _⟩
  refine ⟨treeItems d, ?_, nodup_names hv, ?_⟩
  · intro nm ino dt
    rw [hr nm ino dt]
    constructor
    · rintro ⟨x, hx, h1, h2, h3⟩
      obtain ⟨i, s, e, he, _, rfl⟩ := (mem_treeItems hv x).1 hx
      exact ⟨i, s, e, he, h1, h2, h3⟩
    · rintro ⟨i, s, e, he, h1, h2, h3⟩
      obtain ⟨n, hn, hs⟩ := id he
      exact ⟨itemOf i s e, (mem_treeItems hv _).2 ⟨i, s, e, he, hshallow i n hn, rfl⟩, h1, h2, h3⟩
  · intro bs hb
    have hq := quiet_run hv selfIno upIno hdr bs hb _ (quiet_start hv selfIno upIno)
    obtain ⟨⟨_, hst, heod⟩, hprog⟩ := hq
    have hpre : ∃ k, ((Sess.start d).run selfIno upIno hdr (bs.map .read)).rep
        = (fullList d selfIno upIno).take k := by
      rcases hst with ⟨_, hr'⟩ | ⟨_, hr'⟩
      · exact ⟨(fullList d selfIno upIno).length, by rw [hr', List.take_length]⟩
      · refine ⟨((Sess.start d).run selfIno upIno hdr (bs.map .read)).rep.length, ?_⟩
        conv => rhs; rw [← hr']
        rw [List.take_left]
    refine ⟨hpre, heod, fun hlen => ?_⟩
    rcases hprog with h1 | h1
    · exact h1
    · obtain ⟨k, hk⟩ := hpre
      have := congrArg List.length hk
      simp only [List.length_take, fullList, List.length_cons] at this
      omega

/-! ### C10 -/

/-- The stable entry `e` at slot `s` of node `i` was reported exactly as often as
the position says: not yet if the position is at or before it, once otherwise. -/
def StableInv (i s : Nat) (e : Ent) (c : Sess) : Prop :=
  Inv c.d ∧ EntAt c.d.nodes i s e ∧ (c.pos = -1 ∨ PosOK c.d c.pos) ∧
  ((c.pos ≠ -1 ∧ c.pos ≤ (mkDoff i s : Int) ∧ c.eod = false ∧
      c.rep.filter (fun x => decide (x.name = e.name ∧ 2 ≤ x.off)) = []) ∨
   ((c.pos = -1 ∨ (mkDoff i s : Int) < c.pos) ∧
      c.rep.filter (fun x => decide (x.name = e.name ∧ 2 ≤ x.off)) = [itemOf i s e]))

/-- An operation other than removing `e.name` keeps the entry where it is, and
keeps all nodes. -/
theorem step_stable {d : Dir} (hv : Inv d) (o : Orc) (op : Op) (hd : o.drop = false) (i s : Nat)
    (e : Ent) (he : EntAt d.nodes i s e) (hop : op ≠ .remove e.name) :
    EntAt (step d o op).2.nodes i s e ∧ Grows d (step d o op).2 := by
  cases op with
  | add nm ino dt =>
    simp only [step, Dir.add]
    by_cases hl : nm.length = 0 ∨ 255 < nm.length
    · unfold Dir.lookup
      rcases find_badname d o nm hl with h | h <;> rw [h] <;> exact ⟨he, Grows.refl d⟩
    · unfold Dir.lookup
      rcases find_spec hv o nm (by omega) (by omega) with ⟨_, _, _, h, _⟩ | ⟨h, hm⟩ | ⟨h, _⟩ | ⟨h, _⟩
      · rw [h]; exact ⟨he, Grows.refl d⟩
      · rw [h]; simp only
        split
        · exact ⟨he, Grows.refl d⟩
        · rcases addDentry_spec hv o nm ino dt (by omega) (by omega) hm with
            ⟨h1, h2⟩ | ⟨h1, h2⟩ | ⟨h1, _⟩
          · obtain ⟨_, _, _, hE⟩ := h2.eff
            exact ⟨(hE _ _ _).2 (Or.inl he), h2.grows⟩
          · exact ⟨(h2.eff _ _ _).2 he, h2.grows⟩
          · rw [h1]; exact ⟨he, Grows.refl d⟩
      · rw [h]; exact ⟨he, Grows.refl d⟩
      · rw [h]; exact ⟨he, Grows.refl d⟩
  | remove nm =>
    simp only [step]
    by_cases hl : nm.length = 0 ∨ 255 < nm.length
    · unfold Dir.remove
      rcases find_badname d o nm hl with h | h <;> rw [h] <;> exact ⟨he, Grows.refl d⟩
    · rcases remove_spec hv o nm (by omega) (by omega) hd with ⟨h1, h2⟩ | ⟨h1, h2⟩
      · obtain ⟨j, t, x, hx, hne, hE⟩ := h2.eff
        have hkeep : EntAt (d.remove o nm).2.nodes i s e := by
          refine (hE _ _ _).2 ⟨he, ?_⟩
          rintro ⟨rfl, rfl⟩
          have := EntAt.unique he hx
          subst this
          exact hop (by rw [hne])
        exact ⟨hkeep, h2.grows ⟨i, s, e, hkeep⟩⟩
      · rw [h1]; exact ⟨he, Grows.refl d⟩

theorem Grows.posOK {d d' : Dir} (hg : Grows d d') {pos : Int} (h : PosOK d pos) : PosOK d' pos := by
  rcases h with h | h | ⟨a, s, n, h1, h2, h3, h4⟩
  · exact Or.inl h
  · exact Or.inr (Or.inl h)
  · obtain ⟨m, hm⟩ := hg.1 a n h2
    exact Or.inr (Or.inr ⟨a, s, m, h1, hm, h3, h4⟩)

/-- Entries named like the stable one in the complete listing: only itself. -/
theorem full_named {d : Dir} (hv : Inv d) (selfIno upIno : Nat) (i s : Nat) (e : Ent)
    (he : EntAt d.nodes i s e) (h4 : depth i < 4) (p : Item → Bool) :
    (((fullList d selfIno upIno).filter p).filter (fun x => decide (x.name = e.name ∧ 2 ≤ x.off))) =
      if p (itemOf i s e) = true then [itemOf i s e] else [] := by
  have hsorted := fullList_sorted hv selfIno upIno
  have hmem : itemOf i s e ∈ fullList d selfIno upIno := by
    unfold fullList
    exact List.mem_cons_of_mem _ (List.mem_cons_of_mem _ ((mem_treeItems hv _).2 ⟨i, s, e, he, h4, rfl⟩))
  have hoff : (2 : Int) ≤ (itemOf i s e).off := by
    have := (treeItems_off hv _ ((mem_treeItems hv _).2 ⟨i, s, e, he, h4, rfl⟩)).2
    exact this
  have honly : ∀ x ∈ fullList d selfIno upIno, (x.name = e.name ∧ 2 ≤ x.off) → x = itemOf i s e := by
    intro x hx hxx
    unfold fullList at hx
    rcases List.mem_cons.1 hx with rfl | hx
    · simp at hxx
    · rcases List.mem_cons.1 hx with rfl | hx
      · simp at hxx
      · obtain ⟨j, t, y, hy, _, rfl⟩ := (mem_treeItems hv x).1 hx
        have := hv.uniq _ _ _ _ _ _ hy he hxx.1
        rw [this.1, this.2] at hy ⊢
        rw [EntAt.unique hy he]
  generalize fullList d selfIno upIno = full at *
  induction full with
  | nil => simp at hmem
  | cons x l ih =>
    rw [List.pairwise_cons] at hsorted
    rcases List.mem_cons.1 hmem with hx | hx
    · subst hx
      have hrest : ((l.filter p).filter (fun x => decide (x.name = e.name ∧ 2 ≤ x.off))) = [] := by
        apply filter_all_false
        intro y hy
        rw [List.mem_filter] at hy
        simp only [decide_eq_false_iff_not]
        intro hc
        have := honly y (List.mem_cons_of_mem _ hy.1) hc
        have hlt := hsorted.1 y hy.1
        rw [this] at hlt; omega
      rw [List.filter_cons]
      split
      · rename_i hp
        rw [List.filter_cons, if_pos, hrest]
        simp only [decide_eq_true_eq]
        exact ⟨rfl, hoff⟩
      · rename_i hp
        rw [hrest]
    · have hxne : ¬ (x.name = e.name ∧ 2 ≤ x.off) := by
        intro hc
        have := honly x (by simp) hc
        have hlt := hsorted.1 _ hx
        rw [this] at hlt; omega
      have := ih hsorted.2 hx (fun y hy => honly y (List.mem_cons_of_mem _ hy))
      rw [List.filter_cons]
      split
      · rw [List.filter_cons, if_neg (by simp only [decide_eq_true_eq]; exact hxne)]
        exact this
      · exact this

theorem stable_step (selfIno upIno hdr : Nat) (i s : Nat) (e : Ent) (h4 : depth i < 4) (c : Sess)
    (hc : StableInv i s e c) (ev : Ev)
    (hev : match ev with
      | .op op o => op ≠ .remove e.name ∧ o.drop = false
      | .read b => Big hdr b) :
    StableInv i s e (c.step selfIno upIno hdr ev) := by
  obtain ⟨hv, he, hp, hst⟩ := hc
  cases ev with
  | op op o =>
    simp only at hev
    have hs := step_stable hv o op hev.2 i s e he hev.1
    have hi : Inv (step c.d o op).2 := by
      -- the map plays no role for the invariant
      have : ∃ m, Repr c.d m := by
        refine ⟨fun nm => Classical.choose (p := fun v : Option (Nat × Nat) => ∀ ino dt, v = some (ino, dt) ↔
          ∃ i s e, EntAt c.d.nodes i s e ∧ e.name = nm ∧ e.ino = ino ∧ e.dt = dt) ?_, ?_⟩
        · by_cases h : ∃ i s e, EntAt c.d.nodes i s e ∧ e.name = nm
          · obtain ⟨j, t, x, hx, hxn⟩ := h
            refine ⟨some (x.ino, x.dt), fun ino dt => ?_⟩
            constructor
            · intro h; cases h; exact ⟨j, t, x, hx, hxn, rfl, rfl⟩
            · rintro ⟨j', t', x', hx', hxn', h1, h2⟩
              have := hv.uniq _ _ _ _ _ _ hx hx' (hxn.trans hxn'.symm)
              rw [← this.1, ← this.2] at hx'
              rw [EntAt.unique hx hx', h1, h2]
          · refine ⟨none, fun ino dt => ?_⟩
            constructor
            · intro h'; simp at h'
            · rintro ⟨j', t', x', hx', hxn', _⟩
              exact absurd ⟨j', t', x', hx', hxn'⟩ h
        · intro nm
          exact Classical.choose_spec (p := fun v : Option (Nat × Nat) => ∀ ino dt, v = some (ino, dt) ↔
            ∃ i s e, EntAt c.d.nodes i s e ∧ e.name = nm ∧ e.ino = ino ∧ e.dt = dt) _
      obtain ⟨m, hm⟩ := this
      exact (step_spec hv hm o op hev.2).1
    refine ⟨hi, hs.1, ?_, hst⟩
    rcases hp with hp | hp
    · exact Or.inl hp
    · exact Or.inr (hs.2.posOK hp)
  | read b =>
    simp only at hev
    by_cases hneg : c.pos = -1
    · have hst' : c.rep.filter (fun x => decide (x.name = e.name ∧ 2 ≤ x.off)) = [itemOf i s e] := by
        rcases hst with h | h
        · exact absurd hneg h.1
        · exact h.2
      simp only [Sess.step, hneg, readdir_eos, nextPos_nil, List.map_nil, List.append_nil]
      exact ⟨hv, he, Or.inl rfl, Or.inr ⟨Or.inl rfl, hst'⟩⟩
    · have hp' : PosOK c.d c.pos := by
        rcases hp with hp | hp
        · exact absurd hp hneg
        · exact hp
      have hspec := readdir_spec hv selfIno upIno hdr b hev c.pos hp'
      simp only at hspec
      have hfn := full_named hv selfIno upIno i s e he h4
      rcases hspec with ⟨h1, h2⟩ | ⟨h1, h2, h3⟩ | ⟨h1, h2, h3, h4', h5⟩
      · -- nothing left: the entry must have been reported
        simp only [Sess.step, h1, nextPos_nil, List.map_nil, List.append_nil, List.isEmpty_nil,
          Bool.or_true]
        rcases hst with ⟨a1, a2, a3, a4⟩ | h
        · exfalso
          have hf := hfn (fun x => decide (c.pos ≤ x.off))
          rw [h2] at hf
          rw [if_pos (by apply decide_eq_true; exact a2)] at hf
          simp at hf
        · exact ⟨hv, he, Or.inr hp', Or.inr h⟩
      · have hrep : ((c.rep ++ (readdir c.d selfIno upIno hdr b c.pos).map (·.1)).filter
            (fun x => decide (x.name = e.name ∧ 2 ≤ x.off))) = [itemOf i s e] := by
          rw [List.filter_append, h3, hfn]
          rcases hst with ⟨a1, a2, a3, a4⟩ | ⟨a1 | a1, a2⟩
          · rw [a4, if_pos (by apply decide_eq_true; exact a2)]; rfl
          · exact absurd a1 hneg
          · rw [a2, if_neg]; · rfl
            intro hc; have hc := of_decide_eq_true hc; simp only [itemOf] at hc; omega
        simp only [Sess.step]
        exact ⟨hv, he, Or.inl h2, Or.inr ⟨Or.inl h2, hrep⟩⟩
      · have hpos2 : (0 : Int) ≤ c.pos := by
          rcases hp' with h | h | ⟨a, t, n, h, _⟩ <;> omega
        simp only [Sess.step]
        refine ⟨hv, he, Or.inr h3, ?_⟩
        have hfilt : ((c.rep ++ (readdir c.d selfIno upIno hdr b c.pos).map (·.1)).filter
            (fun x => decide (x.name = e.name ∧ 2 ≤ x.off))) =
            c.rep.filter (fun x => decide (x.name = e.name ∧ 2 ≤ x.off)) ++
              if decide (c.pos ≤ (itemOf i s e).off ∧
                (itemOf i s e).off < nextPos c.pos (readdir c.d selfIno upIno hdr b c.pos)) = true
              then [itemOf i s e] else [] := by
          rw [List.filter_append, h4', hfn]
        rw [hfilt]
        have hoffe : (itemOf i s e).off = (mkDoff i s : Int) := rfl
        rw [hoffe]
        rcases hst with ⟨a1, a2, a3, a4⟩ | ⟨a1 | a1, a2⟩
        · rw [a4]
          by_cases hlt : (mkDoff i s : Int) < nextPos c.pos (readdir c.d selfIno upIno hdr b c.pos)
          · right
            refine ⟨Or.inr hlt, ?_⟩
            rw [if_pos (by apply decide_eq_true; exact ⟨a2, hlt⟩)]; rfl
          · left
            refine ⟨(by omega : nextPos c.pos (readdir c.d selfIno upIno hdr b c.pos) ≠ -1), (by omega : nextPos c.pos (readdir c.d selfIno upIno hdr b c.pos) ≤ _), ?_, ?_⟩
            · rw [a3]; simp; exact h1
            · rw [if_neg]; · rfl
              simp only [decide_eq_true_eq]; omega
        · exact absurd a1 hneg
        · right
          refine ⟨Or.inr (by omega : _ < nextPos c.pos (readdir c.d selfIno upIno hdr b c.pos)), ?_⟩
          rw [a2, if_neg]; · rfl
          simp only [decide_eq_true_eq]; omega

theorem stable_run (selfIno upIno hdr : Nat) (i s : Nat) (e : Ent) (h4 : depth i < 4) (evs : List Ev)
    (hev : ∀ ev ∈ evs, match ev with
      | .op op o => op ≠ .remove e.name ∧ o.drop = false
      | .read b => Big hdr b) (c : Sess) (hc : StableInv i s e c) :
    StableInv i s e (c.run selfIno upIno hdr evs) := by
  induction evs generalizing c with
  | nil => exact hc
  | cons ev evs ih =>
    exact ih (fun x hx => hev x (by simp [hx])) _
      (stable_step selfIno upIno hdr i s e h4 c hc ev (hev ev (by simp)))

/-- C10 (partial).  Let a listing be interleaved with arbitrary additions and
removals, and let `nm` be a name present at the start that is not removed during
the listing.  When the listing reaches its end, `nm` has been reported exactly
once, with its inode and type.  Missing: names stored in nodes of depth 4
(`C09_deep_violated`), and failures while freeing an emptied tree. -/
theorem C10_stable_partial (hash : Name → Nat) (ops : List (Op × Orc))
    (hd : ∀ x ∈ ops, x.2.drop = false) (nm : Name) (ino dt i s : Nat) (e : Ent)
    (he : EntAt (run (Dir.fresh hash) ops).2.nodes i s e) (hne : e.name = nm)
    (hv : e.ino = ino ∧ e.dt = dt) (h4 : depth i < 4)
    (selfIno upIno hdr : Nat) (evs : List Ev)
    (hev : ∀ ev ∈ evs, match ev with
      | .op op o => op ≠ .remove nm ∧ o.drop = false
      | .read b => Big hdr b)
    (hend : ((Sess.start (run (Dir.fresh hash) ops).2).run selfIno upIno hdr evs).eod = true) :
    ∃ off, (((Sess.start (run (Dir.fresh hash) ops).2).run selfIno upIno hdr evs).rep.filter
      (fun x => decide (x.name = nm ∧ 2 ≤ x.off))) = [⟨nm, ino, dt, off⟩] := by
  subst hne
  have h := run_spec (Inv.fresh hash) (Repr.fresh hash) ops hd
  have hst : StableInv i s e (Sess.start (run (Dir.fresh hash) ops).2) := by
    refine ⟨h.1, he, Or.inr (Or.inl rfl), Or.inl ⟨by simp [Sess.start], ?_, rfl, by simp [Sess.start]⟩⟩
    show (0 : Int) ≤ _
    omega
  have hfin := stable_run selfIno upIno hdr i s e h4 evs hev _ hst
  obtain ⟨_, _, _, h' | h'⟩ := hfin
  · rw [hend] at h'; simp at h'
  · refine ⟨(mkDoff i s : Int), ?_⟩
    rw [h'.2, itemOf, hv.1, hv.2]

set_option maxRecDepth 100000 in
/-- An entry stored at depth 4 is never listed: after 113 successful creations
the last name can be looked up, but no readdir call from any offset of the
listing offers it. -/
theorem C09_deep_violated :
    ∃ (hash : Name → Nat) (ops : List (Op × Orc)) (nm : Name),
      (∀ x ∈ ops, x.2.drop = false) ∧ (∀ r ∈ (run (Dir.fresh hash) ops).1, r = .ok ()) ∧
      (run (Dir.fresh hash) ops).2.lookup (Orc.good hash) nm = .ok (113, 8) ∧
      ∀ selfIno upIno pos, PosOK (run (Dir.fresh hash) ops).2 pos →
        ∀ x ∈ offers (run (Dir.fresh hash) ops).2 selfIno upIno pos, x.name ≠ nm := by
  have hdrop : ∀ x ∈ bigOps 113, x.2.drop = false := by decide +kernel
  refine ⟨fun _ => 0, bigOps 113, bigName 112, hdrop, by decide +kernel, by decide +kernel, ?_⟩
  have hspec := run_spec (Inv.fresh (fun _ => 0)) (Repr.fresh (fun _ => 0)) (bigOps 113) hdrop
  have hfind : (run (Dir.fresh (fun _ => 0)) (bigOps 113)).2.find (Orc.good (fun _ => 0)) (bigName 112) =
      .ok (266306, 0, ⟨0, bigName 112, 113, 8⟩) := by decide +kernel
  have hlen : (bigName 112).length = 255 := by decide
  generalize (run (Dir.fresh (fun _ => 0)) (bigOps 113)).2 = d at *
  have hv := hspec.1
  intro selfIno upIno pos hp x hx hne
  rw [offers_eq hv selfIno upIno pos hp, List.mem_filter] at hx
  have hx1 := hx.1
  unfold fullList at hx1
  rcases List.mem_cons.1 hx1 with rfl | hx1
  · rw [← hne] at hlen; simp at hlen
  · rcases List.mem_cons.1 hx1 with rfl | hx1
    · rw [← hne] at hlen; simp at hlen
    · obtain ⟨i, s, e, he, h4, rfl⟩ := (mem_treeItems hv x).1 hx1
      rcases find_spec hv (Orc.good (fun _ => 0)) (bigName 112) (by omega) (by omega) with
        ⟨j, t, e', hf, he', hne'⟩ | ⟨hf, _⟩ | ⟨hf, _⟩ | ⟨hf, _⟩
      · rw [hfind] at hf
        simp only [Res.ok.injEq, Prod.mk.injEq] at hf
        have := hv.uniq _ _ _ _ _ _ he he' (by rw [hne']; exact hne)
        rw [this.1, ← hf.1] at h4
        have := (depth_lt_four 266306).1 h4
        omega
      · rw [hfind] at hf; simp at hf
      · rw [hfind] at hf; simp at hf
      · rw [hfind] at hf; simp at hf

/-- Non-vacuity: a listing with a small buffer, and with a change in between. -/
example :
    let d := (run (Dir.fresh (fun _ => 5)) [(.add [97] 7 8, Orc.good (fun _ => 0)),
      (.add [98] 9 4, Orc.good (fun _ => 0)), (.add [99] 10 4, Orc.good (fun _ => 0))]).2
    let c := (Sess.start d).run 1 1 24 [.read 80, .op (.remove [97]) (Orc.good (fun _ => 0)),
      .op (.add [100] 11 8) (Orc.good (fun _ => 0)), .read 80, .read 400, .read 400]
    c.eod = true ∧ c.rep.map (·.name) = [[46], [46, 46], [100], [98], [99]] := by
  decide +kernel

end Silofs.Dir
