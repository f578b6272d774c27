import Verif.Model.Verify
import Verif.Props.NameiLimits
import Verif.Props.Inode
/-
C43 for inodes: the check made when an inode is loaded, lib/inode.c:1419-1450, against the name-space
operations (links) and the attribute operations (mode).
-/
set_option linter.unusedSimpArgs false
set_option linter.unusedVariables false
namespace Silofs.Ns

/-! ### Specification -/

/-- File-type bits of a mode (sys/stat.h). -/
def Kind.fmt : Kind → Nat
  | .dir => 0o040000
  | .reg => 0o100000
  | .lnk => 0o120000
  | .fifo => 0o010000
  | .sock => 0o140000
  | .chr => 0o020000
  | .blk => 0o060000

/-- The inode as stored passes the check of inodes, whatever its permission bits and a legal size. -/
def Loads (i : Nat) (x : Ino) : Prop :=
  ∀ (size : Int) (perm : Nat), 0 ≤ size → size ≤ 2 ^ 56 → verifyHead i size x.nlink (x.attr.kind.fmt ||| perm) = true

theorem fmt_ne (k : Kind) (p : Nat) : (k.fmt ||| p) &&& Silofs.Attr.sIFMT ≠ 0 := by
  intro h
  have h2 := (Silofs.Attr.and_ifmt_zero _).1 h
  have key : ∀ b, 12 ≤ b → b < 16 → k.fmt.testBit b = true → False := by
    intro b h3 h4 h5
    have := h2 b h3 h4
    rw [Nat.testBit_or, h5] at this
    cases this
  cases k
  case dir => exact key 14 (by decide) (by decide) (by decide)
  case reg => exact key 15 (by decide) (by decide) (by decide)
  case lnk => exact key 15 (by decide) (by decide) (by decide)
  case fifo => exact key 12 (by decide) (by decide) (by decide)
  case sock => exact key 15 (by decide) (by decide) (by decide)
  case chr => exact key 13 (by decide) (by decide) (by decide)
  case blk => exact key 13 (by decide) (by decide) (by decide)

theorem loads_iff {i : Nat} {x : Ino} (hi : i ≠ 0) : Loads i x ↔ x.nlink ≤ 32767 := by
  unfold Loads verifyHead LINK_MAX
  constructor
  · intro h
    have := h 0 0 (by decide) (by decide)
    simp only [Bool.and_eq_true, decide_eq_true_eq] at this
    omega
  · intro h size perm h1 h2
    simp only [Bool.and_eq_true, decide_eq_true_eq]
    refine ⟨⟨⟨hi, ?_⟩, by omega⟩, fmt_ne _ _⟩
    have h3 : ((2 : Int) ^ 56) ≤ (2 ^ 63 - 1) / 2 := by decide
    omega

/-! ### Directories, while no directory is renamed -/

def DLim (s : Fs) : Prop := ∀ i x, s.ino i = some x → x.isDir = true → x.nlink ≤ LINK_MAX

/-- The operation renames no directory. -/
def NoDirMove (s : Fs) (op : Op) : Prop :=
  match op with
  | .rename _ d n d2 n2 _ => ∀ c, s.look d n = some c ∨ s.look d2 n2 = some c → s.isDirI c = false
  | _ => True

theorem DLim.delDent {s : Fs} (h : DLim s) (d : Nat) (n : Name) (c : Nat) (b : Bool) : DLim (s.delDent d n c b) := by
  intro i x hx hd
  rw [delDent_ino, Option.map_eq_some_iff] at hx
  obtain ⟨y, hy, rfl⟩ := hx
  have := h i y hy hd
  simp only
  omega

theorem DLim.addFile {s : Fs} (h : DLim s) {d : Nat} {n : Name} {c : Nat}
    (hc : ∀ y, s.ino c = some y → y.isDir = false) : DLim (s.addDent d n c false) := by
  intro i x hx hd
  rw [addDent_ino, Option.map_eq_some_iff] at hx
  obtain ⟨y, hy, rfl⟩ := hx
  have hd' : y.isDir = true := hd
  have h1 := h i y hy hd
  have : i ≠ c := by
    rintro rfl
    rw [hc y hy] at hd'; cases hd'
  simp only [if_neg this]
  simpa using h1

theorem DLim.set {s : Fs} (h : DLim s) {i : Nat} {y : Ino} (hy : y.isDir = true → y.nlink ≤ LINK_MAX) :
    DLim (s.setIno i (some y)) := by
  intro j z hz hd
  rw [setIno_get] at hz
  split at hz
  · simp only [Option.some.injEq] at hz
    subst hz
    exact hy hd
  · exact h j z hz hd

theorem DLim.of_ino {s t : Fs} (h : DLim s) (e : ∀ j, t.ino j = s.ino j) : DLim t := by
  intro i x hx
  rw [e] at hx
  exact h i x hx

theorem DLim.erase {s : Fs} (h : DLim s) (i : Nat) : DLim (s.erase i) := by
  intro j z hz
  rw [erase_ino] at hz
  split at hz
  · cases hz
  · exact h j z hz

theorem DLim.prune {s : Fs} (h : DLim s) (hlo : LooseOk s) (o : Orc) (i : Nat) : DLim (s.prune o i).2 := by
  cases hx : s.ino i with
  | none => rw [prune_none o s i hx]; exact h
  | some x =>
    rcases prune_cases o s i x hx (hlo i x hx) with ⟨h1, h2, _⟩ | ⟨y, q, h1, h2, h3, _, h4, _⟩
    · rw [h1]; exact h.erase i
    · rw [h1]
      refine (h.set (i := i) (y := y) ?_).of_ino (fun _ => rfl)
      intro hd
      rw [h3]
      refine h i x hx ?_
      unfold Ino.isDir at hd ⊢
      rwa [← h2]

theorem DLim.remPrune {s : Fs} (h : DLim s) (hlo : LooseOk s) (o : Orc) (r : Rem) (d : Nat) (n : Name)
    (c : Nat) (b : Bool) : DLim (s.remPrune o r d n c b).2 := by
  unfold Fs.remPrune Fs.rem
  cases r with
  | fail => exact h
  | failAfter => exact h.delDent d n c b
  | ok => exact (h.delDent d n c b).prune (hlo.delDent d n c b) o c

theorem DLim.incOpen {s : Fs} (h : DLim s) (i : Nat) : DLim (s.incOpen i) := by
  unfold Fs.incOpen
  cases hx : s.ino i with
  | none => exact h
  | some x => exact (h.set (i := i) (y := { x with nopen := x.nopen + 1 }) (fun hd => h i x hx hd)).of_ino (fun _ => rfl)

theorem DLim.decOpen {s : Fs} (h : DLim s) (i : Nat) : DLim (s.decOpen i) := by
  unfold Fs.decOpen
  cases hx : s.ino i with
  | none => exact h
  | some x => exact (h.set (i := i) (y := { x with nopen := x.nopen - 1 }) (fun hd => h i x hx hd)).of_ino (fun _ => rfl)

theorem DLim.mk {s : Fs} (m : Mk) {i : Nat} (h : DLim s) : DLim (m.app s i) := by
  cases m with
  | plain => exact h
  | opened => exact h.incOpen i
  | closed => exact (h.incOpen i).decOpen i
  | pin =>
    intro j z hz hd
    change (s.modIno i _).ino j = some z at hz
    rw [modIno_get] at hz
    split at hz
    · next hj =>
      subst hj
      rw [Option.map_eq_some_iff] at hz
      obtain ⟨w, hw, rfl⟩ := hz
      exact h j w hw hd
    · exact h j z hz hd

theorem mkdir_full {s : Fs} {o : Orc} {cr : Cred} {d : Nat} {dx : Ino} {n : Name} {m : Nat}
    (hd : s.ino d = some dx) (hl : LINK_MAX ≤ dx.nlink) : ((Op.mkdir cr d n m).body s o).2 = s := by
  show (s.mkdir o cr d n m).2 = s
  unfold Fs.mkdir
  rw [hd]
  simp only
  cases hf : firstErr [checkName n, s.checkDirCanAdd o.look1 cr d dx n, checkNomlink dx] with
  | some e => rfl
  | none =>
    exfalso
    simp only [firstErr_cons_none, firstErr_nil_none, and_true] at hf
    have := hf.2.2
    unfold checkNomlink at this
    rw [if_neg (by omega)] at this
    cases this

/-- Only `mkdir` makes directories. -/
theorem made_kind {s : Fs} {o : Orc} {cr : Cred} {d : Nat} {n : Name} {op : Op} (h : op.makes cr d n)
    (hne : ∀ m, op ≠ .mkdir cr d n m) (hok : (op.body s o).1 = none) :
    ∀ i, s.ino i = none → ∀ y, (op.body s o).2.ino i = some y → y.isDir = false := by
  have key : ∀ (k : Kind) (m : Nat) (dx : Ino) (i : Nat) (s1 : Fs), k ≠ .dir →
      s.make o cr d dx n k m = .ok (i, s1) →
      ∀ j, s.ino j = none → ∀ y, s1.ino j = some y → y.isDir = false := by
    intro k m dx i s1 hk hm j hj y hy
    unfold Fs.make at hm
    split at hm
    · cases hm
    · next i' s' hs =>
      unfold Fs.spawnIno at hs
      split at hs
      · cases hs
      · split at hs
        · cases hs
        · split at hs
          · cases hs
          · simp only [Option.some.injEq, Prod.mk.injEq] at hs
            obtain ⟨rfl, rfl⟩ := hs
            split at hm
            · cases hm
            · unfold Fs.add at hm
              split at hm
              · cases hm
              · next heq =>
                split at heq
                · cases heq
                · simp only [Prod.mk.injEq, true_and] at heq
                  simp only [Except.ok.injEq, Prod.mk.injEq] at hm
                  obtain ⟨rfl, rfl⟩ := hm
                  rw [← heq, addDent_ino, setIno_get] at hy
                  split at hy
                  · simp only [Option.map_some, Option.some.injEq] at hy
                    subst hy
                    unfold newIno
                    rw [if_neg hk]
                    show (k == Kind.dir) = false
                    simpa using hk
                  · rw [hj] at hy; cases hy
  have crt : ∀ (k : Kind) (m : Nat), k ≠ .dir → (s.create o cr d n k m).1 = none →
      ∀ j, s.ino j = none → ∀ y, (s.create o cr d n k m).2.ino j = some y → y.isDir = false := by
    intro k m hk h0 j hj y hy
    unfold Fs.create at h0 hy
    cases hdx : s.ino d with
    | none => rw [hdx] at h0; cases h0
    | some dx =>
      simp only [hdx] at h0 hy
      split at hy
      · rw [hj] at hy; cases hy
      · next hf =>
        rw [hf] at h0
        cases hm : s.make o cr d dx n k m with
        | error e => simp only [hm] at h0; cases h0
        | ok p =>
          simp only [hm] at hy
          rw [incOpen_ino, Option.map_eq_some_iff] at hy
          obtain ⟨w, hw, rfl⟩ := hy
          exact key k m dx p.1 p.2 hk hm j hj w hw
  intro j hj y hy
  rcases h with ⟨k, m, rfl⟩ | ⟨m, rfl⟩ | ⟨k, m, b, rfl⟩ | ⟨m, rfl⟩ | ⟨v, rfl⟩
  · by_cases hk : k = .dir
    · subst hk
      exfalso
      simp only [Op.body] at hok
      unfold Fs.create at hok
      split at hok
      · cases hok
      · split at hok
        · cases hok
        · next hf =>
          simp only [firstErr_cons_none, firstErr_nil_none, and_true, checkCreateMode] at hf
          exact absurd hf.2.2.1 (by simp)
    · exact crt k m hk hok j hj y hy
  · simp only [Op.body] at hok hy
    unfold Fs.mknodReg at hok hy
    have h1 := crt .reg m (by decide)
    cases hc : s.create o cr d n .reg m with
    | mk e s1 =>
      rw [hc] at h1 hok hy
      cases e with
      | some e => cases hok
      | none =>
        simp only at hy
        split at hy
        · exact h1 rfl j hj y hy
        · next i hi =>
          rw [decOpen_ino, Option.map_eq_some_iff] at hy
          obtain ⟨w, hw, rfl⟩ := hy
          exact h1 rfl j hj w hw
  · simp only [Op.body] at hok hy
    unfold Fs.mknodSpecial at hok hy
    split at hy
    · rw [hj] at hy; cases hy
    · next dx hdx =>
      simp only [hdx] at hok
      split at hy
      · rw [hj] at hy; cases hy
      · next hf =>
        have hk : k ≠ .dir := by
          rintro rfl
          simp only [firstErr_cons_none, firstErr_nil_none, and_true, checkMknodKind] at hf
          exact absurd hf.2.2 (by simp)
        rw [hf] at hok
        cases hm : s.make o cr d dx n k m with
        | error e => simp only [hm] at hok; cases hok
        | ok p =>
          simp only [hm] at hy
          rw [modIno_get] at hy
          split at hy
          · next hji =>
            rw [Option.map_eq_some_iff] at hy
            obtain ⟨w, hw, rfl⟩ := hy
            exact key k m dx p.1 p.2 hk hm j hj w (by rw [hji]; exact hw)
          · exact key k m dx p.1 p.2 hk hm j hj y hy
  · exact absurd rfl (hne m)
  · simp only [Op.body] at hok hy
    unfold Fs.symlink at hok hy
    split at hy
    · rw [hj] at hy; cases hy
    · next dx hdx =>
      simp only [hdx] at hok
      split at hy
      · rw [hj] at hy; cases hy
      · next hf =>
        rw [hf] at hok
        cases hm : s.make o cr d dx n .lnk 0o777 with
        | error e => simp only [hm] at hok; cases hok
        | ok p =>
          simp only [hm] at hy
          exact key .lnk _ dx p.1 p.2 (by decide) hm j hj y hy

theorem mk_isDir (m : Mk) {s : Fs} {i : Nat} {y : Ino} (h : s.ino i = some y) :
    ∃ z, (m.app s i).ino i = some z ∧ z.isDir = y.isDir := by
  cases m with
  | plain => exact ⟨y, h, rfl⟩
  | opened =>
    refine ⟨{ y with nopen := if i = i then y.nopen + 1 else y.nopen }, ?_, rfl⟩
    show (s.incOpen i).ino i = _
    rw [incOpen_ino, h]; rfl
  | closed =>
    have h1 : (s.incOpen i).ino i = some { y with nopen := if i = i then y.nopen + 1 else y.nopen } := by
      rw [incOpen_ino, h]; rfl
    refine ⟨{ y with nopen := if i = i then (if i = i then y.nopen + 1 else y.nopen) - 1
                              else if i = i then y.nopen + 1 else y.nopen }, ?_, rfl⟩
    show ((s.incOpen i).decOpen i).ino i = _
    rw [decOpen_ino, h1]; rfl
  | pin =>
    refine ⟨{ y with pinned := true }, ?_, rfl⟩
    show (s.modIno i _).ino i = _
    rw [modIno_get, if_pos rfl, h]; rfl

theorem body_dlim {s : Fs} {o : Orc} {op : Op} (hl : DLim s) (hlo : LooseOk s) (hm : NoDirMove s op) :
    DLim (op.body s o).2 := by
  have he := body_eff s o op
  generalize hbr : op.body s o = r at he
  cases he with
  | refuse op e => exact hl
  | nothing i => exact hl
  | undo op cr d n i x hop hx hu => rw [setIno_undo hx]; exact hl
  | leak op cr d n i x hop hx hu hnew =>
    exact hl.set (fun h => by rw [hnew.nlink, h]; decide)
  | made op m cr d dx n i x hop hd hn hlk hx h0 hnew hadd =>
    by_cases hfull : DLim ((s.setIno i (some x)).addDent d n i x.isDir)
    · exact hfull.mk m
    · have hxd : x.isDir = true := by
        cases hxd : x.isDir with
        | true => rfl
        | false =>
          rw [hxd] at hfull
          refine absurd ((hl.set (i := i) (y := x) (fun h => by rw [hxd] at h; cases h)).addFile ?_) hfull
          intro y hy
          rw [setIno_get, if_pos rfl] at hy
          simp only [Option.some.injEq] at hy; subst hy; exact hxd
      have hdi : d ≠ i := by rintro rfl; have := hd.ino; rw [hx] at this; cases this
      by_cases hmk : ∃ m', op = .mkdir cr d n m'
      · obtain ⟨m', rfl⟩ := hmk
        by_cases hlt : dx.nlink < LINK_MAX
        · refine absurd ?_ hfull
          intro j y hy hyd
          rw [addDent_ino, Option.map_eq_some_iff] at hy
          obtain ⟨w, hw, rfl⟩ := hy
          rw [setIno_get] at hw
          simp only
          by_cases hji : j = i
          · subst hji
            rw [if_pos rfl] at hw
            simp only [Option.some.injEq] at hw; subst hw
            rw [if_pos rfl, if_neg (fun h => hdi h.2.symm), hnew.nlink, hxd]
            decide
          · rw [if_neg hji] at hw
            rw [if_neg hji]
            by_cases hjd : j = d
            · subst hjd
              rw [hd.ino] at hw
              simp only [Option.some.injEq] at hw; subst hw
              rw [if_pos ⟨hxd, rfl⟩]
              omega
            · rw [if_neg (fun h => hjd h.2)]
              have := hl j w hw hyd
              omega
        · have h1 := mkdir_full (o := o) (cr := cr) (n := n) (m := m') hd.ino (Nat.le_of_not_lt hlt)
          rw [hbr] at h1
          rw [h1]
          exact hl
      · exfalso
        have h2 := made_kind (s := s) (o := o) hop (fun m' h => hmk ⟨m', h⟩) (by rw [hbr]) i hx
        rw [hbr] at h2
        have h3 : ∃ y, ((s.setIno i (some x)).addDent d n i x.isDir).ino i = some y ∧ y.isDir = x.isDir := by
          refine ⟨{ x with nlink := x.nlink + (if i = i then 1 else 0) + (if x.isDir = true ∧ i = d then 1 else 0),
                           parent := if i = i then d else x.parent }, ?_, rfl⟩
          have : (s.setIno i (some x)).ino i = some x := by rw [setIno_get, if_pos rfl]
          rw [addDent_ino, this]
          rfl
        obtain ⟨y, h3, hyx⟩ := h3
        obtain ⟨z, hz, hzd⟩ := mk_isDir m h3
        have h4 := h2 z hz
        rw [hzd, hyx, hxd] at h4
        cases h4
  | linked cr d dx n i x hd hlk hx hf hlt hadd =>
    rw [hf]
    apply hl.addFile
    intro y hy
    rw [hx] at hy; simp only [Option.some.injEq] at hy; subst hy; exact hf
  | unlinked cr d dx n c x hr hf => exact hl.remPrune hlo o _ d n c _
  | rmdired cr d dx n c x hr hf _ _ => exact hl.remPrune hlo o _ d n c _
  | moved cr d dx n d2 dx2 n2 f c x hr hd2 hlk2 hn2 hex hca =>
    have hf : x.isDir = false := by
      have := hm c (Or.inl hr.look)
      unfold Fs.isDirI at this
      rw [hr.ino] at this
      exact this
    rcases renameMove_cases (s := s) (o := o) (d := d) (n := n) (c := c) (b := x.isDir) hca with
      ⟨h, _⟩ | ⟨h, _⟩ | ⟨h, _⟩ | ⟨h, _⟩ <;> rw [h]
    · exact hl
    · exact hl.delDent _ _ _ _
    · exact hl.delDent _ _ _ _
    · rw [hf]
      apply (hl.delDent d n c false).addFile
      intro y hy
      rw [delDent_ino, hr.ino] at hy
      simp only [Option.map_some, Option.some.injEq] at hy
      subst hy; exact hf
  | renSame cr d dx n d2 dx2 n2 f c x hr hd2 hlk2 hnr => exact hl.remPrune hlo o _ d n c _
  | exchanged cr d dx n d2 dx2 n2 f c x c2 x2 hr hr2 hne hex hnr =>
    have hf : x.isDir = false := by
      have := hm c (Or.inl hr.look)
      unfold Fs.isDirI at this
      rw [hr.ino] at this
      exact this
    have hf2 : x2.isDir = false := by
      have := hm c2 (Or.inr hr2.look)
      unfold Fs.isDirI at this
      rw [hr2.ino] at this
      exact this
    rcases renameExchange_cases (s := s) (o := o) (d := d) (n := n) (d2 := d2) (n2 := n2) (c := c)
      (b := x.isDir) (c2 := c2) (b2 := x2.isDir) with
      ⟨h, _⟩ | ⟨h, _⟩ | ⟨h | h, _⟩ | ⟨h, _⟩ | ⟨h, _⟩ <;> rw [h]
    · exact hl
    · exact hl.delDent _ _ _ _
    · exact (hl.delDent _ _ _ _).delDent _ _ _ _
    · exact (hl.delDent _ _ _ _).delDent _ _ _ _
    all_goals
      have hA : DLim (((s.delDent d n c x.isDir).delDent d2 n2 c2 x2.isDir).addDent d2 n2 c x.isDir) := by
        rw [hf]
        apply ((hl.delDent d n c false).delDent d2 n2 c2 x2.isDir).addFile
        intro y hy
        rw [delDent_ino, delDent_ino, hr.ino] at hy
        simp only [Option.map_some, Option.some.injEq] at hy
        subst hy; exact hf
    · exact hA
    · rw [hf2] at hA ⊢
      apply hA.addFile
      intro y hy
      rw [addDent_ino, delDent_ino, delDent_ino, hr2.ino] at hy
      simp only [Option.map_some, Option.some.injEq] at hy
      subst hy; exact hf2
  | replaced cr d dx n d2 dx2 n2 f c x c2 x2 hr hr2 hne hex hnr hemp =>
    have hf : x.isDir = false := by
      have := hm c (Or.inl hr.look)
      unfold Fs.isDirI at this
      rw [hr.ino] at this
      exact this
    rcases renameReplace_cases (s := s) (o := o) (d := d) (n := n) (d2 := d2) (n2 := n2) (c := c)
      (b := x.isDir) (c2 := c2) (b2 := x2.isDir) with
      ⟨h, _⟩ | ⟨_, h, _⟩ | ⟨_, h, _⟩ | ⟨_, h, _⟩ | ⟨_, h, _⟩ <;> rw [h]
    · exact hl.remPrune hlo o _ d2 n2 c2 _
    · exact hl.remPrune hlo o _ d2 n2 c2 _
    · exact (hl.remPrune hlo o _ d2 n2 c2 _).delDent _ _ _ _
    · exact (hl.remPrune hlo o _ d2 n2 c2 _).delDent _ _ _ _
    · rw [hf]
      apply ((hl.remPrune hlo o o.rem2 d2 n2 c2 x2.isDir).delDent d n c false).addFile
      intro y hy
      rw [delDent_ino, Option.map_eq_some_iff] at hy
      obtain ⟨z, hz, rfl⟩ := hy
      obtain ⟨w, hw, ha⟩ := remPrune_attr hlo hz
      rw [hr.ino] at hw
      simp only [Option.some.injEq] at hw; subst hw
      have : z.isDir = false := by rw [isDir_attr ha]; exact hf
      exact this
  | openedReg cr i f x hx hf hacc => exact hl.incOpen i
  | openedDir cr i f x hx hf hacc => exact hl.incOpen i
  | released i b f x hx hpos => exact (hl.decOpen i).prune (hlo.decOpen i) o i
  | forgotten i x hx hp =>
    apply (hl.set (i := i) (y := { x with pinned := false }) (fun hd => hl i x hx hd)).prune
    exact hlo.set (fun h => hlo i x hx h)

theorem purge_dlim {o : Orc} (l : List Nat) : ∀ {s t : Fs}, DLim s → Fs.purgeList o l s = some t → DLim t := by
  induction l with
  | nil =>
    intro s t hs h
    simp only [Fs.purgeList, Option.some.injEq] at h
    subst h
    exact hs
  | cons i q ih =>
    intro s t hs h
    unfold Fs.purgeList at h
    split at h
    · exact ih hs h
    · next x hx =>
      split at h
      · exact ih (s := s.erase i) (hs.erase i) h
      · cases h

theorem finish_dlim {o : Orc} {r : Option Err × Fs} (h : DLim r.2) : DLim (Fs.finish o r).2 := by
  have h0 : DLim { r.2 with looseq := [] } := h.of_ino (fun _ => rfl)
  unfold Fs.finish
  cases hp : Fs.purgeList o r.2.looseq { r.2 with looseq := [] } with
  | none => exact h0
  | some t => exact purge_dlim _ h0 hp

/-- Histories in which no directory is renamed. -/
inductive RunNoMove (a : Attr) (m : Nat) : Fs → Prop where
  | init : RunNoMove a m (Fs.init a m)
  | step {s : Fs} (o : Orc) (op : Op) : RunNoMove a m s → Vfs s op → TearFree s o op → NoDirMove s op →
      (s.step o op).1 ≠ .die → RunNoMove a m (s.step o op).2

theorem RunNoMove.run {a : Attr} {m : Nat} {s : Fs} (h : RunNoMove a m s) : Run a m s := by
  induction h with
  | init => exact .init
  | step o op _ hv ht _ hd ih => exact .step o op ih hv ht hd

/-- **C43, inodes (part).** Whatever operations are done, every inode that is not a directory is accepted when
it is loaded again; directories are accepted as well as long as no directory is renamed. -/
theorem C43_inode_accepts_partial (a : Attr) (m : Nat) (s : Fs) (h : Run a m s) (i : Nat) (x : Ino)
    (hx : s.ino i = some x) (hi : i ≠ 0) :
    (x.isDir = false → Loads i x) ∧ (RunNoMove a m s → Loads i x) := by
  have h1 : x.isDir = false → x.nlink ≤ 32767 := fun hf => (C35_limits a m s h).links i x hx (by
    intro hk; unfold Ino.isDir at hf; rw [hk] at hf; cases hf)
  refine ⟨fun hf => (loads_iff hi).2 (h1 hf), fun hr => (loads_iff hi).2 ?_⟩
  have h2 : DLim s := by
    clear h hx h1
    induction hr with
    | init =>
      intro i x hx hf
      simp only [Fs.init] at hx
      split at hx
      · simp only [Option.some.injEq] at hx; subst hx; show 2 ≤ 32767; decide
      · cases hx
    | step o op hr hv ht hm hd ih =>
      exact finish_dlim (body_dlim ih hr.run.good.loose hm)
  cases hf : x.isDir with
  | false => exact h1 hf
  | true => exact h2 i x hx hf

/-! ### A directory that gets a link too many -/

/-- Names `[1 + k/250, 1 + k%250]`, all different. -/
def nmk (k : Nat) : Name := [1 + k / 250, 1 + k % 250]

theorem nmk_inj {j k : Nat} (h : nmk j = nmk k) : j = k := by
  unfold nmk at h
  simp only [List.cons.injEq, and_true] at h
  omega

def rt : Cred := { uid := 0, gid := 0, host := 0 }
def rattr : Attr := { kind := .dir, perm := 0o755, uid := 0, gid := 0 }
/-- The oracle: everything succeeds, the new inode has number `i`. -/
def okAt (i : Nat) : Orc := { spawn := some i }

theorem rt_w (dx : Ino) (h : dx.isDir = true) : doAccess rt dx.attr W_OK = true := by
  have hk : dx.attr.kind = .dir := by unfold Ino.isDir at h; simpa using h
  unfold doAccess doAccessRwx
  rw [if_pos (show rt.uid = 0 from rfl), if_neg (by rw [hk]; decide)]
  decide

theorem lq_nil {t : Fs} (h : t.looseq = []) : ({ t with looseq := [] } : Fs) = t := by
  cases t; simp only at h; subst h; rfl

theorem addDent_some {s : Fs} {d c j : Nat} {n : Name} {b : Bool} {x : Ino} (h : s.ino j = some x) :
    ∃ y, (s.addDent d n c b).ino j = some y ∧ y.attr = x.attr ∧
      y.nlink = x.nlink + (if j = c then 1 else 0) + (if b = true ∧ j = d then 1 else 0) :=
  ⟨{ x with nlink := x.nlink + (if j = c then 1 else 0) + (if b = true ∧ j = d then 1 else 0),
            parent := if j = c then d else x.parent }, by rw [addDent_ino, h]; rfl, rfl, rfl⟩

/-- `mkdir` by root with enough room. -/
theorem mkdir_ok {s : Fs} {d i : Nat} {n : Name} {dx : Ino} (hw : s.writable = true) (hd : s.ino d = some dx)
    (hdir : dx.isDir = true) (h2 : 2 ≤ dx.nlink) (hl : dx.nlink < LINK_MAX) (hn : checkName n = none)
    (hlk : s.look d n = none) (hc : s.ndents d < DIR_ENTRIES_MAX) (hi : s.ino i = none) (h0 : i ≠ 0)
    (hq : s.looseq = []) :
    s.step (okAt i) (.mkdir rt d n 0o755) =
      (.ok, (s.setIno i (some (newIno rt .dir 0o755 d dx))).addDent d n i true) := by
  have hf : firstErr [checkName n, s.checkDirCanAdd (okAt i).look1 rt d dx n, checkNomlink dx] = none := by
    simp only [firstErr_cons_none, firstErr_nil_none, and_true]
    refine ⟨hn, ?_, by unfold checkNomlink; rw [if_pos hl]⟩
    unfold Fs.checkDirCanAdd
    simp only [firstErr_cons_none, firstErr_nil_none, and_true]
    refine ⟨?_, ?_, ?_⟩
    · unfold Fs.checkDirWaccess
      rw [if_pos hw, if_pos hdir, if_pos (rt_w dx hdir)]; rfl
    · unfold Fs.checkNodent
      rw [hlk]; rfl
    · unfold Fs.checkAddDentry
      rw [if_pos hdir, hn, if_pos hc, if_neg (by omega)]; rfl
  have hb : s.mkdir (okAt i) rt d n 0o755 =
      (none, (s.setIno i (some (newIno rt .dir 0o755 d dx))).addDent d n i true) := by
    unfold Fs.mkdir
    simp only [hd, hf]
    unfold Fs.make Fs.spawnIno
    simp only [okAt, hi, if_neg h0]
    rfl
  have hq2 : ((s.setIno i (some (newIno rt .dir 0o755 d dx))).addDent d n i true).looseq = [] := hq
  unfold Fs.step Fs.finish
  simp only [Op.body, hb, hq2, Fs.purgeList, lq_nil hq2]

/-- The state while the root directory is filled: `/a` is inode 2, `/a/x` is inode 3, and there are `k` more
directories in the root. -/
structure Fill (k : Nat) (s : Fs) : Prop where
  run : Run rattr 100 s
  root : ∃ x, s.ino 1 = some x ∧ x.isDir = true ∧ x.nlink = 3 + k ∧ hasSticky x.attr = false
  a : ∃ x, s.ino 2 = some x ∧ x.isDir = true ∧ hasSticky x.attr = false
  x : ∃ x, s.ino 3 = some x ∧ x.isDir = true
  look : s.look 2 [8] = some 3
  fresh : ∀ j, k ≤ j → s.look 1 (nmk j) = none
  cnt : s.ndents 1 = 1 + k
  none : ∀ i, 4 + k ≤ i → s.ino i = none
  wr : s.writable = true
  lq : s.looseq = []

theorem look_add {s : Fs} {d c : Nat} {n : Name} {e : Nat} {m : Name} {b : Bool} :
    (s.addDent d n c b).look e m = if d = e ∧ n = m then some c else s.look e m := by
  unfold Fs.look
  rw [addDent_ents, List.find?_cons]
  by_cases h : d = e ∧ n = m
  · obtain ⟨rfl, rfl⟩ := h
    simp
  · rw [if_neg h]
    have : (d == e && n == m) = false := by
      cases h1 : (d == e && n == m) with
      | false => rfl
      | true =>
        simp only [Bool.and_eq_true, beq_iff_eq] at h1
        exact absurd h1 h
    simp only [this]

theorem ndents_add {s : Fs} {d c : Nat} {n : Name} {e : Nat} {b : Bool} :
    (s.addDent d n c b).ndents e = s.ndents e + if d = e then 1 else 0 := by
  unfold Fs.ndents
  rw [addDent_ents, List.countP_cons]
  simp

theorem addDent_rest {s : Fs} {d c : Nat} {n : Name} {b : Bool} :
    (s.addDent d n c b).writable = s.writable ∧ (s.addDent d n c b).looseq = s.looseq := by
  unfold Fs.addDent; cases b <;> exact ⟨rfl, rfl⟩

theorem checkName_nmk (k : Nat) : checkName (nmk k) = Option.none := by
  unfold checkName nmk NAME_MAX
  simp

theorem fill (k : Nat) (hk : 3 + k ≤ LINK_MAX) : ∃ s, Fill k s := by
  unfold LINK_MAX at hk
  induction k with
  | zero =>
    -- mkdir /a, mkdir /a/x
    have e1 := mkdir_ok (s := Fs.init rattr 100) (d := 1) (i := 2) (n := [9]) rfl rfl (by decide) (by decide) (by decide)
      (by decide) (by decide) (by decide) (by decide) (by decide) rfl
    have r1 : Run rattr 100 ((Fs.init rattr 100).step (okAt 2) (.mkdir rt 1 [9] 0o755)).2 :=
      .step _ _ .init trivial trivial (by rw [e1]; simp)
    generalize hs1 : ((Fs.init rattr 100).step (okAt 2) (.mkdir rt 1 [9] 0o755)).2 = s1 at r1
    rw [e1] at hs1
    have e2 := mkdir_ok (s := s1) (d := 2) (i := 3) (n := [8]) (by rw [← hs1]; rfl) (by rw [← hs1]; rfl) (by decide)
      (by decide) (by decide) (by decide) (by rw [← hs1]; decide) (by rw [← hs1]; decide) (by rw [← hs1]; decide)
      (by decide) (by rw [← hs1]; rfl)
    have r2 : Run rattr 100 (s1.step (okAt 3) (.mkdir rt 2 [8] 0o755)).2 := .step _ _ r1 trivial trivial (by rw [e2]; simp)
    rw [e2] at r2
    refine ⟨_, r2, ?_, ?_, ?_, ?_, ?_, ?_, ?_, ?_, ?_⟩ <;> subst hs1
    · exact ⟨_, rfl, by decide, by decide, by decide⟩
    · exact ⟨_, rfl, by decide, by decide⟩
    · exact ⟨_, rfl, by decide⟩
    · decide
    · intro j _
      show Fs.look (Fs.addDent _ _ _ _ _) _ _ = _
      rw [look_add, if_neg (by simp)]
      show Fs.look (Fs.addDent _ _ _ _ _) _ _ = _
      rw [look_add, if_neg (by simp [nmk])]
      rfl
    · decide
    · intro i hi
      have h0 : (Fs.init rattr 100).ino i = Option.none := by
        show (if i = ROOT then _ else Option.none) = _
        rw [if_neg (by unfold ROOT; omega)]
      have hset : ∀ (t : Fs) (j : Nat) (x : Option Ino), i ≠ j → (t.setIno j x).ino i = t.ino i := by
        intro t j x hj; rw [setIno_get, if_neg hj]
      dsimp only
      rw [addDent_ino, hset _ _ _ (by omega), addDent_ino, hset _ _ _ (by omega), h0]
      rfl
    · decide
    · rfl
  | succ k ih =>
    obtain ⟨s, h⟩ := ih (by omega)
    obtain ⟨rx, hr1, hr2, hr3, hr4⟩ := h.root
    obtain ⟨ax, ha1, ha2, ha3⟩ := h.a
    obtain ⟨xx, hx1, hx2⟩ := h.x
    have e := mkdir_ok (s := s) (d := 1) (i := 4 + k) (n := nmk k) h.wr hr1 hr2 (by omega)
      (by unfold LINK_MAX; omega) (checkName_nmk k) (h.fresh k (Nat.le_refl k))
      (by rw [h.cnt]; unfold DIR_ENTRIES_MAX; omega) (h.none _ (Nat.le_refl _)) (by omega) h.lq
    have r : Run rattr 100 (s.step (okAt (4 + k)) (.mkdir rt 1 (nmk k) 0o755)).2 :=
      .step _ _ h.run trivial trivial (by rw [e]; simp)
    rw [e] at r
    generalize hnx : newIno rt .dir 0o755 1 rx = nx at r
    have g : ∀ j, j ≠ 4 + k → (s.setIno (4 + k) (some nx)).ino j = s.ino j := by
      intro j hj; rw [setIno_get, if_neg hj]
    refine ⟨_, r, ?_, ?_, ?_, ?_, ?_, ?_, ?_, ?_, ?_⟩
    · obtain ⟨y, hy, h1, h2⟩ := addDent_some (d := 1) (c := 4 + k) (n := nmk k) (b := true)
        ((g 1 (by omega)).trans hr1)
      refine ⟨y, hy, by rw [isDir_attr h1]; exact hr2, ?_, by rw [h1]; exact hr4⟩
      rw [h2, if_neg (by omega), if_pos ⟨rfl, rfl⟩, hr3]
      omega
    · obtain ⟨y, hy, h1, h2⟩ := addDent_some (d := 1) (c := 4 + k) (n := nmk k) (b := true)
        ((g 2 (by omega)).trans ha1)
      exact ⟨y, hy, by rw [isDir_attr h1]; exact ha2, by rw [h1]; exact ha3⟩
    · obtain ⟨y, hy, h1, h2⟩ := addDent_some (d := 1) (c := 4 + k) (n := nmk k) (b := true)
        ((g 3 (by omega)).trans hx1)
      exact ⟨y, hy, by rw [isDir_attr h1]; exact hx2⟩
    · show Fs.look (Fs.addDent _ _ _ _ _) _ _ = _
      rw [look_add, if_neg (by simp)]
      exact h.look
    · intro j hj
      show Fs.look (Fs.addDent _ _ _ _ _) _ _ = _
      rw [look_add, if_neg (by rintro ⟨_, h'⟩; have := nmk_inj h'; omega)]
      exact h.fresh j (by omega)
    · show Fs.ndents (Fs.addDent _ _ _ _ _) _ = _
      rw [ndents_add, if_pos rfl]
      show s.ndents 1 + 1 = _
      rw [h.cnt]; omega
    · intro i hi
      dsimp only
      rw [addDent_ino, g i (by omega), h.none i (by omega)]
      rfl
    · show (Fs.addDent _ _ _ _ _).writable = _
      rw [addDent_rest.1]
      exact h.wr
    · show (Fs.addDent _ _ _ _ _).looseq = _
      rw [addDent_rest.2]
      exact h.lq

/-- **C43, inodes (violated).** `rename` does not check the link count of the directory it moves a directory to:
after `mkdir`s that fill the root up to the limit, `rename("/a/x", "/y")` succeeds, and the root directory has
32768 links, which is more than the check of inodes accepts: the file-system cannot be used again. -/
theorem C43_dir_links_violated : ∃ (s : Fs) (op : Op) (o : Orc), Run rattr 100 s ∧ Vfs s op ∧
    (s.step o op).1 = .ok ∧ Run rattr 100 (s.step o op).2 ∧
    ∃ x, (s.step o op).2.ino ROOT = some x ∧ x.nlink = 32768 ∧ ¬ Loads ROOT x := by
  obtain ⟨s, h⟩ := fill 32764 (by decide)
  obtain ⟨rx, hr1, hr2, hr3, hr4⟩ := h.root
  obtain ⟨ax, ha1, ha2, ha3⟩ := h.a
  obtain ⟨xx, hx1, hx2⟩ := h.x
  have hlk := h.fresh 32764 (Nat.le_refl _)
  have hb : s.rename (okAt 0) rt 2 [8] 1 (nmk 32764) {} =
      (none, (s.delDent 2 [8] 3 true).addDent 1 (nmk 32764) 3 true) := by
    have w1 : s.checkDirWaccess rt ax = none := by
      unfold Fs.checkDirWaccess
      rw [if_pos h.wr, if_pos ha2, if_pos (rt_w ax ha2)]; rfl
    have w2 : s.checkDirWaccess rt rx = none := by
      unfold Fs.checkDirWaccess
      rw [if_pos h.wr, if_pos hr2, if_pos (rt_w rx hr2)]; rfl
    have st1 : s.stageRename false false rt 2 [8] false = .ok (some (3, xx)) := by
      unfold Fs.stageRename
      simp only [ha1, w1, show checkName [8] = none from by decide]
      show (match s.stageByName false false 2 [8] with | .error e => _ | .ok (c, x) => _) = _
      unfold Fs.stageByName
      simp only [h.look, hx1]
      have : checkSticky rt ax.attr (some xx.attr) = true := by
        unfold checkSticky; rw [ha3]; rfl
      simp [this]
    have st2 : s.stageRename false false rt 1 (nmk 32764) true = .ok none := by
      unfold Fs.stageRename
      simp only [hr1, w2, checkName_nmk]
      show (match s.stageByName false false 1 (nmk 32764) with | .error e => _ | .ok (c, x) => _) = _
      unfold Fs.stageByName
      simp only [hlk]
      simp
    have ca : s.checkAddDentry 1 rx (nmk 32764) = none := by
      unfold Fs.checkAddDentry
      rw [if_pos hr2, checkName_nmk, if_pos (by rw [h.cnt]; decide), if_neg (by omega)]; rfl
    unfold Fs.rename
    simp only [ha1, hr1]
    show (match s.stageRename false false rt 2 [8] false with | .error e => _ | .ok none => _ | .ok (some (c, x)) => _) = _
    rw [st1]
    show (match s.stageRename false false rt 1 (nmk 32764) true with | .error e => _ | .ok old => _) = _
    rw [st2]
    show s.renameMove (okAt 0) 2 [8] 1 (nmk 32764) rx 3 xx.isDir = _
    rw [hx2]
    unfold Fs.renameMove
    rw [ca]
    rfl
  have hs : s.step (okAt 0) (.rename rt 2 [8] 1 (nmk 32764) {}) =
      (.ok, (s.delDent 2 [8] 3 true).addDent 1 (nmk 32764) 3 true) := by
    have hq2 : ((s.delDent 2 [8] 3 true).addDent 1 (nmk 32764) 3 true).looseq = [] := h.lq
    unfold Fs.step Fs.finish
    simp only [Op.body, hb, hq2, Fs.purgeList, lq_nil hq2]
  have hv : Vfs s (.rename rt 2 [8] 1 (nmk 32764) {}) := by
    intro c _ h2; rw [hlk] at h2; cases h2
  refine ⟨s, .rename rt 2 [8] 1 (nmk 32764) {}, okAt 0, h.run, hv, by rw [hs], ?_, ?_⟩
  · refine .step _ _ h.run hv (Or.inl ?_) (by rw [hs]; simp)
    show (s.rename _ _ _ _ _ _ _).1 = none
    rw [hb]
  · rw [hs]
    have hdel : ∃ z, (s.delDent 2 [8] 3 true).ino 1 = some z ∧ z.nlink = rx.nlink := by
      refine ⟨{ rx with nlink := rx.nlink - 0 - 0, parent := if 1 = 3 ∧ rx.parent = 2 then 0 else rx.parent }, ?_, rfl⟩
      rw [delDent_ino, hr1]
      rfl
    obtain ⟨z, hz, hz2⟩ := hdel
    obtain ⟨y, hy, _, h2⟩ := addDent_some (d := 1) (c := 3) (n := nmk 32764) (b := true) hz
    rw [if_neg (by decide), if_pos ⟨rfl, rfl⟩, hz2, hr3] at h2
    refine ⟨y, hy, h2, ?_⟩
    rw [loads_iff (by decide), h2]
    decide

/-- A history without renames of directories. -/
example : ∃ s x, RunNoMove rattr 100 s ∧ s.ino 2 = some x ∧ x.isDir = true ∧ Loads 2 x := by
  have e1 := mkdir_ok (s := Fs.init rattr 100) (d := 1) (i := 2) (n := [9]) rfl rfl (by decide) (by decide) (by decide)
    (by decide) (by decide) (by decide) (by decide) (by decide) rfl
  have r1 : RunNoMove rattr 100 ((Fs.init rattr 100).step (okAt 2) (.mkdir rt 1 [9] 0o755)).2 :=
    .step _ _ .init trivial trivial trivial (by rw [e1]; simp)
  have h2 : ∃ x, ((Fs.init rattr 100).step (okAt 2) (.mkdir rt 1 [9] 0o755)).2.ino 2 = some x ∧ x.isDir = true := by
    rw [e1]; exact ⟨_, rfl, by decide⟩
  obtain ⟨x, hx, hd⟩ := h2
  exact ⟨_, x, r1, hx, hd, (C43_inode_accepts_partial _ _ _ r1.run 2 x hx (by decide)).2 r1⟩

/-- The same directory is refused by `mkdir`: the limit is one that the file-system means to keep. -/
theorem C43_mkdir_limit (s : Fs) (o : Orc) (cr : Cred) (d : Nat) (n : Name) (m : Nat) (dx : Ino)
    (hd : s.ino d = some dx) (hl : 32767 ≤ dx.nlink) : ((Op.mkdir cr d n m).body s o).2 = s :=
  mkdir_full hd hl

/-- **C43, mode.** Whatever attribute changes and I/O are done to an inode, its mode stays one the check of
inodes accepts (a file type is recorded). -/
theorem C43_mode (a : Silofs.Attr.I) (es : List Silofs.Attr.Ev) (i : Nat) (size : Int) (nlink : Nat)
    (h : verifyHead i size nlink a.mode = true) :
    verifyHead i size nlink (Silofs.Attr.run a es).mode = true := by
  unfold verifyHead at h ⊢
  simp only [Bool.and_eq_true, decide_eq_true_eq] at h ⊢
  refine ⟨h.1, ?_⟩
  have : (Silofs.Attr.run a es).mode &&& Silofs.Attr.sIFMT = a.mode &&& Silofs.Attr.sIFMT :=
    (Silofs.Attr.and_ifmt_eq _ _).2 (fun k h1 h2 => Silofs.Attr.C33_type_history a es k h1 h2)
  rw [this]; exact h.2

example : verifyHead 7 4096 1 0o100644 = true ∧ verifyHead 7 4096 1 0o644 = false ∧
    verifyHead 7 4096 32768 0o40755 = false ∧ verifyHead 0 0 1 0o100644 = false := by decide

end Silofs.Ns
