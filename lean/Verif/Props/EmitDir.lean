import Verif.Props.Readdir
import Verif.Props.FuseAnswer
import Verif.Model.Emit
import Verif.Spec.Emit
/-
C52, second part: the entries of a directory, as a program gets them.
-/
set_option linter.unusedSimpArgs false
set_option linter.unusedVariables false

namespace Silofs.Emit
open Silofs.Fuse

/-! ### Filling the buffer is feeding -/

/-- The bytes of one entry with the offset to continue from. -/
def entBytes (plus : Bool) (attr : Nat → St) (p : Dir.Item × Int) : Buf :=
  if plus then
    entryBytes (attr p.1.ino) ++ direntBytes (attr p.1.ino).ino p.2 (iftodt (attr p.1.ino).mode) p.1.name
      (align8 (152 + p.1.name.length) - (152 + p.1.name.length))
  else direntBytes p.1.ino p.2 p.1.dt p.1.name (align8 (24 + p.1.name.length) - (24 + p.1.name.length))

theorem attrBytes_length (s : St) : (attrBytes s).length = 88 := by
  simp [attrBytes, leBytes_length]

theorem entryBytes_length (s : St) : (entryBytes s).length = 128 := by
  simp [entryBytes, leBytes_length, attrBytes_length]

theorem direntBytes_length (ino : Nat) (off : Int) (dt : Nat) (name : List Nat) (pad : Nat) :
    (direntBytes ino off dt name pad).length = 24 + name.length + pad := by
  simp [direntBytes, leBytes_length]; omega

theorem entBytes_length (plus : Bool) (attr : Nat → St) (p : Dir.Item × Int) :
    (entBytes plus attr p).length = Dir.entSize (hdrLen plus) p.1.name := by
  unfold entBytes hdrLen Dir.entSize
  cases plus
  · simp only [Bool.false_eq_true, if_false, direntBytes_length]; unfold align8; omega
  · simp only [if_true, List.length_append, entryBytes_length, direntBytes_length]; unfold align8; omega

/-- What is told of an entry: an inode and a name. -/
def Told (x : Dir.Item) : Prop := 0 < x.ino ∧ 0 < x.name.length ∧ x.name.length ≤ 511

/-- The iterator holds an entry, or none. -/
def Pending (attr : Nat → St) (di : Diter) : Option Dir.Item → Prop
  | none => hasDirent di = false
  | some x => di.deIno = x.ino ∧ di.deDt = x.dt ∧ di.deName = x.name ∧ (di.plus = true → di.deAttr = attr x.ino)

theorem pending_update (attr : Nat → St) (di : Diter) (x : Dir.Item) (h : Told x) :
    Pending attr (updateDirent di (rdiOf di.plus attr x)) (some x) := by
  refine ⟨rfl, rfl, ?_, fun hp => ?_⟩
  · show x.name.take 511 = x.name
    exact List.take_of_length_le h.2.2
  · have hp' : di.plus = true := hp
    simp only [updateDirent, rdiOf, hp', if_true]

theorem pending_eos (attr : Nat → St) (di : Diter) : Pending attr (updateDirent di rdiEos) none := by
  simp [Pending, hasDirent, updateDirent, rdiEos]

theorem emitDirent_eq (attr : Nat → St) (di : Diter) (x : Dir.Item) (off : Int) (h : Pending attr di (some x)) :
    emitDirent di off =
      if Dir.fits (hdrLen di.plus) (di.bsz - di.buf.length) x.name then
        some { di with buf := di.buf ++ entBytes di.plus attr (x, off) }
      else none := by
  obtain ⟨h1, h2, h3, h4⟩ := h
  unfold emitDirent Dir.fits Dir.entSize
  rw [h3]
  generalize hr : di.bsz - di.buf.length = room
  cases hp : di.plus with
  | false =>
    simp only [hp, Bool.false_eq_true, if_false, emitOnly, h1, h2, hdrLen, entBytes, align8]
    by_cases hl : room ≤ x.name.length
    · rw [if_pos hl, if_neg (by simp; omega)]
    · rw [if_neg hl]
      by_cases hm : room < (24 + x.name.length + 7) / 8 * 8
      · rw [if_pos hm, if_neg (by simp; omega)]
      · rw [if_neg hm, if_pos (by simp; omega)]
  | true =>
    simp only [hp, if_true, emitPlus, h4 hp, hdrLen, entBytes, align8]
    by_cases hl : room ≤ x.name.length
    · rw [if_pos hl, if_neg (by simp; omega)]
    · rw [if_neg hl]
      by_cases hm : room < (152 + x.name.length + 7) / 8 * 8
      · rw [if_pos hm, if_neg (by simp; omega)]
      · rw [if_neg hm, if_pos (by simp; omega)]

theorem pending_has (attr : Nat → St) (di : Diter) (x : Dir.Item) (h : Pending attr di (some x)) (ht : Told x) :
    hasDirent di = true := by
  obtain ⟨h1, _, h3, _⟩ := h
  unfold hasDirent
  rw [h1, h3]
  simp [ht.1, ht.2.1]

theorem fill_feed (attr : Nat → St) (l : List Dir.Item) (hl : ∀ x ∈ l, Told x) (p : Option Dir.Item)
    (hpt : ∀ x, p = some x → Told x) (di : Diter) (h : Pending attr di p) :
    (fill di (l.map (rdiOf di.plus attr) ++ [rdiEos])).buf =
      di.buf ++ ((Dir.feed (hdrLen di.plus) (di.bsz - di.buf.length) p l).map (entBytes di.plus attr)).flatten := by
  induction l generalizing p di with
  | nil =>
    rw [List.map_nil, List.nil_append, fill, filldir]
    cases p with
    | none =>
      have : hasDirent di = false := h
      rw [this]
      simp [Dir.feed, fill, updateDirent]
    | some x =>
      rw [pending_has attr di x h (hpt x rfl), if_pos rfl, emitDirent_eq attr di x _ h, Dir.feed]
      by_cases hf : Dir.fits (hdrLen di.plus) (di.bsz - di.buf.length) x.name = true
      · rw [if_pos hf, if_pos hf]
        simp [fill, updateDirent, rdiEos]
      · rw [if_neg hf, if_neg hf]
        simp
  | cons y l ih =>
    have hy : Told y := hl y (by simp)
    have hl' : ∀ x ∈ l, Told x := fun x hx => hl x (by simp [hx])
    rw [List.map_cons, List.cons_append, fill, filldir]
    cases p with
    | none =>
      have : hasDirent di = false := h
      rw [this, Dir.feed]
      simp only [Bool.false_eq_true, if_false]
      exact ih hl' (some y) (fun x hx => by cases hx; exact hy) (updateDirent di (rdiOf di.plus attr y))
        (pending_update attr di y hy)
    | some x =>
      rw [pending_has attr di x h (hpt x rfl), if_pos rfl, emitDirent_eq attr di x _ h, Dir.feed]
      by_cases hf : Dir.fits (hdrLen di.plus) (di.bsz - di.buf.length) x.name = true
      · rw [if_pos hf, if_pos hf, Option.map_some]
        simp only
        have hpu := pending_update attr { di with buf := di.buf ++ entBytes di.plus attr (x, y.off) } y hy
        have := ih hl' (some y) (fun x hx => by cases hx; exact hy) _ hpu
        simp only [updateDirent] at this
        refine Eq.trans this ?_
        simp only [List.map_cons, List.flatten_cons, List.append_assoc, List.length_append, entBytes_length]
        rw [Nat.sub_sub]
      · rw [if_neg hf, if_neg hf]
        simp

/-- The bytes of an answer are those of the entries of the listing's model. -/
theorem readdir_bytes (d : Dir.Dir) (selfIno upIno : Nat) (plus : Bool) (attr : Nat → St) (size : Nat) (pos : Int)
    (ht : ∀ x ∈ Dir.offers d selfIno upIno pos, Told x) :
    readdir d selfIno upIno plus attr size pos =
      ((Dir.readdir d selfIno upIno (hdrLen plus) (min size 8192) pos).map (entBytes plus attr)).flatten := by
  have := fill_feed attr _ ht none (fun x hx => by cases hx) (diterPrep size plus) (by simp [Pending, hasDirent, diterPrep])
  simpa [readdir, Dir.readdir, diterPrep] using this

/-! ### The kernel's reading -/

/-- An entry that the kernel takes. -/
structure Takes (e : KEnt) : Prop where
  ino : e.ino < 2 ^ 64
  dt : e.dt < 2 ^ 32
  off : IsI64 e.off
  pos : 0 < e.name.length
  len : e.name.length ≤ 1024
  slash : 47 ∉ e.name

theorem dirent_fields (ino : Nat) (off : Int) (dt : Nat) (name : List Nat) (pad : Nat) (rest : Buf)
    (hn : name.length ≤ 1024) (hi : ino < 2 ^ 64) (hd : dt < 2 ^ 32) (ho : IsI64 off) :
    let b := direntBytes ino off dt name pad ++ rest
    rd 8 0 b = ino ∧ toI64 (rd 8 8 b) = off ∧ rd 4 16 b = name.length ∧ rd 4 20 b = dt ∧
      (b.drop 24).take name.length = name := by
  simp only [direntBytes, List.append_assoc, rd_skip, rd_hit, drop_skip, Nat.reduceLeDiff, Nat.reduceSub, Nat.le_refl, Nat.sub_self,
    Nat.zero_le, List.drop_zero, i64_back _ ho]
  rw [Nat.mod_eq_of_lt (by omega), Nat.mod_eq_of_lt (by omega), Nat.mod_eq_of_lt (by omega), List.take_left]
  simp

theorem drop_ent (a b : Buf) (n : Nat) (h : a.length = n) : (a ++ b).drop n = b := by
  rw [← h, List.drop_left]

theorem kdirents_of (l : List KEnt) (h : ∀ e ∈ l, Takes e) (n : Nat) :
    ∀ b, b = (l.map fun e => direntBytes e.ino e.off e.dt e.name (align8 (24 + e.name.length) - (24 + e.name.length))).flatten →
      b.length ≤ 24 * n → kdirents n b = some l := by
  induction l generalizing n with
  | nil => intro b hb _; subst hb; cases n <;> simp [kdirents]
  | cons e l ih =>
    intro b hb hn
    rw [List.map_cons, List.flatten_cons] at hb
    have he := h e (by simp)
    generalize hr : (l.map fun e => direntBytes e.ino e.off e.dt e.name (align8 (24 + e.name.length) - (24 + e.name.length))).flatten = rest at hb
    have hel := direntBytes_length e.ino e.off e.dt e.name (align8 (24 + e.name.length) - (24 + e.name.length))
    have hle : 24 + e.name.length ≤ align8 (24 + e.name.length) := by unfold align8; omega
    have hlen : b.length = align8 (24 + e.name.length) + rest.length := by
      rw [hb, List.length_append, hel]; omega
    have hp := he.pos
    cases n with
    | zero => omega
    | succ n =>
      obtain ⟨f1, f2, f3, f4, f5⟩ := dirent_fields e.ino e.off e.dt e.name
        (align8 (24 + e.name.length) - (24 + e.name.length)) rest he.len he.ino he.dt he.off
      rw [← hb] at f1 f2 f3 f4 f5
      have hdrop : b.drop ((24 + e.name.length + 7) / 8 * 8) = rest := by
        rw [hb]; exact drop_ent _ _ _ (by rw [hel]; unfold align8; omega)
      have ha : align8 (24 + e.name.length) = (24 + e.name.length + 7) / 8 * 8 := rfl
      have hlen1 := he.len
      rw [kdirents, f3, f5, f1, f2, f4, if_neg (by omega), if_neg (by omega), if_neg (by omega), if_neg he.slash, hdrop,
        ih (fun e he => h e (by simp [he])) n rest hr.symm (by omega)]
      rfl

theorem kdirplus_of (l : List (KEnt × St)) (h : ∀ e ∈ l, Takes e.1 ∧ e.2.Fits) (n : Nat) :
    ∀ b, b = (l.map fun e => entryBytes e.2 ++ direntBytes e.1.ino e.1.off e.1.dt e.1.name
        (align8 (152 + e.1.name.length) - (152 + e.1.name.length))).flatten →
      b.length ≤ 24 * n → kdirplus n b = some l := by
  induction l generalizing n with
  | nil => intro b hb _; subst hb; cases n <;> simp [kdirplus]
  | cons e l ih =>
    intro b hb hn
    rw [List.map_cons, List.flatten_cons] at hb
    obtain ⟨he, hf⟩ := h e (by simp)
    generalize hr : (l.map fun e => entryBytes e.2 ++ direntBytes e.1.ino e.1.off e.1.dt e.1.name
        (align8 (152 + e.1.name.length) - (152 + e.1.name.length))).flatten = rest at hb
    have hel := direntBytes_length e.1.ino e.1.off e.1.dt e.1.name (align8 (152 + e.1.name.length) - (152 + e.1.name.length))
    have hle : 152 + e.1.name.length ≤ align8 (152 + e.1.name.length) := by unfold align8; omega
    have hlen : b.length = align8 (152 + e.1.name.length) + rest.length := by
      rw [hb, List.length_append, List.length_append, hel, entryBytes_length]; omega
    have hp := he.pos
    cases n with
    | zero => omega
    | succ n =>
      obtain ⟨f1, f2, f3, f4, f5⟩ := dirent_fields e.1.ino e.1.off e.1.dt e.1.name
        (align8 (152 + e.1.name.length) - (152 + e.1.name.length)) rest he.len he.ino he.dt he.off
      have hb2 := hb
      rw [List.append_assoc] at hb2
      have g := (entry_of e.2 (direntBytes e.1.ino e.1.off e.1.dt e.1.name
        (align8 (152 + e.1.name.length) - (152 + e.1.name.length)) ++ rest) hf).2
      rw [← hb2] at g
      generalize hD : direntBytes e.1.ino e.1.off e.1.dt e.1.name
        (align8 (152 + e.1.name.length) - (152 + e.1.name.length)) ++ rest = D at *
      have hsh : ∀ k, b.drop (128 + k) = D.drop k := fun k => by
        rw [hb2, ← List.drop_drop, drop_ent _ _ 128 (entryBytes_length _)]
      have hrd : ∀ w k, rd w (128 + k) b = rd w k D := fun w k => by unfold rd; rw [hsh]
      have r1 := hrd 8 0
      have r2 := hrd 8 8
      have r3 := hrd 4 16
      have r4 := hrd 4 20
      have r5 := hsh 24
      simp only [Nat.reduceAdd] at r1 r2 r3 r4 r5
      have hdrop : b.drop ((152 + e.1.name.length + 7) / 8 * 8) = rest := by
        rw [hb]; exact drop_ent _ _ _ (by rw [List.length_append, hel, entryBytes_length]; unfold align8; omega)
      have ha : align8 (152 + e.1.name.length) = (152 + e.1.name.length + 7) / 8 * 8 := rfl
      have hlen1 := he.len
      rw [kdirplus, r1, r2, r3, r4, r5, f3, f5, f1, f2, f4, if_neg (by omega), if_neg (by omega), if_neg (by omega),
        if_neg he.slash, hdrop, ih (fun e he => h e (by simp [he])) n rest hr.symm (by omega), g]
      rfl

end Silofs.Emit
