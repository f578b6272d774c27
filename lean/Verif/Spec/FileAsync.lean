/-
What a user expects of a file system in which a large write is answered only after
its data arrived, while other requests run: a byte of a file is known, or a write
that covers it is on its way and it is not.  Nothing in this file refers to the
model of the implementation.
-/

namespace Silofs.AsyncSpec

/-- A file: its size and what is known of its bytes (`none`: not known). -/
structure PFile where
  size : Nat
  byte : Nat → Option Nat

/-- Files by number. -/
abbrev PFS := Nat → PFile

/-- Replace one file. -/
def PFS.set (x : PFS) (f : Nat) (a : PFile) : PFS := fun f' => if f' = f then a else x f'

/-- Positions `[lo, hi)` are given by `g`; the others are as before. -/
def PFile.over (a : PFile) (lo hi : Nat) (g : Nat → Option Nat) : PFile :=
  { a with byte := fun p => if lo ≤ p ∧ p < hi then g p else a.byte p }

/-- The file is at least `n` bytes long. -/
def PFile.grow (a : PFile) (n : Nat) : PFile := { a with size := max a.size n }

/-- `len` bytes are stored at `off`; `dat` gives the byte of each file position. -/
def PFile.write (a : PFile) (off len : Nat) (dat : Nat → Nat) : PFile :=
  (a.over off (off + len) fun p => some (dat p)).grow (off + len)

/-- `len` bytes at `off` are on their way. -/
def PFile.blur (a : PFile) (off len : Nat) : PFile :=
  (a.over off (off + len) fun _ => none).grow (off + len)

/-- A part of a write that is on its way. -/
structure Part where
  file : Nat
  pos : Nat
  len : Nat
  dat : Nat → Nat

/-- The parts follow each other and cover `[lo, hi)`; none is empty. -/
def Tiles : Nat → Nat → List Part → Prop
  | lo, hi, [] => lo = hi
  | lo, hi, x :: l => x.pos = lo ∧ 0 < x.len ∧ Tiles (lo + x.len) hi l

/-- The file system with what is on its way. -/
structure PSt where
  fs : PFS
  pend : List Part

/-- The first `m` bytes of part `i` arrive. -/
def PSt.store (x : PSt) (i m : Nat) : PSt :=
  match x.pend[i]? with
  | none => x
  | some q => { fs := x.fs.set q.file ((x.fs q.file).over q.pos (q.pos + min m q.len) fun p => some (q.dat p)),
                pend := x.pend.eraseIdx i }

/-- Outcomes. -/
inductive PRes where
  | ok (out : List Nat)
  | failed
  | rejected

/-- What happens. -/
inductive PEv where
  /-- `pread` -/
  | read (f off len : Nat) (r : PRes)
  /-- an ordinary write -/
  | write (f off len : Nat) (dat : Nat → Nat) (r : PRes)
  /-- a large write is accepted; its data are on their way -/
  | start (f off len : Nat) (dat : Nat → Nat) (r : PRes)
  /-- the first `m` bytes of part `i` arrive, nothing more of it -/
  | store (i m : Nat)

/-- One event. -/
def PStep (x : PSt) : PEv → PSt → Prop
  | .read f off len (.ok out), y => y = x ∧ out.length = min len ((x.fs f).size - off) ∧
      ∀ i, i < out.length → ∀ v, (x.fs f).byte (off + i) = some v → out.getD i 0 = v
  | .read _ _ _ _, y => y = x
  | .write f off len dat (.ok _), y => y = { x with fs := x.fs.set f ((x.fs f).write off len dat) }
  | .write f off len dat .failed, y => ∃ n, n ≤ len ∧ y = { x with fs := x.fs.set f ((x.fs f).write off n dat) }
  | .write _ _ _ _ .rejected, y => y = x
  | .start f off len dat (.ok _), y => ∃ ps, Tiles off (off + len) ps ∧
      (∀ q ∈ ps, q.file = f ∧ q.dat = dat) ∧
      y = { fs := x.fs.set f ((x.fs f).blur off len), pend := x.pend ++ ps }
  | .start f off len _ .failed, y => ∃ n, n ≤ len ∧ y = { x with fs := x.fs.set f ((x.fs f).blur off n) }
  | .start _ _ _ _ .rejected, y => y = x
  | .store i m, y => y = x.store i m

/-- A run. -/
inductive PRun : PSt → List PEv → PSt → Prop where
  | nil (x : PSt) : PRun x [] x
  | cons {x y z : PSt} {e : PEv} {t : List PEv} : PStep x e y → PRun y t z → PRun x (e :: t) z

/-- The user sees files of sizes and contents `size`, `byte`: what is known is right. -/
def Sees (x : PFS) (size : Nat → Nat) (byte : Nat → Nat → Nat) : Prop :=
  ∀ f, size f = (x f).size ∧ ∀ p v, (x f).byte p = some v → byte f p = v

/-- Event `e` may change byte `p` of file `f`. -/
def PEv.Touches (x : PSt) (f p : Nat) : PEv → Prop
  | .read _ _ _ _ => False
  | .write f' off len _ _ => f' = f ∧ off ≤ p ∧ p < off + len
  | .start f' off len _ _ => f' = f ∧ off ≤ p ∧ p < off + len
  | .store i m => ∃ q, x.pend[i]? = some q ∧ q.file = f ∧ q.pos ≤ p ∧ p < q.pos + min m q.len

/-! ### Consequences -/

theorem over_byte (a : PFile) (lo hi : Nat) (g : Nat → Option Nat) (p : Nat) :
    (a.over lo hi g).byte p = if lo ≤ p ∧ p < hi then g p else a.byte p := rfl

theorem set_same (x : PFS) (f : Nat) (a : PFile) : (x.set f a) f = a := by simp [PFS.set]

theorem set_other (x : PFS) {f f' : Nat} (a : PFile) (h : f' ≠ f) : (x.set f a) f' = x f' := by
  simp [PFS.set, h]

theorem set_over_byte (x : PFS) (f lo hi : Nat) (g : Nat → Option Nat) (n f' p : Nat) :
    ((x.set f (((x f).over lo hi g).grow n)) f').byte p =
      if f' = f ∧ lo ≤ p ∧ p < hi then g p else (x f').byte p := by
  by_cases hf : f' = f
  · subst hf
    rw [set_same]
    show (if lo ≤ p ∧ p < hi then g p else _) = _
    simp
  · rw [set_other _ _ hf, if_neg (fun h => hf h.1)]

theorem set_over_byte' (x : PFS) (f lo hi : Nat) (g : Nat → Option Nat) (f' p : Nat) :
    ((x.set f ((x f).over lo hi g)) f').byte p =
      if f' = f ∧ lo ≤ p ∧ p < hi then g p else (x f').byte p := by
  by_cases hf : f' = f
  · subst hf
    rw [set_same]
    show (if lo ≤ p ∧ p < hi then g p else _) = _
    simp
  · rw [set_other _ _ hf, if_neg (fun h => hf h.1)]

/-- An event that does not touch a byte leaves what is known of it. -/
theorem PStep.quiet {x y : PSt} {e : PEv} (h : PStep x e y) {f p : Nat} (ht : ¬ e.Touches x f p) :
    (y.fs f).byte p = (x.fs f).byte p := by
  cases e with
  | read f' off len r =>
    cases r with
    | ok out => obtain ⟨rfl, _⟩ := h; rfl
    | failed => cases h; rfl
    | rejected => cases h; rfl
  | write f' off len dat r =>
    cases r with
    | ok out =>
      subst h
      unfold PFile.write
      rw [set_over_byte, if_neg]
      rintro ⟨rfl, h1, h2⟩; exact ht ⟨rfl, h1, h2⟩
    | failed =>
      obtain ⟨n, hn, rfl⟩ := h
      unfold PFile.write
      rw [set_over_byte, if_neg]
      rintro ⟨rfl, h1, h2⟩; exact ht ⟨rfl, h1, by omega⟩
    | rejected => cases h; rfl
  | start f' off len dat r =>
    cases r with
    | ok out =>
      obtain ⟨ps, _, _, rfl⟩ := h
      unfold PFile.blur
      rw [set_over_byte, if_neg]
      rintro ⟨rfl, h1, h2⟩; exact ht ⟨rfl, h1, h2⟩
    | failed =>
      obtain ⟨n, hn, rfl⟩ := h
      unfold PFile.blur
      rw [set_over_byte, if_neg]
      rintro ⟨rfl, h1, h2⟩; exact ht ⟨rfl, h1, by omega⟩
    | rejected => cases h; rfl
  | store i m =>
    have h' : y = x.store i m := h
    unfold PSt.store at h'
    cases hq : x.pend[i]? with
    | none => rw [hq] at h'; cases h'; rfl
    | some q =>
      rw [hq] at h'; subst h'
      rw [set_over_byte', if_neg]
      rintro ⟨rfl, h1, h2⟩; exact ht ⟨q, hq, rfl, h1, h2⟩

/-- No event of the run touches the byte. -/
inductive Untouched (f p : Nat) : PSt → List PEv → PSt → Prop where
  | nil (x : PSt) : Untouched f p x [] x
  | cons {x y z : PSt} {e : PEv} {t : List PEv} : PStep x e y → ¬ e.Touches x f p →
      Untouched f p y t z → Untouched f p x (e :: t) z

theorem Untouched.same {f p : Nat} {x y : PSt} {t : List PEv} (h : Untouched f p x t y) :
    (y.fs f).byte p = (x.fs f).byte p := by
  induction h with
  | nil => rfl
  | cons hs ht _ ih => rw [ih, hs.quiet ht]

/-- A part that arrives as a whole. -/
theorem PStep.arrives {x y : PSt} {i m : Nat} {q : Part} (h : PStep x (.store i m) y) (hq : x.pend[i]? = some q)
    {p : Nat} (h1 : q.pos ≤ p) (h2 : p < q.pos + min m q.len) : (y.fs q.file).byte p = some (q.dat p) := by
  have h' : y = x.store i m := h
  unfold PSt.store at h'
  rw [hq] at h'
  subst h'
  rw [set_over_byte', if_pos ⟨rfl, h1, h2⟩]

/-- Every position of a tiled range is in one of the parts. -/
theorem Tiles.mem : ∀ {ps : List Part} {lo hi p : Nat}, Tiles lo hi ps → lo ≤ p → p < hi →
    ∃ q ∈ ps, q.pos ≤ p ∧ p < q.pos + q.len
  | [], lo, hi, p, h, h1, h2 => by have : lo = hi := h; omega
  | x :: l, lo, hi, p, ⟨a, b, c⟩, h1, h2 => by
    by_cases hp : p < lo + x.len
    · exact ⟨x, by simp, by omega, by omega⟩
    · obtain ⟨q, hq, h3⟩ := Tiles.mem c (by omega) h2
      exact ⟨q, by simp [hq], h3⟩

/-- A part of a tiled range lies in it. -/
theorem Tiles.le : ∀ {ps : List Part} {lo hi : Nat}, Tiles lo hi ps → lo ≤ hi
  | [], lo, hi, h => by have : lo = hi := h; omega
  | x :: l, lo, hi, ⟨a, b, c⟩ => by have := Tiles.le c; omega

theorem Tiles.inside : ∀ {ps : List Part} {lo hi : Nat}, Tiles lo hi ps → ∀ q ∈ ps, lo ≤ q.pos ∧ q.pos + q.len ≤ hi
  | [], lo, hi, h, q, hq => by cases hq
  | x :: l, lo, hi, ⟨a, b, c⟩, q, hq => by
    rcases List.mem_cons.1 hq with rfl | hq
    · have := c.le; omega
    · have := Tiles.inside c q hq; omega

/-- Part `q` is for byte `p` of file `f`. -/
def Part.For (q : Part) (f p : Nat) : Prop := q.file = f ∧ q.pos ≤ p ∧ p < q.pos + q.len

/-- Byte `p` of file `f` is `v`, or `v` is on its way, and nothing else is. -/
def Lands (f p v : Nat) (x : PSt) : Prop :=
  (∀ q ∈ x.pend, q.For f p → q.dat p = v) ∧ ((x.fs f).byte p = some v ∨ ∃ q ∈ x.pend, q.For f p)

/-- No new write of the byte begins, and what arrives arrives completely. -/
def PEv.Calm (x : PSt) (f p : Nat) : PEv → Prop
  | .read _ _ _ _ => True
  | .write f' off len _ _ => ¬ (f' = f ∧ off ≤ p ∧ p < off + len)
  | .start f' off len _ _ => ¬ (f' = f ∧ off ≤ p ∧ p < off + len)
  | .store i m => ∀ q, x.pend[i]? = some q → q.len ≤ m

theorem mem_eraseIdx_of {α : Type} {l : List α} {i : Nat} {a b : α} (hi : l[i]? = some a) (hb : b ∈ l)
    (hne : b ≠ a) : b ∈ l.eraseIdx i := by
  obtain ⟨j, hj, e⟩ := List.mem_iff_getElem.1 hb
  rw [List.mem_eraseIdx_iff_getElem]
  refine ⟨j, hj, ?_, e⟩
  rintro rfl
  rw [List.getElem?_eq_getElem hj, e] at hi
  exact hne (Option.some.inj hi)

theorem Lands.step {f p v : Nat} {x y : PSt} {e : PEv} (h : Lands f p v x) (hs : PStep x e y)
    (hc : e.Calm x f p) : Lands f p v y := by
  obtain ⟨h1, h2⟩ := h
  -- nothing on its way changed
  have plain : y.pend = x.pend → ¬ e.Touches x f p → Lands f p v y := by
    intro hp ht
    refine ⟨by rw [hp]; exact h1, ?_⟩
    rw [hs.quiet ht, hp]; exact h2
  cases e with
  | read f' off len r =>
    refine plain ?_ (fun h => h)
    cases r with
    | ok out => rw [hs.1]
    | failed => have : y = x := hs; rw [this]
    | rejected => have : y = x := hs; rw [this]
  | write f' off len dat r =>
    refine plain ?_ hc
    cases r with
    | ok out => have : y = _ := hs; rw [this]
    | failed => obtain ⟨n, _, e⟩ := hs; rw [e]
    | rejected => have : y = x := hs; rw [this]
  | start f' off len dat r =>
    cases r with
    | failed => refine plain ?_ hc; obtain ⟨n, _, e⟩ := hs; rw [e]
    | rejected => refine plain ?_ hc; have : y = x := hs; rw [this]
    | ok out =>
      have hq := hs.quiet (f := f) (p := p) hc
      obtain ⟨ps, ht, hf, e⟩ := hs
      refine ⟨fun q hm hfor => ?_, ?_⟩
      · rw [e] at hm
        rcases List.mem_append.1 hm with hm | hm
        · exact h1 q hm hfor
        · exfalso
          have hi := ht.inside q hm
          have hff := (hf q hm).1
          exact hc ⟨hff.symm.trans hfor.1, by have := hfor.2; omega, by have := hfor.2; omega⟩
      · rw [hq]
        rcases h2 with h2 | ⟨q, hm, hfor⟩
        · exact .inl h2
        · exact .inr ⟨q, by rw [e]; exact List.mem_append_left _ hm, hfor⟩
  | store i m =>
    have hs' : y = x.store i m := hs
    unfold PSt.store at hs'
    cases hq : x.pend[i]? with
    | none =>
      rw [hq] at hs'
      rw [show y = x from hs']
      exact ⟨h1, h2⟩
    | some q =>
      rw [hq] at hs'
      have hp : y.pend = x.pend.eraseIdx i := by rw [hs']
      refine ⟨fun q' hm hfor => h1 q' ?_ hfor, ?_⟩
      · rw [hp] at hm; exact List.mem_of_mem_eraseIdx hm
      · by_cases hfor : q.For f p
        · refine .inl ?_
          have hl := hc q hq
          have ha := hs.arrives hq (p := p) hfor.2.1 (by have := hfor.2.2; omega)
          rw [hfor.1] at ha
          rw [ha, h1 q (List.mem_of_getElem? hq) hfor]
        · rcases h2 with h2 | ⟨q', hm, hfor'⟩
          · refine .inl ?_
            rw [hs.quiet, h2]
            rintro ⟨q2, e2, b1, b2, b3⟩
            rw [hq] at e2
            cases e2
            exact hfor ⟨b1, b2, by omega⟩
          · refine .inr ⟨q', ?_, hfor'⟩
            rw [hp]
            exact mem_eraseIdx_of hq hm (by rintro rfl; exact hfor hfor')

theorem set_grow_size (x : PFS) (f lo hi : Nat) (g : Nat → Option Nat) (n f' : Nat) :
    (x f').size ≤ ((x.set f (((x f).over lo hi g).grow n)) f').size := by
  by_cases hf : f' = f
  · subst hf
    rw [set_same]
    exact Nat.le_max_left _ _
  · rw [set_other _ _ hf]; exact Nat.le_refl _

/-- Files do not become shorter. -/
theorem PStep.size_le {x y : PSt} {e : PEv} (h : PStep x e y) (f : Nat) : (x.fs f).size ≤ (y.fs f).size := by
  cases e with
  | read f' off len r =>
    cases r with
    | ok out => rw [h.1]; exact Nat.le_refl _
    | failed => have : y = x := h; rw [this]; exact Nat.le_refl _
    | rejected => have : y = x := h; rw [this]; exact Nat.le_refl _
  | write f' off len dat r =>
    cases r with
    | ok out => have : y = _ := h; rw [this]; exact set_grow_size ..
    | failed => obtain ⟨n, _, e⟩ := h; rw [e]; exact set_grow_size ..
    | rejected => have : y = x := h; rw [this]; exact Nat.le_refl _
  | start f' off len dat r =>
    cases r with
    | ok out => obtain ⟨ps, _, _, e⟩ := h; rw [e]; exact set_grow_size ..
    | failed => obtain ⟨n, _, e⟩ := h; rw [e]; exact set_grow_size ..
    | rejected => have : y = x := h; rw [this]; exact Nat.le_refl _
  | store i m =>
    have h' : y = x.store i m := h
    unfold PSt.store at h'
    cases hq : x.pend[i]? with
    | none => rw [hq] at h'; rw [show y = x from h']; exact Nat.le_refl _
    | some q =>
      rw [hq] at h'
      rw [h']
      by_cases hf : f = q.file
      · subst hf
        show _ ≤ ((x.fs.set q.file _) q.file).size
        rw [set_same]; exact Nat.le_refl _
      · show _ ≤ ((x.fs.set q.file _) f).size
        rw [set_other _ _ hf]; exact Nat.le_refl _

end Silofs.AsyncSpec
