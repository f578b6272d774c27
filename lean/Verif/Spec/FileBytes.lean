/-
What a user expects of regular files: a file is a size and a byte for every
position, reads give back what was written, everything else is zero.  Nothing in
this file refers to the model of the implementation.
-/

namespace Silofs.FileSpec

/-- A file as its user sees it; `byte p` is 0 for `p` at or beyond `size`. -/
structure AFile where
  size : Nat
  byte : Nat → Nat

/-- An empty file. -/
def AFile.empty : AFile := ⟨0, fun _ => 0⟩

/-- The bytes of a read: as many as the file has from `off`, at most `len`. -/
def AFile.read (a : AFile) (off len : Nat) : List Nat :=
  (List.range (min len (a.size - off))).map fun i => a.byte (off + i)

/-- `dat` is stored at `off` (no bytes: no effect). -/
def AFile.write (a : AFile) (off : Nat) (dat : List Nat) : AFile :=
  if dat = [] then a
  else { size := max a.size (off + dat.length)
         byte := fun p => if off ≤ p ∧ p < off + dat.length then dat.getD (p - off) 0 else a.byte p }

/-- The size is set to `off`; what lies beyond is zero. -/
def AFile.truncate (a : AFile) (off : Nat) : AFile :=
  { size := off, byte := fun p => if p < off then a.byte p else 0 }

/-- `[off, end_)` becomes zero; the size is kept. -/
def AFile.zero (a : AFile) (off end_ : Nat) : AFile :=
  { a with byte := fun p => if off ≤ p ∧ p < end_ then 0 else a.byte p }

/-- The file is at least `end_` bytes long. -/
def AFile.extend (a : AFile) (end_ : Nat) : AFile := { a with size := max a.size end_ }

/-- Requests. -/
inductive Op where
  /-- `pwrite` -/
  | write (off : Nat) (dat : List Nat)
  /-- `pread` -/
  | read (off len : Nat)
  /-- `ftruncate` -/
  | truncate (off : Nat)
  /-- `fallocate` that reserves space -/
  | reserve (off end_ : Nat) (keepSize : Bool)
  /-- `fallocate` with PUNCH_HOLE or ZERO_RANGE -/
  | zero (off end_ : Nat) (keepSize : Bool)
  /-- the file is deleted and its number given to a new one -/
  | recreate
  deriving DecidableEq

/-- File system: files by number. -/
abbrev FS := Nat → AFile

/-- Replace one file. -/
def FS.set (x : FS) (f : Nat) (a : AFile) : FS := fun f' => if f' = f then a else x f'

/-- `copy_file_range`: the bytes the source has in the range are written to the
destination. -/
def FS.copy (x : FS) (f1 off1 f2 off2 len : Nat) : FS :=
  x.set f2 ((x f2).write off2 ((x f1).read off1 len))

/-- What a successful request does to its file. -/
def Op.apply : Op → AFile → AFile
  | .write off dat, a => a.write off dat
  | .read _ _, a => a
  | .truncate off, a => a.truncate off
  | .reserve _ end_ keep, a => if keep then a else a.extend end_
  | .zero off end_ keep, a => if keep then a.zero off end_ else (a.zero off end_).extend end_
  | .recreate, _ => .empty

/-- What a successful request returns. -/
def Op.output : Op → AFile → List Nat
  | .read off len, a => a.read off len
  | _, _ => []

/-- What a request that failed on the way may have done to its file: a prefix of
the data is written, or some bytes that were to be zeroed are zeroed. -/
def Op.Partial : Op → AFile → AFile → Prop
  | .write off dat, a, a' => ∃ n, n ≤ dat.length ∧ a'.size = max a.size (off + n) ∧
      ∀ p, a'.byte p = if off ≤ p ∧ p < off + n then dat.getD (p - off) 0 else a.byte p
  | .read _ _, a, a' => a' = a
  | .truncate off, a, a' => a'.size = a.size ∧
      ∀ p, a'.byte p = a.byte p ∨ (off ≤ p ∧ a'.byte p = 0)
  | .reserve _ _ _, a, a' => a' = a
  | .zero off end_ _, a, a' => a'.size = a.size ∧
      ∀ p, a'.byte p = a.byte p ∨ (off ≤ p ∧ p < end_ ∧ a'.byte p = 0)
  | .recreate, a, a' => a'.size = a.size ∧ ∀ p, a'.byte p = a.byte p ∨ a'.byte p = 0

/-- Outcome of a request. -/
inductive Res where
  | ok (out : List Nat)
  | failed
  | rejected
  deriving DecidableEq

/-- One request on file `f`: what may happen to the file system. -/
def Step (x : FS) (f : Nat) (op : Op) (r : Res) (x' : FS) : Prop :=
  (∀ f', f' ≠ f → x' f' = x f') ∧
  match r with
  | .ok out => x' f = op.apply (x f) ∧ out = op.output (x f)
  | .failed => op.Partial (x f) (x' f)
  | .rejected => x' f = x f

/-- A run: requests with their outcomes. -/
inductive Run : FS → List (Nat × Op × Res) → FS → Prop where
  | nil (x : FS) : Run x [] x
  | snoc {x y z : FS} {t : List (Nat × Op × Res)} {f : Nat} {op : Op} {r : Res} :
      Run x t y → Step y f op r z → Run x (t ++ [(f, op, r)]) z

/-- Value `v` was given to position `p` of the current file number `f` by some
write of the run that was not rejected. -/
def Given (t : List (Nat × Op × Res)) (f p v : Nat) : Prop :=
  ∃ t1 t2 off dat r, t = t1 ++ (f, .write off dat, r) :: t2 ∧
    (∀ out, (f, Op.recreate, Res.ok out) ∉ t2) ∧
    off ≤ p ∧ p < off + dat.length ∧ dat.getD (p - off) 0 = v

theorem Given.mono {t : List (Nat × Op × Res)} {f p v : Nat} (h : Given t f p v) {e : Nat × Op × Res}
    (he : ∀ out, e ≠ (f, Op.recreate, Res.ok out)) : Given (t ++ [e]) f p v := by
  obtain ⟨t1, t2, off, dat, r, h1, h2, h3⟩ := h
  refine ⟨t1, t2 ++ [e], off, dat, r, by rw [h1]; simp, fun out hm => ?_, h3⟩
  rcases List.mem_append.1 hm with hm | hm
  · exact h2 out hm
  · exact he out (List.mem_singleton.1 hm).symm

theorem Given.last {t : List (Nat × Op × Res)} {f p off : Nat} {dat : List Nat} {r : Res}
    (h1 : off ≤ p) (h2 : p < off + dat.length) :
    Given (t ++ [(f, .write off dat, r)]) f p (dat.getD (p - off) 0) :=
  ⟨t, [], off, dat, r, rfl, fun out hm => by simp at hm, h1, h2, rfl⟩

/-- Every byte of every file is zero or was given to this position of this very
file by a write. -/
theorem Run.given {x y : FS} {t : List (Nat × Op × Res)} (h : Run x t y)
    (h0 : ∀ f p, (x f).byte p = 0) : ∀ f p, (y f).byte p = 0 ∨ Given t f p ((y f).byte p) := by
  induction h with
  | nil => exact fun f p => .inl (h0 f p)
  | @snoc y z t f op r h1 h2 ih =>
    intro f' p
    obtain ⟨ho, hf⟩ := h2
    by_cases hff : f' = f
    · subst hff
      -- an unchanged byte
      have keep : (∀ out, (f', op, r) ≠ (f', Op.recreate, Res.ok out)) → (z f').byte p = (y f').byte p →
          (z f').byte p = 0 ∨ Given (t ++ [(f', op, r)]) f' p ((z f').byte p) := by
        intro hne e
        rw [e]
        rcases ih f' p with h | h
        · exact .inl h
        · exact .inr (h.mono hne)
      cases r with
      | rejected => exact keep (by simp) (by rw [hf])
      | ok out =>
        obtain ⟨hf, _⟩ := hf
        cases op with
        | write off dat =>
          simp only [Op.apply, AFile.write] at hf
          by_cases hd : dat = []
          · rw [if_pos hd] at hf; exact keep (by simp) (by rw [hf])
          · rw [if_neg hd] at hf
            by_cases hp : off ≤ p ∧ p < off + dat.length
            · refine .inr ?_
              rw [hf]; simp only [if_pos hp]
              exact Given.last hp.1 hp.2
            · exact keep (by simp) (by rw [hf]; simp only [if_neg hp])
        | read off len => exact keep (by simp) (by rw [hf]; rfl)
        | truncate off =>
          by_cases hp : p < off
          · exact keep (by simp) (by rw [hf]; simp [Op.apply, AFile.truncate, hp])
          · exact .inl (by rw [hf]; simp [Op.apply, AFile.truncate, hp])
        | reserve off end_ k =>
          refine keep (by simp) ?_
          rw [hf]
          cases k <;> rfl
        | zero off end_ k =>
          by_cases hp : off ≤ p ∧ p < end_
          · exact .inl (by rw [hf]; cases k <;> simp [Op.apply, AFile.zero, AFile.extend, hp])
          · exact keep (by simp) (by rw [hf]; cases k <;> simp [Op.apply, AFile.zero, AFile.extend, hp])
        | recreate => exact .inl (by rw [hf]; rfl)
      | failed =>
        cases op with
        | write off dat =>
          obtain ⟨n, hn, _, hb⟩ := hf
          by_cases hp : off ≤ p ∧ p < off + n
          · refine .inr ?_
            rw [hb, if_pos hp]
            exact Given.last hp.1 (by omega)
          · exact keep (by simp) (by rw [hb, if_neg hp])
        | read off len => exact keep (by simp) (by rw [show z f' = y f' from hf])
        | truncate off =>
          rcases hf.2 p with h | h
          · exact keep (by simp) h
          · exact .inl h.2
        | reserve off end_ k => exact keep (by simp) (by rw [show z f' = y f' from hf])
        | zero off end_ k =>
          rcases hf.2 p with h | h
          · exact keep (by simp) h
          · exact .inl h.2.2
        | recreate =>
          rcases hf.2 p with h | h
          · exact keep (by simp) h
          · exact .inl h
    · rw [ho f' hff]
      rcases ih f' p with h | h
      · exact .inl h
      · refine .inr (h.mono ?_)
        intro out e
        simp at e
        exact hff e.1.symm

end Silofs.FileSpec
