/-
/proc/self/mountinfo as the kernel writes it (proc(5)): a line for each mount.
-/
namespace Silofs.MiSpec

/-- A path in the file: space, tab, newline and backslash are written as three octal digits behind a
backslash. -/
def esc : List Nat → List Nat
  | [] => []
  | c :: r =>
    (if c = 32 ∨ c = 9 ∨ c = 10 ∨ c = 92 then [92, 48 + c / 64, 48 + c / 8 % 8, 48 + c % 8] else [c]) ++ esc r

/-- Words with one space between. -/
def spaced : List (List Nat) → List Nat
  | [] => []
  | [w] => w
  | w :: ws => w ++ 32 :: spaced ws

/-- One mount. -/
structure Mount where
  ids : List (List Nat)
  root : List Nat
  dir : List Nat
  opts : List (List Nat)
  fstype : List Nat
  source : List Nat
  super : List Nat

/-- Its line: three numbers, the root, the mount point, options and optional fields, " - ", the type,
the source, the options of the super-block. -/
def line (m : Mount) : List Nat :=
  spaced (m.ids ++ [esc m.root, esc m.dir] ++ m.opts) ++ [32, 45, 32] ++ spaced [m.fstype, m.source, m.super]

/-- The file. -/
def text (l : List Mount) : List Nat := l.flatMap (fun m => line m ++ [10])

/-- A character which can be in a field. -/
def Plain (c : Nat) : Prop := c ≠ 0 ∧ c ≠ 32 ∧ c ≠ 9 ∧ c ≠ 10 ∧ c ≠ 11 ∧ c ≠ 12 ∧ c ≠ 13

/-- A field. -/
def Word (w : List Nat) : Prop := w ≠ [] ∧ w ≠ [45] ∧ ∀ c ∈ w, Plain c

/-- A path without the characters which are blank but not written as digits. -/
def Path (p : List Nat) : Prop := p.head? = some 47 ∧ ∀ c ∈ p, c ≠ 0 ∧ c ≠ 11 ∧ c ≠ 12 ∧ c ≠ 13

/-- What the kernel writes. -/
structure Ok (m : Mount) : Prop where
  ids : m.ids.length = 3 ∧ ∀ w ∈ m.ids, Word w
  root : Path m.root
  dir : Path m.dir
  opts : ∀ w ∈ m.opts, Word w
  tail : Word m.fstype ∧ Word m.source ∧ Word m.super

/-- "fuse.silofs" -/
def silofsType : List Nat := [102, 117, 115, 101, 46, 115, 105, 108, 111, 102, 115]

/-- The text is somewhere in the line. -/
def Mentions (m : Mount) : Prop := silofsType <:+: line m

instance (m : Mount) : Decidable (Mentions m) := inferInstanceAs (Decidable (_ <:+: _))

end Silofs.MiSpec
