import Verif.Model.Repo
import Verif.Spec.Sysio
/-
What users of the repository rely on: it is a map from names to contents.  The relation `Allowed`
says which answers and which next maps an operation may have; it knows nothing of caches, files,
paths and inodes.
-/
namespace Silofs.Repo
open Silofs.Addr Silofs.Sysio

/-- Contents by name. -/
abbrev Store := Name → Option File

/-- The only name an operation is about. -/
def target : Op → Option Name
  | .spawn l | .stage _ l | .stat _ l | .remove l | .punch l | .require l | .requireAt l _ _ | .write l _ _ | .read l _ _ => some (.lseg l)
  | .save nm _ | .load nm _ | .unlink nm | .size nm => some nm
  | .pcreate p | .pstage p | .psave p _ _ | .pload p _ _ | .premove p | .pflush p => some (.pseg p)
  | .relax | .drop | .sync => none

def AllZero (f : File) : Prop := ∀ i, f.byte i = 0

/-- `f'` has the first `k` bytes of `l` at `off`; all other bytes are those of `f`. -/
def Mixed (f : File) (off : Nat) (l : List Nat) (k : Nat) (f' : File) : Prop :=
  (∀ i b, i < k → l[i]? = some b → f'.byte (off + i) = b) ∧
  (∀ i, (i < off ∨ off + k ≤ i) → f'.byte i = f.byte i) ∧ f.size ≤ f'.size

/-- An operation which finds a content (`some f`) or makes one of zeros that covers the segment. -/
def Made (l : Lsid) (s s' : Option File) : Prop :=
  match s with
  | some f => s' = some f
  | none => ∃ f, s' = some f ∧ AllZero f ∧ l.lsize ≤ f.size ∧ f.size < l.lsize + 65536 ∧ f.size % 65536 = 0

/-- A content whose size is one a segment may have: whole blocks of 64K, and at most one block
more than the segment. -/
def Fit (l : Lsid) (f : File) : Prop := f.size % 65536 = 0 ∧ f.size ≤ l.lsize + 65536

/-- A content that kept its size, or got one that fits. -/
def Sized (l : Lsid) (f f' : File) : Prop := f'.size = f.size ∨ (l.lsize % 65536 = 0 → Fit l f')

/-- What operation `op` with answer `o` may do to the content of its name. -/
def Own (op : Op) (o : Out) (s s' : Option File) : Prop :=
  match op with
  | .spawn l => if o.res = .ok then Made l s s' else s' = s
  | .require l => if o.res = .ok then Made l s s' else s' = s
  | .stage _ _ => s' = s ∧ (o.res = .ok → s ≠ none)
  | .stat _ _ => s' = s ∧ (o.res = .ok → ∃ f, s = some f ∧ o.num = f.size)
  | .remove _ => if o.res = .ok then s ≠ none ∧ s' = none else s' = s
  | .punch _ =>
    if o.res = .ok then ∃ f f', s = some f ∧ s' = some f' ∧ AllZero f' ∧ f'.size = f.size else s' = s
  | .requireAt l pos len =>
    if o.res = .ok then ∃ f f', s = some f ∧ s' = some f' ∧ (∀ i, f'.byte i = f.byte i) ∧ f.size ≤ f'.size ∧ pos + len ≤ f'.size ∧ Sized l f f'
    else s' = s
  | .write l pos bufs =>
    (o.res = .ok → ∃ f f', s = some f ∧ s' = some f' ∧ Mixed f pos bufs.flatten bufs.flatten.length f' ∧ Sized l f f' ∧
      (bufs.flatten ≠ [] → pos + bufs.flatten.length ≤ f'.size)) ∧
    (o.res ≠ .ok → (s = none ∧ s' = none) ∨ ∃ f f' k, s = some f ∧ s' = some f' ∧ k ≤ bufs.flatten.length ∧ Mixed f pos bufs.flatten k f' ∧
      Sized l f f')
  | .read _ pos len => s' = s ∧ (o.res = .ok → ∃ f, s = some f ∧ Holds f pos len o.bytes)
  | .save _ l =>
    (o.res = .ok → ∃ f', s' = some f' ∧ Mixed (s.getD ⟨0, fun _ => 0⟩) 0 l l.length f' ∧ f'.size = max (s.getD ⟨0, fun _ => 0⟩).size l.length) ∧
    (o.res ≠ .ok → s' = s ∨ ∃ f' k, k ≤ l.length ∧ s' = some f' ∧ Mixed (s.getD ⟨0, fun _ => 0⟩) 0 l k f')
  | .load _ len => s' = s ∧ (o.res = .ok → ∃ f, s = some f ∧ Holds f 0 len o.bytes)
  | .unlink _ => if o.res = .ok then s ≠ none ∧ s' = none else s' = s
  | .size _ => s' = s ∧ (o.res = .ok → ∃ f, s = some f ∧ o.num = f.size)
  | .pcreate _ => if o.res = .ok then s = none ∧ ∃ f, s' = some f ∧ f.size = 0 ∧ AllZero f else s' = s
  | .pstage _ => s' = s ∧ (o.res = .ok → s ≠ none)
  | .psave _ off l =>
    (o.res = .ok → ∃ f f', s = some f ∧ s' = some f' ∧ Wrote f off l f') ∧
    (o.res ≠ .ok → s' = s ∨ ∃ f f' k, k ≤ l.length ∧ s = some f ∧ s' = some f' ∧ Mixed f off l k f')
  | .pload _ off len => s' = s ∧ (o.res = .ok → ∃ f, s = some f ∧ Holds f off len o.bytes)
  | .premove _ =>
    if o.res = .ok then s ≠ none ∧ s' = none
    else s' = s ∨ ∃ f f', s = some f ∧ s' = some f' ∧ f'.size = 0 ∧ AllZero f'
  | .pflush _ => s' = s ∧ (o.res = .ok → s ≠ none)
  | .relax | .drop | .sync => True

/-- Operation `op` may answer `o` and lead from `s` to `s'`, on names `U`. -/
def Allowed (U : Name → Prop) (s : Store) (op : Op) (o : Out) (s' : Store) : Prop :=
  o.res ≠ .undef ∧
  (∀ nm, target op = some nm → Own op o (s nm) (s' nm)) ∧
  (∀ nm, U nm → target op ≠ some nm → s' nm = s nm)

/-- A sequence of operations, each of them allowed. -/
inductive Trace (U : Name → Prop) : Store → List (Op × Out) → Store → Prop where
  | nil (s s' : Store) (h : ∀ nm, U nm → s' nm = s nm) : Trace U s [] s'
  | cons (s s1 s2 : Store) (op : Op) (o : Out) (xs : List (Op × Out)) (h : Allowed U s op o s1) (t : Trace U s1 xs s2) :
    Trace U s ((op, o) :: xs) s2

/-- Operations as the program issues them: on names in use, objects saved as a whole are not
segments; errors of the kernel are below 1000, and it does not claim that an existing file is missing; it stores batches of several
buffers, of fewer than 128 each, as a whole or not at all (C53 tells what happens otherwise), and
lets a file that was cut to nothing grow again (`C54_cut_violated`). -/
def WellFormed (U : Name → Prop) (k : K) (op : Op) : Prop :=
  (∀ nm, target op = some nm → U nm) ∧ k.stat ≠ 2 ∧ k.stat < 1000 ∧
  match op with
  | .save nm _ | .load nm _ | .unlink nm | .size nm => (∀ l, nm ≠ .lseg l) ∧ (∀ p, nm ≠ .pseg p)
  | .write _ _ bufs => bufs.length = 1 ∨ (bufs.length < 128 ∧ AllOrNothing bufs.flatten.length k.data)
  | .punch _ => k.trunc2 = 0
  | _ => True

end Silofs.Repo
