/-
What programs expect of a file system as a whole: names lead to objects, regular files
have bytes, handles keep files alive.  Nothing here refers to the model of the
implementation.
-/
import Verif.Spec.FileBytes

namespace Silofs.WholeSpec

open Silofs.FileSpec (AFile FS Res)

/-- A name in a directory. -/
abbrev Place := Nat × List Nat

/-- A file system: what each name of each directory leads to, which objects are regular
files, their bytes, and how many handles are open on each object. -/
structure AFs where
  ent : Place → Option Nat
  reg : Nat → Bool
  file : Nat → AFile
  nopen : Nat → Nat

/-- The root directory. -/
def root : Nat := 1

/-- An object that a program can get at: it has a name, is open, or is the root. -/
def AFs.live (x : AFs) (i : Nat) : Prop := (∃ p, x.ent p = some i) ∨ 0 < x.nopen i ∨ i = root

/-- What happened. -/
inductive AEv where
  /-- a new object `i` with name `p`; `opened`: with a handle -/
  | made (p : Place) (i : Nat) (reg opened : Bool)
  /-- a further name -/
  | linked (p : Place) (i : Nat)
  /-- a name was removed -/
  | removed (p : Place)
  /-- `p` was renamed to `q`, or exchanged with it -/
  | renamed (p q : Place) (exchange : Bool)
  /-- a handle was opened, with `trunc` the file cut to length 0 -/
  | opened (i : Nat) (trunc : Bool)
  | closed (i : Nat)
  /-- nothing happened -/
  | nothing
  /-- the storage failed during an operation on the names `ps`, the close of `shut`, the
  open of `cut` that was to truncate it -/
  | broken (ps : List Place) (shut cut : Option Nat)
  /-- a request on the bytes of file `i` -/
  | io (i : Nat) (op : FileSpec.Op) (r : Res)
  /-- a range of bytes was copied -/
  | copied (i1 off1 i2 off2 len : Nat)
  /-- the storage failed during a copy to this range -/
  | copyBroken (i2 off2 len : Nat)
  deriving DecidableEq

/-- Names before and after. -/
def AEv.Names (e t : Place → Option Nat) : AEv → Prop
  | .made p i _ _ => e p = none ∧ ∀ q, t q = if q = p then some i else e q
  | .linked p i => e p = none ∧ ∀ q, t q = if q = p then some i else e q
  | .removed p => e p ≠ none ∧ ∀ q, t q = if q = p then none else e q
  | .renamed p q exchange => e p ≠ none ∧ (exchange = true → e q ≠ none) ∧
      ∀ r, t r = if r = q then e p else if r = p then (if exchange then e q else none) else e r
  | .broken ps _ _ => ∀ r, t r = e r ∨ (r ∈ ps ∧ (t r = none ∨ ∃ q ∈ ps, t r = e q))
  | _ => ∀ r, t r = e r

/-- Handles before and after. -/
def AEv.Handles (n m : Nat → Nat) : AEv → Prop
  | .made _ i _ o => n i = 0 ∧ ∀ j, m j = if j = i ∧ o = true then 1 else n j
  | .opened i _ => ∀ j, m j = if j = i then n j + 1 else n j
  | .closed i => 0 < n i ∧ ∀ j, m j = if j = i then n j - 1 else n j
  | .broken _ shut _ => ∀ j, m j = n j ∨ (shut = some j ∧ m j + 1 = n j)
  | _ => ∀ j, m j = n j

/-- The bytes of file `j` before and after. -/
def AEv.Bytes (x : FS) (j : Nat) (a : AFile) : AEv → Prop
  | .made _ i reg _ => if j = i then reg = true → a = .empty else a = x j
  | .opened i trunc => if j = i ∧ trunc = true then a = (x j).truncate 0 else a = x j
  | .broken _ _ cut => if cut = some j then (a = x j ∨ (FileSpec.Op.truncate 0).Partial (x j) a) else a = x j
  | .io i op r =>
    if j = i then
      match r with
      | .ok _ => a = op.apply (x j)
      | .failed => op.Partial (x j) a
      | .rejected => a = x j
    else a = x j
  | .copied i1 off1 i2 off2 len => a = x.copy i1 off1 i2 off2 len j
  | .copyBroken i2 off2 len => if j = i2 then a.size = (x j).size ∧
      ∀ p, ¬ (off2 ≤ p ∧ p < off2 + len) → a.byte p = (x j).byte p else a = x j
  | _ => a = x j

/-- What the program was told. -/
def AEv.Told (x : AFs) : AEv → Prop
  | .made _ i _ _ => ¬ x.live i
  | .linked _ i => x.live i
  | .opened i _ => x.live i
  | .io i op (.ok out) => x.live i ∧ x.reg i = true ∧ out = op.output (x.file i)
  | .io i _ _ => x.live i ∧ x.reg i = true
  | .copied i1 _ i2 _ _ => x.live i1 ∧ x.reg i1 = true ∧ x.live i2 ∧ x.reg i2 = true
  | _ => True

/-- Which objects are regular files. -/
def AEv.Kind (k : Nat → Bool) (j : Nat) (b : Bool) : AEv → Prop
  | .made _ i reg _ => b = if j = i then reg else k j
  | _ => b = k j

/-- One event.  Of an object that no program can get at any more nothing is said. -/
structure AStep (x : AFs) (e : AEv) (y : AFs) : Prop where
  told : e.Told x
  names : e.Names x.ent y.ent
  handles : e.Handles x.nopen y.nopen
  kind : ∀ j, y.live j → e.Kind x.reg j (y.reg j)
  bytes : ∀ j, y.live j → y.reg j = true → e.Bytes x.file j (y.file j)

inductive ARun : AFs → List AEv → AFs → Prop where
  | nil (x : AFs) : ARun x [] x
  | snoc {x y z : AFs} {t : List AEv} {e : AEv} : ARun x t y → AStep y e z → ARun x (t ++ [e]) z

/-! ### Consequences: a file that stays within reach has exactly the bytes given to it -/

/-- The event does not concern the bytes of file `i`. -/
def AEv.Spares (i : Nat) : AEv → Prop
  | .made _ j _ _ => j ≠ i
  | .opened j trunc => j = i → trunc = false
  | .broken _ _ cut => cut ≠ some i
  | .io j _ r => j = i → r = .rejected
  | .copied _ _ j _ _ => j ≠ i
  | .copyBroken j _ _ => j ≠ i
  | _ => True

theorem AStep.live_back {x y : AFs} {e : AEv} (h : AStep x e y) {i : Nat} (hi : y.live i) :
    x.live i ∨ ∃ p b o, e = .made p i b o := by
  have hn := h.names
  have hh := h.handles
  have ht := h.told
  rcases hi with ⟨q, hq⟩ | ho | hr
  · cases e with
    | made p j b o =>
      rw [hn.2 q] at hq
      split at hq
      · cases hq; exact .inr ⟨p, b, o, rfl⟩
      · exact .inl (.inl ⟨q, hq⟩)
    | linked p j =>
      rw [hn.2 q] at hq
      split at hq
      · cases hq; exact .inl ht
      · exact .inl (.inl ⟨q, hq⟩)
    | removed p =>
      rw [hn.2 q] at hq
      split at hq
      · cases hq
      · exact .inl (.inl ⟨q, hq⟩)
    | renamed p r ex =>
      rw [hn.2.2 q] at hq
      split at hq
      · exact .inl (.inl ⟨p, hq⟩)
      · split at hq
        · split at hq
          · exact .inl (.inl ⟨r, hq⟩)
          · cases hq
        · exact .inl (.inl ⟨q, hq⟩)
    | broken ps sh cut =>
      rcases hn q with h | ⟨_, h | ⟨r, _, h⟩⟩
      · rw [h] at hq; exact .inl (.inl ⟨q, hq⟩)
      · rw [h] at hq; cases hq
      · rw [h] at hq; exact .inl (.inl ⟨r, hq⟩)
    | _ => rw [hn q] at hq; exact .inl (.inl ⟨q, hq⟩)
  · cases e with
    | made p j b o =>
      rw [hh.2 i] at ho
      split at ho
      · next hc => obtain ⟨rfl, _⟩ := hc; exact .inr ⟨p, b, o, rfl⟩
      · exact .inl (.inr (.inl ho))
    | opened j tr =>
      rw [hh i] at ho
      split at ho
      · next hc => subst hc; exact .inl ht
      · exact .inl (.inr (.inl ho))
    | closed j =>
      rw [hh.2 i] at ho
      split at ho
      · exact .inl (.inr (.inl (by omega)))
      · exact .inl (.inr (.inl ho))
    | broken ps sh cut =>
      rcases hh i with h | ⟨_, h⟩ <;> exact .inl (.inr (.inl (by omega)))
    | _ => rw [hh i] at ho; exact .inl (.inr (.inl ho))
  · exact .inl (.inr (.inr hr))

/-- What a step that spares the file does to it: nothing. -/
theorem AStep.spared {x y : AFs} {e : AEv} (h : AStep x e y) {i : Nat} (hs : e.Spares i) (hi : y.live i)
    (hr : y.reg i = true) : x.live i ∧ x.reg i = true ∧ y.file i = x.file i := by
  have hb := h.bytes i hi hr
  have hk := h.kind i hi
  have hl : x.live i := by
    rcases h.live_back hi with hl | ⟨p, b, o, he⟩
    · exact hl
    · subst he; exact absurd rfl hs
  refine ⟨hl, ?_, ?_⟩
  · rw [hr] at hk
    cases e with
    | made p j b o =>
      have hk' : true = if i = j then b else x.reg i := hk
      rw [if_neg (fun e => hs e.symm)] at hk'
      exact hk'.symm
    | _ => exact hk.symm
  · cases e with
    | made p j b o =>
      have hb' : if i = j then b = true → y.file i = .empty else y.file i = x.file i := hb
      rw [if_neg (fun e => hs e.symm)] at hb'
      exact hb'
    | opened j tr =>
      have hb' : if i = j ∧ tr = true then y.file i = (x.file i).truncate 0 else y.file i = x.file i := hb
      rw [if_neg (fun e => by rw [hs e.1.symm] at e; cases e.2)] at hb'
      exact hb'
    | broken ps sh cut =>
      have hb' : if cut = some i then _ else y.file i = x.file i := hb
      rw [if_neg hs] at hb'
      exact hb'
    | io j op r =>
      simp only [AEv.Bytes] at hb
      by_cases hj : i = j
      · have := hs hj.symm
        subst this
        rw [if_pos hj] at hb
        exact hb
      · rw [if_neg hj] at hb; exact hb
    | copied i1 o1 j o2 len =>
      have hb' : y.file i = FS.copy x.file i1 o1 j o2 len i := hb
      unfold FS.copy FS.set at hb'
      rw [if_neg (fun e => hs e.symm)] at hb'
      exact hb'
    | copyBroken j o2 len =>
      have hb' : if i = j then _ else y.file i = x.file i := hb
      rw [if_neg (fun e => hs e.symm)] at hb'
      exact hb'
    | _ => exact hb

/-- Whatever programs do to names, handles and other files, a file that is still within reach has
the bytes it had. -/
theorem ARun.spared {x y : AFs} {t : List AEv} (h : ARun x t y) {i : Nat} (hs : ∀ e ∈ t, e.Spares i)
    (hi : y.live i) (hr : y.reg i = true) : x.live i ∧ x.reg i = true ∧ y.file i = x.file i := by
  induction h with
  | nil => exact ⟨hi, hr, rfl⟩
  | snoc _ h2 ih =>
    obtain ⟨a, b, c⟩ := h2.spared (hs _ (by simp)) hi hr
    obtain ⟨a', b', c'⟩ := ih (fun e he => hs e (by simp [he])) a b
    exact ⟨a', b', c.trans c'⟩

end Silofs.WholeSpec
