import Verif.Model.Lcache
/-
What the rest of the file-system sees of the in-memory cache: for each kind of object and each key
there is one current content and one stored content; which objects happen to be in memory does not
show.
-/
namespace Silofs.Lcache

/-- Current and stored content of every object. -/
structure Mem where
  cur : Bool → Nat → Nat
  saved : Bool → Nat → Nat

/-- One function changed at one object. -/
def put (f : Bool → Nat → Nat) (v : Bool) (k d : Nat) : Bool → Nat → Nat :=
  fun v' k' => if v' = v ∧ k' = k then d else f v' k'

/-- What may happen to an object. -/
inductive MOp where
  | read (v : Bool) (k : Nat)
  | write (v : Bool) (k d : Nat)
  | save (v : Bool) (k : Nat)
  | discard (v : Bool) (k : Nat)
  | none

/-- Effect on the contents. -/
def Mem.step (m : Mem) : MOp → Mem
  | .read _ _ => m
  | .write v k d => { m with cur := put m.cur v k d }
  | .save v k => { m with saved := put m.saved v k (m.cur v k) }
  | .discard v k => { m with cur := put m.cur v k (m.saved v k) }
  | .none => m

/-- The result of a read: nothing (no memory), or the current content. -/
def Mem.Answer (m : Mem) : MOp → Option Nat → Prop
  | .read v k, o => o = Option.none ∨ o = some (m.cur v k)
  | _, o => o = Option.none

/-- The current content as the cache has it. -/
def World.abs (w : World) : Mem where
  cur := fun v k => match (w.hq v).find k with
    | some i => ((w.hq v).heap i).data
    | Option.none => w.store v k
  saved := w.store

/-- What a request to the cache means. -/
def World.absOp (w : World) : Op → MOp
  | .stage v k _ _ _ => .read v k
  | .write v i d _ => .write v ((w.hq v).heap i).key d
  | .save v i => .save v ((w.hq v).heap i).key
  | .forget v i => if ((w.hq v).heap i).mapped then .discard v ((w.hq v).heap i).key else .none
  | _ => .none

/-- What callers must respect: an element they name is one they got and is still there; they
change only objects which are not forgotten; they give back no more references than they took; a queue
named at a change belongs to an inode which is there; unodes are forgotten only when nobody refers to
them; an inode is forgotten only when none of its own objects is unsaved; an object is asked for with
its own kind. -/
def World.Legal (w : World) : Op → Prop
  | .stage v _ _ isInode _ => isInode = true → v = true
  | .incref v i => (w.hq v).live i = true
  | .decref v i => (w.hq v).live i = true ∧ ((w.hq v).heap i).refcnt > 0
  | .write v i _ owner => (w.hq v).live i = true ∧ ((w.hq v).heap i).mapped = true ∧
      match owner with
      | some o => v = true ∧ (w.hq v).live o = true ∧ ((w.hq v).heap o).isInode = true
      | Option.none => ∀ o, ((w.hq v).heap i).dq = .own o →
          (w.hq v).live o = true ∧ ((w.hq v).heap o).isInode = true
  | .redirtify i => (w.hq true).live i = true ∧ ((w.hq true).heap i).mapped = true
  | .save v i => (w.hq v).live i = true ∧ ((w.hq v).heap i).inq = true
  | .forget v i => (w.hq v).live i = true ∧ (v = false → ((w.hq v).heap i).refcnt = 0) ∧
      (w.hq v).dq (.own i) = []
  | .opened i => (w.hq true).live i = true ∧ ((w.hq true).heap i).isInode = true
  | .closed i => (w.hq true).live i = true ∧ ((w.hq true).heap i).isInode = true ∧
      ((w.hq true).heap i).nopen > 0
  | .pin i => (w.hq true).live i = true
  | .unpin i => (w.hq true).live i = true
  | .relax _ _ => True
  | .drop => True

/-- An element in use: somebody refers to it, it holds unsaved changes, it is pinned, it is an open
file, or objects of it hold unsaved changes. -/
def HQ.InUse (h : HQ) (i : Nat) : Prop :=
  (h.heap i).refcnt > 0 ∨ (h.heap i).inq = true ∨ (h.heap i).pinned = true ∨
    ((h.heap i).isInode = true ∧ ((h.heap i).nopen > 0 ∨ ∃ j, j ∈ h.dq (.own i)))

/-- Requests one after another, each of them legal when made. -/
def World.LegalAll (w : World) : List Op → Prop
  | [] => True
  | op :: ops => w.Legal op ∧ (w.step op).2.LegalAll ops

/-- The answers (contents only) and the last state. -/
def World.run (w : World) : List Op → List (Option Nat) × World
  | [] => ([], w)
  | op :: ops => (((w.step op).1.map (·.2)) :: ((w.step op).2.run ops).1, ((w.step op).2.run ops).2)

/-- The same of the specification: requests are translated as the run goes. -/
def Mem.Runs (m : Mem) (w : World) : List Op → List (Option Nat) → Prop
  | [], outs => outs = []
  | op :: ops, outs => ∃ o rest, outs = o :: rest ∧ m.Answer (w.absOp op) o ∧
      (m.step (w.absOp op)).Runs (w.step op).2 ops rest

/-- An empty cache. -/
def World.init (hv hu : Nat → Nat) (nv nu : Nat) (store : Bool → Nat → Nat) : World :=
  ⟨⟨HQ.init true hv nv, HQ.init false hu nu⟩, store⟩

end Silofs.Lcache
