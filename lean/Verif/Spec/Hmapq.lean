import Verif.Model.Hmapq
import Verif.Spec.Lcache
import Verif.Spec.Linklist
/-
What is expected of the cache in linked memory, in terms of what is in memory: requests and their meaning, as in
`Verif.Spec.Lcache`, and walks along the links.
-/
namespace Silofs.Hmq
open Silofs.Lk (fwd bwd)
open Silofs.Lcache (Dq Elem Op MOp)

/-- An empty cache. -/
def World.init (hv hu : Nat → Nat) (nv nu : Nat) (store : Bool → Nat → Nat) : World :=
  ⟨⟨PQ.init true hv nv, PQ.init false hu nu⟩, store⟩

/-- What callers must respect (see `Silofs.Lcache.World.Legal`). -/
def World.Legal (w : World) : Op → Prop
  | .stage v _ _ isInode _ => isInode = true → v = true
  | .incref v i => (w.hq v).live i = true
  | .decref v i => (w.hq v).live i = true ∧ ((w.hq v).heap i).refcnt > 0
  | .write v i _ owner => (w.hq v).live i = true ∧ ((w.hq v).heap i).mapped = true ∧
      match owner with
      | some o => v = true ∧ (w.hq v).live o = true ∧ ((w.hq v).heap o).isInode = true
      | Option.none => ∀ o, ((w.hq v).heap i).dq = .own o →
          (w.hq v).live o = true ∧ ((w.hq v).heap o).isInode = true
  | .redirtify i => (w.hq true).live i = true ∧ ((w.hq true).heap i).mapped = true
  | .save v i => (w.hq v).live i = true ∧ ((w.hq v).heap i).inq = true
  | .forget v i => (w.hq v).live i = true ∧ (v = false → ((w.hq v).heap i).refcnt = 0) ∧
      ∀ j, (w.hq v).live j = true → ((w.hq v).heap j).inq = true → ((w.hq v).heap j).dq ≠ .own i
  | .opened i => (w.hq true).live i = true ∧ ((w.hq true).heap i).isInode = true
  | .closed i => (w.hq true).live i = true ∧ ((w.hq true).heap i).isInode = true ∧
      ((w.hq true).heap i).nopen > 0
  | .pin i => (w.hq true).live i = true
  | .unpin i => (w.hq true).live i = true
  | .relax _ _ => True
  | .drop => True

def World.LegalAll (w : World) : List Op → Prop
  | [] => True
  | op :: ops => w.Legal op ∧ (w.step op).2.LegalAll ops

/-- The answers (address and content) and the last state. -/
def World.run (w : World) : List Op → List (Option (Nat × Nat)) × World
  | [] => ([], w)
  | op :: ops => ((w.step op).1 :: ((w.step op).2.run ops).1, ((w.step op).2.run ops).2)

/-- What a request to the cache means. -/
def World.absOp (w : World) : Op → MOp
  | .stage v k _ _ _ => .read v k
  | .write v i d _ => .write v ((w.hq v).heap i).key d
  | .save v i => .save v ((w.hq v).heap i).key
  | .forget v i => if ((w.hq v).heap i).mapped then .discard v ((w.hq v).heap i).key else .none
  | _ => .none

/-- The answers are those of one current and one stored content of each object. -/
def Runs (m : Silofs.Lcache.Mem) (w : World) : List Op → List (Option (Nat × Nat)) → Prop
  | [], outs => outs = []
  | op :: ops, outs => ∃ o rest, outs = o :: rest ∧ m.Answer (w.absOp op) (o.map (·.2)) ∧
      Runs (m.step (w.absOp op)) (w.step op).2 ops rest

/-- Following the links from head `hd` meets `l`, in that order, and in the reverse order backwards, and is back at the
head after that. -/
def PQ.Holds (p : PQ) (hd : Addr) (l : List Addr) : Prop :=
  ∀ n, l.length < n → fwd p.mem hd n (p.mem.lnk hd).next = l ∧ bwd p.mem hd n (p.mem.lnk hd).prev = l.reverse

end Silofs.Hmq
