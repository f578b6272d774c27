import Verif.Model.Linklist
/-
What linked lists are for: finite sequences, one for each list, told apart from any memory.
-/
namespace Silofs.Lk

variable {α : Type} [DecidableEq α]

/-- Each list is a sequence. -/
abbrev Seqs (α : Type) := α → List α

def Seqs.upd (L : Seqs α) (h : α) (l : List α) : Seqs α := fun a => if a = h then l else L a

/-- The neighbour behind (before) `x`. -/
def after : List α → α → Option α
  | a :: b :: l, x => if a = x then some b else after (b :: l) x
  | _, _ => none

def before : List α → α → Option α
  | a :: b :: l, x => if b = x then some a else before (b :: l) x
  | _, _ => none

def Seqs.step (L : Seqs α) : Op α → Ans α × Seqs α
  | .pushFront h x => (.unit, L.upd h (x :: L h))
  | .pushBack h x => (.unit, L.upd h (L h ++ [x]))
  | .popFront h => (.ptr (L h).head?, L.upd h (L h).tail)
  | .popBack h => (.ptr (L h).getLast?, L.upd h (L h).dropLast)
  | .remove h x => (.unit, L.upd h ((L h).erase x))
  | .front h => (.ptr (L h).head?, L)
  | .back h => (.ptr (L h).getLast?, L)
  | .next h x => (.ptr (after (L h) x), L)
  | .prev h x => (.ptr (before (L h) x), L)
  | .size h => (.num (L h).length, L)
  | .isempty h => (.bool (L h).isEmpty, L)

def Seqs.run (L : Seqs α) : List (Op α) → List (Ans α) × Seqs α
  | [] => ([], L)
  | o :: os => ((L.step o).1 :: ((L.step o).2.run os).1, ((L.step o).2.run os).2)

/-- How lists may be used, `H` being the heads of lists: a link is put in a list only when in none; it is taken out of
the list it is in; neighbours are asked of what is in the list. -/
def Seqs.Legal (H : α → Prop) (L : Seqs α) : Op α → Prop
  | .pushFront h x => H h ∧ ¬ H x ∧ ∀ a, H a → x ∉ L a
  | .pushBack h x => H h ∧ ¬ H x ∧ ∀ a, H a → x ∉ L a
  | .remove h x => H h ∧ x ∈ L h
  | .next h x => H h ∧ x ∈ L h
  | .prev h x => H h ∧ x ∈ L h
  | .popFront h => H h
  | .popBack h => H h
  | .front h => H h
  | .back h => H h
  | .size h => H h
  | .isempty h => H h

def Seqs.LegalAll (H : α → Prop) (L : Seqs α) : List (Op α) → Prop
  | [] => True
  | o :: os => L.Legal H o ∧ (L.step o).2.LegalAll H os

/-- What is met from `p` on, forwards, till the head `hd` comes again; at most `n` links. -/
def fwd (m : Mem α) (hd : α) : Nat → Option α → List α
  | 0, _ => []
  | _ + 1, none => []
  | n + 1, some a => if a = hd then [] else a :: fwd m hd n (m.lnk a).next

/-- The same backwards. -/
def bwd (m : Mem α) (hd : α) : Nat → Option α → List α
  | 0, _ => []
  | _ + 1, none => []
  | n + 1, some a => if a = hd then [] else a :: bwd m hd n (m.lnk a).prev

end Silofs.Lk
