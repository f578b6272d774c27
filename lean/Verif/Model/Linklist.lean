/-
Model of the doubly linked lists which live within the objects they link: `include/silofs/infra/list.h`,
`lib/infra/list.c`.

Memory is a function from addresses of links (`α`) to the two pointers kept there; `none` is the null pointer. An
access through the null pointer sets `bad` for ever (undefined behaviour; the process is killed).
-/
namespace Silofs.Lk

/-- include/silofs/infra/list.h:26-29 `struct silofs_list_head` -/
structure Link (α : Type) where
  prev : Option α
  next : Option α
deriving DecidableEq

structure Mem (α : Type) where
  lnk : α → Link α
  bad : Bool

variable {α : Type} [DecidableEq α]

/-- `p->next = v` -/
def Mem.setNext (m : Mem α) (p v : Option α) : Mem α :=
  match p with
  | none => { m with bad := true }
  | some a => { m with lnk := fun b => if b = a then { m.lnk b with next := v } else m.lnk b }

/-- `p->prev = v` -/
def Mem.setPrev (m : Mem α) (p v : Option α) : Mem α :=
  match p with
  | none => { m with bad := true }
  | some a => { m with lnk := fun b => if b = a then { m.lnk b with prev := v } else m.lnk b }

/-- include/silofs/infra/list.h:102-108 `silofs_list_head_set` -/
def Mem.set (m : Mem α) (lh : α) (prv nxt : Option α) : Mem α :=
  (m.setNext (some lh) nxt).setPrev (some lh) prv

/-- include/silofs/infra/list.h:110-117 `silofs_list_head_insert` -/
def Mem.insert (m : Mem α) (lh : α) (prv nxt : Option α) : Mem α :=
  ((m.set lh prv nxt).setPrev nxt (some lh)).setNext prv (some lh)

/-- include/silofs/infra/list.h:119-124 `silofs_list_head_insert_after` -/
def Mem.insertAfter (m : Mem α) (prv lh : α) : Mem α := m.insert lh (some prv) (m.lnk prv).next

/-- include/silofs/infra/list.h:126-131 `silofs_list_head_insert_before` -/
def Mem.insertBefore (m : Mem α) (lh nxt : α) : Mem α := m.insert lh (m.lnk nxt).prev (some nxt)

/-- include/silofs/infra/list.h:133-141 `silofs_list_head_remove` -/
def Mem.remove (m : Mem α) (lh : α) : Mem α :=
  ((m.setPrev (m.lnk lh).next (m.lnk lh).prev).setNext (m.lnk lh).prev (m.lnk lh).next).set lh (some lh) (some lh)

/-- include/silofs/infra/list.h:143-146 `silofs_list_head_init`; lib/infra/list.c:36-39 `silofs_list_init` -/
def Mem.init (m : Mem α) (lh : α) : Mem α := m.set lh (some lh) (some lh)

/-- include/silofs/infra/list.h:148-151 `silofs_list_head_fini`; lib/infra/list.c:41-44 `silofs_list_fini` -/
def Mem.fini (m : Mem α) (lh : α) : Mem α := m.set lh none none

/-- lib/infra/list.c:46-50 `silofs_list_push_front` -/
def Mem.pushFront (m : Mem α) (lst lnk : α) : Mem α := m.insertAfter lst lnk

/-- lib/infra/list.c:52-56 `silofs_list_push_back` -/
def Mem.pushBack (m : Mem α) (lst lnk : α) : Mem α := m.insertBefore lnk lst

/-- lib/infra/list.c:58-61 `silofs_list_front` -/
def Mem.front (m : Mem α) (lst : α) : Option α := (m.lnk lst).next

/-- lib/infra/list.c:63-66 `silofs_list_back` -/
def Mem.back (m : Mem α) (lst : α) : Option α := (m.lnk lst).prev

/-- `silofs_list_head_remove` by pointer. -/
def Mem.removeP (m : Mem α) : Option α → Mem α
  | none => { m with bad := true }
  | some a => m.remove a

/-- lib/infra/list.c:68-79 `silofs_list_pop_front` -/
def Mem.popFront (m : Mem α) (lst : α) : Option α × Mem α :=
  if m.front lst ≠ some lst then (m.front lst, m.removeP (m.front lst)) else (none, m)

/-- lib/infra/list.c:81-92 `silofs_list_pop_back` -/
def Mem.popBack (m : Mem α) (lst : α) : Option α × Mem α :=
  if m.back lst ≠ some lst then (m.back lst, m.removeP (m.back lst)) else (none, m)

/-- lib/infra/list.c:94-97 `silofs_list_isempty` -/
def Mem.isEmpty (m : Mem α) (lst : α) : Bool := decide ((m.lnk lst).next = some lst)

/-! ### Lists with a count (`struct silofs_listq`) -/

/-- `sz--` of a `size_t`. -/
def dec (n : Nat) : Nat := if n = 0 then 2 ^ 64 - 1 else n - 1

/-- lib/infra/list.c:180-188 `silofs_listq_front` -/
def Mem.qfront (m : Mem α) (sz : Nat) (lst : α) : Option α := if sz > 0 then m.front lst else none

/-- lib/infra/list.c:190-198 `silofs_listq_back` -/
def Mem.qback (m : Mem α) (sz : Nat) (lst : α) : Option α := if sz > 0 then m.back lst else none

/-- lib/infra/list.c:158-167 `silofs_listq_pop_front` -/
def Mem.qpopFront (m : Mem α) (sz : Nat) (lst : α) : Option α × Nat × Mem α :=
  if sz > 0 then ((m.popFront lst).1, sz - 1, (m.popFront lst).2) else (none, sz, m)

/-- lib/infra/list.c:169-178 `silofs_listq_pop_back` -/
def Mem.qpopBack (m : Mem α) (sz : Nat) (lst : α) : Option α × Nat × Mem α :=
  if sz > 0 then ((m.popBack lst).1, sz - 1, (m.popBack lst).2) else (none, sz, m)

/-- lib/infra/list.c:200-209 `silofs_listq_next` -/
def Mem.qnext (m : Mem α) (sz : Nat) (lst lnk : α) : Option α :=
  if sz > 0 ∧ (m.lnk lnk).next ≠ some lst then (m.lnk lnk).next else none

/-- lib/infra/list.c:211-220 `silofs_listq_prev` -/
def Mem.qprev (m : Mem α) (sz : Nat) (lst lnk : α) : Option α :=
  if sz > 0 ∧ (m.lnk lnk).prev ≠ some lst then (m.lnk lnk).prev else none

/-! ### Many lists in one memory -/

/-- What is asked of lists: `h` names a list (`struct silofs_listq`), `x` an object's link. -/
inductive Op (α : Type) where
  | pushFront (h x : α)
  | pushBack (h x : α)
  | popFront (h : α)
  | popBack (h : α)
  | remove (h x : α)
  | front (h : α)
  | back (h : α)
  | next (h x : α)
  | prev (h x : α)
  | size (h : α)
  | isempty (h : α)

/-- The answer: nothing, a pointer, a number, a truth value. -/
inductive Ans (α : Type) where
  | unit
  | ptr (p : Option α)
  | num (n : Nat)
  | bool (b : Bool)
deriving DecidableEq

/-- Links, and the count of each list. -/
structure St (α : Type) where
  mem : Mem α
  sz : α → Nat

/-- lib/infra/list.c:101-105 `silofs_listq_init` of each list, `silofs_list_head_init` of each object's link. -/
def St.init : St α := ⟨⟨fun a => ⟨some a, some a⟩, false⟩, fun _ => 0⟩

def St.setSz (s : St α) (h : α) (n : Nat) (m : Mem α) : St α :=
  ⟨m, fun a => if a = h then n else s.sz a⟩

/-- One call: lib/infra/list.c:137-142 `silofs_listq_remove`, 144-149 `silofs_listq_push_front`, 151-156
`silofs_listq_push_back`, 127-130 `silofs_listq_size`, 132-135 `silofs_listq_isempty`, and the above. -/
def St.step (s : St α) : Op α → Ans α × St α
  | .pushFront h x => (.unit, s.setSz h (s.sz h + 1) (s.mem.pushFront h x))
  | .pushBack h x => (.unit, s.setSz h (s.sz h + 1) (s.mem.pushBack h x))
  | .popFront h =>
    (.ptr (s.mem.qpopFront (s.sz h) h).1, s.setSz h (s.mem.qpopFront (s.sz h) h).2.1 (s.mem.qpopFront (s.sz h) h).2.2)
  | .popBack h =>
    (.ptr (s.mem.qpopBack (s.sz h) h).1, s.setSz h (s.mem.qpopBack (s.sz h) h).2.1 (s.mem.qpopBack (s.sz h) h).2.2)
  | .remove h x => (.unit, s.setSz h (dec (s.sz h)) (s.mem.remove x))
  | .front h => (.ptr (s.mem.qfront (s.sz h) h), s)
  | .back h => (.ptr (s.mem.qback (s.sz h) h), s)
  | .next h x => (.ptr (s.mem.qnext (s.sz h) h x), s)
  | .prev h x => (.ptr (s.mem.qprev (s.sz h) h x), s)
  | .size h => (.num (s.sz h), s)
  | .isempty h => (.bool (decide (s.sz h = 0)), s)

def St.run (s : St α) : List (Op α) → List (Ans α) × St α
  | [] => ([], s)
  | o :: os => ((s.step o).1 :: ((s.step o).2.run os).1, ((s.step o).2.run os).2)

end Silofs.Lk
