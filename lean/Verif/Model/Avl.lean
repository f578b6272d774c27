/-
The balanced tree of lib/infra/avl.c.

Nodes are linked by pointers to children and parent.  Here a node with its place in the tree is a pair of the subtree
at it and the path of its ancestors (innermost first), so that following `parent` is taking the head of the path, and
`x == *root` is an empty path.  Relinking the three pointers of a rotation is one step.  Elements are identified by their
value (`α`), which stands for the address of the node; keys are compared by `cmp`, whose sign is that of the C function:
positive if the first key is the smaller one (spxmap.c:72-78).  `none` as result of a function on trees stands for the
panic of `avl_node_verify` on a null node (avl.c:60-87).
-/
namespace Silofs.Avl

/-- include/silofs/infra/avl.h `struct silofs_avl_node` -/
inductive T (α : Type) where
  | nil
  | node (l : T α) (b : Int) (a : α) (r : T α)
  deriving Repr

/-- One ancestor: whether the path goes on to its left child, its balance, itself, and its other child. -/
structure Frame (α : Type) where
  left : Bool
  b : Int
  a : α
  other : T α

abbrev Path (α : Type) := List (Frame α)

variable {α κ : Type}

def T.isNil : T α → Bool
  | .nil => true
  | .node .. => false

/-- `x->balance` of a node; of no node it is never read -/
def T.bal : T α → Int
  | .nil => 0
  | .node _ b _ _ => b

/-- The node of a frame with balance `b`, holding `x` at the hole -/
def Frame.fill (f : Frame α) (b : Int) (x : T α) : T α :=
  if f.left then .node x b f.a f.other else .node f.other b f.a x

/-- The whole tree -/
def plug (x : T α) : Path α → T α
  | [] => x
  | f :: p => plug (f.fill f.b x) p

/-- The elements from left to right -/
def T.list : T α → List α
  | .nil => []
  | .node l _ a r => l.list ++ a :: r.list

/-! ### Rotations -/

/-- avl.c:325-342 `avl_rotate_left` with 186-206 -/
def rotL : T α → Option (T α)
  | .node l _ x (.node yl yb y yr) =>
    if yb = 1 then some (.node (.node l 0 x yl) 0 y yr)
    else some (.node (.node l 1 x yl) (-1) y yr)
  | _ => none

/-- avl.c:344-361 `avl_rotate_right` with 208-228 -/
def rotR : T α → Option (T α)
  | .node (.node yl yb y yr) _ x r =>
    if yb = -1 then some (.node yl 0 y (.node yr 0 x r))
    else some (.node yl 1 y (.node yr (-1) x r))
  | _ => none

/-- avl.c:363-379 `avl_rotate_left_right` with 230-261 -/
def rotLR : T α → Option (T α)
  | .node (.node d _ b (.node e cb c f)) _ a g =>
    some (.node (.node d (if cb = 1 then -1 else 0) b e) 0 c (.node f (if cb = -1 then 1 else 0) a g))
  | _ => none

/-- avl.c:381-397 `avl_rotate_right_left` with 263-293 -/
def rotRL : T α → Option (T α)
  | .node d _ a (.node (.node e cb c f) _ b g) =>
    some (.node (.node d (if cb = 1 then -1 else 0) a e) 0 c (.node f (if cb = -1 then 1 else 0) b g))
  | _ => none

/-! ### Insertion -/

/-- avl.c:403-447 `avl_insert_fixup` -/
def insertFixup (x : T α) : Path α → Option (T α)
  | [] => some x
  | f :: p =>
    if f.b = 1 then
      if f.left then some (plug (f.fill 0 x) p)
      else if x.bal = -1 then (rotRL (f.fill f.b x)).map (plug · p)
      else (rotL (f.fill f.b x)).map (plug · p)
    else if f.b = -1 then
      if f.left then
        if x.bal = 1 then (rotLR (f.fill f.b x)).map (plug · p)
        else (rotR (f.fill f.b x)).map (plug · p)
      else some (plug (f.fill 0 x) p)
    else insertFixup (f.fill (if f.left then -1 else 1) x) p

/-- avl.c:757-780 `avl_search_leaf_ipos`: equal keys go to the right -/
def searchLeaf (cmp : κ → κ → Int) (key : α → κ) (z : α) : T α → Path α → Path α
  | .nil, p => p
  | .node l b a r, p =>
    if cmp (key a) (key z) < 0 then searchLeaf cmp key z l (⟨true, b, a, r⟩ :: p)
    else searchLeaf cmp key z r (⟨false, b, a, l⟩ :: p)

/-- avl.c:730-755 `avl_search_uniq_ipos`; `none`: not unique -/
def searchUniq (cmp : κ → κ → Int) (key : α → κ) (z : α) : T α → Path α → Option (Path α)
  | .nil, p => some p
  | .node l b a r, p =>
    if cmp (key a) (key z) > 0 then searchUniq cmp key z r (⟨false, b, a, l⟩ :: p)
    else if cmp (key a) (key z) < 0 then searchUniq cmp key z l (⟨true, b, a, r⟩ :: p)
    else none

/-! ### Deletion -/

/-- `x == x_parent->left` for `x` at the hole of the frame: null pointers are equal -/
def Frame.isLeft (f : Frame α) (x : T α) : Bool := f.left || (x.isNil && f.other.isNil)
/-- `x == x_parent->right` -/
def Frame.isRight (f : Frame α) (x : T α) : Bool := !f.left || (x.isNil && f.other.isNil)

/-- avl.c:449-504 `avl_delete_fixup` -/
def deleteFixup (x : T α) : Path α → Option (T α)
  | [] => some x
  | f :: p =>
    if f.b = 0 then some (plug (f.fill (if f.isRight x then -1 else 1) x) p)
    else if f.b = -1 then
      if f.isLeft x then deleteFixup (f.fill 0 x) p
      else
        match (if f.other.bal = 1 then rotLR (f.fill f.b x) else rotR (f.fill f.b x)) with
        | none => none
        | some y => if y.bal = 1 then some (plug y p) else deleteFixup y p
    else
      if f.isRight x then deleteFixup (f.fill 0 x) p
      else
        match (if f.other.bal = -1 then rotRL (f.fill f.b x) else rotL (f.fill f.b x)) with
        | none => none
        | some y => if y.bal = -1 then some (plug y p) else deleteFixup y p

/-- avl.c:141-148 `bst_minimum`: the leftmost node of a subtree (its element and right child) with its path -/
def minimum : T α → Path α → Option (α × T α × Path α)
  | .nil, _ => none
  | .node .nil _ a r, p => some (a, r, p)
  | .node l b a r, p => minimum l (⟨true, b, a, r⟩ :: p)

/-- avl.c:508-572 `avl_delete` of the node with children `l`, `r` and balance `b` at path `p`: a node with two children
is replaced by its successor, which takes over its balance. -/
def delete (l : T α) (b : Int) (r : T α) (p : Path α) : Option (T α) :=
  if l.isNil then deleteFixup r p
  else if r.isNil then deleteFixup l p
  else
    match minimum r [] with
    | none => none
    | some (y, yr, q) => deleteFixup yr (q ++ ⟨false, b, y, l⟩ :: p)

/-! ### Walking -/

/-- avl.c:150-157 `bst_maximum` -/
def maxOf : T α → Option α
  | .nil => none
  | .node _ _ a .nil => some a
  | .node _ _ _ r => maxOf r

def minOf : T α → Option α
  | .nil => none
  | .node .nil _ a _ => some a
  | .node l _ _ _ => minOf l

/-- avl.c:167-172: up while being a right child; the first ancestor reached from its left -/
def upRight : Path α → Option α
  | [] => none
  | f :: p => if f.left then some f.a else upRight p

/-- avl.c:184-189: up while being a left child -/
def upLeft : Path α → Option α
  | [] => none
  | f :: p => if f.left then upLeft p else some f.a

/-- avl.c:159-174 `bst_successor` of the node with right child `r` at path `p` -/
def succ (r : T α) (p : Path α) : Option α := if r.isNil then upRight p else minOf r

/-- avl.c:176-191 `bst_predecessor` of the node with left child `l` at path `p` -/
def pred (l : T α) (p : Path α) : Option α := if l.isNil then upLeft p else maxOf l

/-- The place of an element: its children, balance and path.  (In C the node itself.) -/
def locate [DecidableEq α] (z : α) : T α → Path α → Option (T α × Int × T α × Path α)
  | .nil, _ => none
  | .node l b a r, p =>
    if a = z then some (l, b, r, p)
    else
      match locate z l (⟨true, b, a, r⟩ :: p) with
      | some x => some x
      | none => locate z r (⟨false, b, a, l⟩ :: p)

/-! ### Search -/

/-- avl.c:1115-1132 `avl_find` -/
def find (cmp : κ → κ → Int) (key : α → κ) (k : κ) : T α → Option α
  | .nil => none
  | .node l _ a r =>
    if cmp (key a) k < 0 then find cmp key k l
    else if cmp (key a) k > 0 then find cmp key k r
    else some a

/-- avl.c:1050-1063 `avl_lower_bound` -/
def lowerBound (cmp : κ → κ → Int) (key : α → κ) (k : κ) : T α → Option α → Option α
  | .nil, y => y
  | .node l _ a r, y =>
    if ¬ cmp (key a) k > 0 then lowerBound cmp key k l (some a)
    else lowerBound cmp key k r y

/-- avl.c:1066-1079 `avl_upper_bound` -/
def upperBound (cmp : κ → κ → Int) (key : α → κ) (k : κ) : T α → Option α → Option α
  | .nil, y => y
  | .node l _ a r, y =>
    if cmp k (key a) > 0 then upperBound cmp key k l (some a)
    else upperBound cmp key k r y

/-- avl.c:1081-1113 `avl_equal_range`; `none` is the end -/
def equalRange (cmp : κ → κ → Int) (key : α → κ) (k : κ) : T α → Option α → Option α × Option α
  | .nil, _ => (none, none)
  | .node l _ a r, y =>
    if cmp (key a) k > 0 then equalRange cmp key k r y
    else if cmp (key a) k < 0 then equalRange cmp key k l (some a)
    else (lowerBound cmp key k l (some a), upperBound cmp key k r y)

/-! ### The container -/

/-- include/silofs/infra/avl.h `struct silofs_avl`: `head.parent`, `head.left`, `head.right` are root, least and greatest
node. -/
structure Avl (α : Type) where
  root : T α
  min : Option α
  max : Option α
  size : Nat

/-- avl.c:1302-1310 `silofs_avl_init` -/
def Avl.empty : Avl α := ⟨.nil, none, none, 0⟩

/-- Successor and predecessor of an element of the tree -/
def T.next [DecidableEq α] (t : T α) (z : α) : Option α :=
  match locate z t [] with
  | some (_, _, r, p) => succ r p
  | none => none
def T.prev [DecidableEq α] (t : T α) (z : α) : Option α :=
  match locate z t [] with
  | some (l, _, _, p) => pred l p
  | none => none

/-- avl.c:805-823 `avl_post_insert_fixup` -/
def postInsert [DecidableEq α] (t : T α) (min max : Option α) (n : Nat) : Avl α where
  root := t
  min := match min with
    | none => none
    | some m => match t.prev m with
      | none => some m
      | some m' => some m'
  max := match max with
    | none => none
    | some m => match t.next m with
      | none => some m
      | some m' => some m'
  size := n + 1

/-- avl.c:843-860 `avl_insert` with `unique` unset (silofs_avl_insert) -/
def Avl.insert [DecidableEq α] (cmp : κ → κ → Int) (key : α → κ) (z : α) (v : Avl α) : Option (Avl α) :=
  if v.size = 0 then some ⟨.node .nil 0 z .nil, some z, some z, v.size + 1⟩
  else
    match insertFixup (.node .nil 0 z .nil) (searchLeaf cmp key z v.root []) with
    | none => none
    | some t => some (postInsert t v.min v.max v.size)

/-- The same with `unique` set (silofs_avl_insert_unique): the flag says whether it was inserted. -/
def Avl.insertUniq [DecidableEq α] (cmp : κ → κ → Int) (key : α → κ) (z : α) (v : Avl α) : Option (Avl α × Bool) :=
  if v.size = 0 then some (⟨.node .nil 0 z .nil, some z, some z, v.size + 1⟩, true)
  else
    match searchUniq cmp key z v.root [] with
    | none => some (v, false)
    | some p =>
      match insertFixup (.node .nil 0 z .nil) p with
      | none => none
      | some t => some (postInsert t v.min v.max v.size, true)

/-- avl.c:902-909 `avl_remove` with 879-900 -/
def Avl.remove [DecidableEq α] (z : α) (v : Avl α) : Option (Avl α) :=
  if v.size > 1 then
    match locate z v.root [] with
    | none => none
    | some (l, b, r, p) =>
      match delete l b r p with
      | none => none
      | some t => some {
          root := t
          min := if v.min = some z then succ r p else v.min
          max := if v.max = some z then pred l p else v.max
          size := v.size - 1 }
  else some .empty

/-- avl.c:919-950 `avl_unlinkall`: one turn of the loop.  State: the node `x` with its path, and the list. -/
def unlinkStep (s : T α × Path α × List α) : T α × Path α × List α :=
  match s with
  | (.nil, p, acc) => (.nil, p, acc)
  | (.node (.node l b a r) b' a' r', p, acc) => (.node l b a r, ⟨true, b', a', r'⟩ :: p, acc)
  | (.node .nil b' a' (.node l b a r), p, acc) => (.node l b a r, ⟨false, b', a', .nil⟩ :: p, acc)
  | (.node .nil _ a .nil, p, acc) =>
    match p with
    | [] => (.nil, [], a :: acc)
    | f :: p => (f.fill f.b .nil, p, a :: acc)

/-- The loop, for a number of turns -/
def unlinkLoop : Nat → T α × Path α × List α → T α × Path α × List α
  | 0, s => s
  | n + 1, s => unlinkLoop n (unlinkStep s)

/-- avl.c:987-992 `silofs_avl_clear`: the nodes that were visited -/
def Avl.clear (v : Avl α) (turns : Nat) : Avl α × List α :=
  (.empty, (unlinkLoop turns (v.root, [], [])).2.2)

/-- avl.c:583-599 `avl_begin`, and 623-640 `avl_next` up to the end: the elements in the order of an iteration -/
def walk [DecidableEq α] (t : T α) : Nat → Option α → List α
  | 0, _ => []
  | _, none => []
  | n + 1, some x => x :: walk t n (t.next x)

end Silofs.Avl
