/-
Model of the in-memory cache of free space ranges, lib/spxmap.c.

One `Cache` is one `struct silofs_spamap` (one per object kind).  The AVL tree
of ranges (lib/infra/avl.c) is represented by the list of its nodes in key
order; that the balanced tree behaves like this list is the subject of
`Verif.Model.Avl`.
-/
namespace Silofs.FreeCache

/-- include/silofs/spxmap.h:23-37.  `lifo` is `sal_lifo[0..sal_size)` with the
top of the stack first; `avl` is the in-order sequence of `(spe_voff, spe_len)`;
`speSize` is `sizeof(struct silofs_spa_entry)`, `capMax` is `spa_cap_max`.
Offsets are non-negative (`loff_t`), modelled as naturals. -/
structure Cache where
  lifo : List Nat := []
  avl : List (Nat × Nat) := []
  hint : Nat := 0
  ulen : Nat
  capMax : Nat
  speSize : Nat
deriving Repr, DecidableEq

/-- ARRAY_SIZE(sal_lifo), include/silofs/spxmap.h:24. -/
def LIFO_MAX : Nat := 63

/-- Return codes used by this file. -/
inductive Rc where
  | ok | enoent | enospc | enomem
deriving Repr, DecidableEq

/-- spalifo_pop_vspace + spamap_pop_vspace, lib/spxmap.c:47-56 and 277-303:
first the LIFO (only when the wanted length equals `sal_ulen`), then the head of
the minimal tree entry. -/
def pop (c : Cache) (len : Nat) : Option (Nat × Cache) :=
  match c.lifo, decide (c.ulen = len) with
  | off :: rest, true => some (off, { c with lifo := rest })
  | _, _ =>
    match c.avl with
    | [] => none
    | (o, l) :: tl =>
      if len > l then none
      else if len < l then some (o, { c with avl := (o + len, l - len) :: tl })
      else some (o, { c with avl := tl })

/-- Result of an `add`: the code and new cache, or undefined behaviour. -/
inductive AddRes where
  | done (rc : Rc) (c : Cache)
  | ub
deriving Repr, DecidableEq

/-- spalifo_add_vspace, lib/spxmap.c:59-70. -/
def lifoAdd (c : Cache) (off len : Nat) : Option Cache :=
  if ¬ (c.lifo.length < LIFO_MAX) ∨ c.ulen ≠ len then none
  else some { c with lifo := off :: c.lifo }

/-- Nodes with a key below `off` (left of `silofs_avl_lower_bound`),
spmap_find_next_prev, lib/spxmap.c:226-241. -/
def below (a : List (Nat × Nat)) (off : Nat) : List (Nat × Nat) :=
  a.takeWhile (fun e => e.1 < off)

/-- `silofs_avl_lower_bound` and its successors. -/
def above (a : List (Nat × Nat)) (off : Nat) : List (Nat × Nat) :=
  a.dropWhile (fun e => e.1 < off)

/-- silofs_avl_insert of a new node (after all nodes with key <= off). -/
def insertNode (a : List (Nat × Nat)) (off len : Nat) : List (Nat × Nat) :=
  a.takeWhile (fun e => e.1 ≤ off) ++ (off, len) :: a.dropWhile (fun e => e.1 ≤ off)

/-- spamap_merge_vspace, lib/spxmap.c:305-348.  `newOk` is the outcome of the
memory allocation in the "merge with next only" branch.  Returns the code and
the new node list. -/
def merge (a : List (Nat × Nat)) (off len : Nat) (newOk : Bool) : Rc × List (Nat × Nat) :=
  let lo := below a off
  let hi := above a off
  match lo.getLast?, hi with
  | some (po, pl), [] =>
    if po + pl = off then (.ok, lo.dropLast ++ [(po, pl + len)]) else (.enoent, a)
  | some (po, pl), (no, nl) :: tl =>
    if po + pl = off then
      if off + len = no then (.ok, lo.dropLast ++ (po, pl + len + nl) :: tl)
      else (.ok, lo.dropLast ++ (po, pl + len) :: (no, nl) :: tl)
    else if off + len = no then
      if newOk then (.ok, insertNode (lo ++ tl) off (len + nl)) else (.enomem, lo ++ tl)
    else (.enoent, a)
  | none, [] => (.enoent, a)
  | none, (no, nl) :: tl =>
    if off + len = no then
      if newOk then (.ok, insertNode tl off (len + nl)) else (.enomem, tl)
    else (.enoent, a)

/-- spamap_insert_vspace, lib/spxmap.c:350-375, with the outcomes of the two
memory allocations.  `spamap_delete_spe(spa, spe_max)` frees the maximal entry
without unlinking it from the tree, and the function then continues to use the
tree: undefined behaviour. -/
def insertVspace (c : Cache) (off len : Nat) (new1 : Bool) : AddRes :=
  if new1 then .done .ok { c with avl := insertNode c.avl off len }
  else match c.avl.getLast? with
    | none => .done .enomem c
    | some (mo, _) => if off > mo then .done .enomem c else .ub

/-- spamap_add_vspace / silofs_spamaps_store, lib/spxmap.c:377-398 and 520-531.
`newM`, `newI` are the outcomes of the memory allocations in the merge and
insert steps. -/
def add (c : Cache) (off len : Nat) (newM newI : Bool) : AddRes :=
  match lifoAdd c off len with
  | some c' => .done .ok c'
  | none =>
    match merge c.avl off len newM with
    | (.enoent, _) =>
      if c.avl.length * c.speSize < c.capMax then insertVspace c off len newI
      else .done .enomem c
    | (rc, a) => .done rc { c with avl := a }

/-- spamap_clear, lib/spxmap.c:428-437 (the hint survives). -/
def clear (c : Cache) : Cache := { c with lifo := [], avl := [] }

/-- Operations on one cache; `add` carries the allocation outcomes. -/
inductive Op where
  | add (off len : Nat) (newM newI : Bool)
  | pop (len : Nat)
  | clear
deriving Repr, DecidableEq

/-- One operation; second component is the range handed out. `none` is undefined
behaviour. -/
def step (c : Cache) : Op → Option (Cache × Option (Nat × Nat))
  | .add off len m i =>
    match add c off len m i with
    | .done _ c' => some (c', none)
    | .ub => none
  | .pop len =>
    match pop c len with
    | some (off, c') => some (c', some (off, len))
    | none => some (c, none)
  | .clear => some (clear c, none)

end Silofs.FreeCache
