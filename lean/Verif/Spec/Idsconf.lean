import Verif.Model.Idsconf
/-
What a file of mappings is, independent of how it is parsed: lines of white space and comments, headers of
sections, and mappings of a name to a number.
-/
namespace Silofs.Idsconf

open Silofs.Ids (Ent)

/-- White space within a line. -/
def Blank (w : List Nat) : Prop := ∀ x ∈ w, x = 32 ∨ x = 9 ∨ x = 13 ∨ x = 11 ∨ x = 12

/-- Printed characters of a word at whose ends there is no white space; no `#`, no `=`, no end of line. -/
def Word (s : List Nat) : Prop :=
  s ≠ [] ∧ (∀ x ∈ s, 0 < x ∧ x < 128 ∧ x ≠ 10 ∧ x ≠ 35 ∧ x ≠ 61) ∧
  (∀ x ∈ s.head?, Silofs.Mnt.isWs x = false) ∧ (∀ x ∈ s.getLast?, Silofs.Mnt.isWs x = false)

/-- What may follow on a line: nothing, or a comment. -/
def Comment (c : List Nat) : Prop := c = [] ∨ ∃ t, c = 35 :: t ∧ ∀ x ∈ t, 0 < x ∧ x < 128 ∧ x ≠ 10

/-- A line of a file, without its end. -/
inductive Line where
  /-- White space and a comment. -/
  | blank (w c : List Nat)
  /-- `[users]` or `[groups]`, with white space around and within. -/
  | header (s : Sec) (w1 w2 w3 w4 c : List Nat)
  /-- `name = number`. -/
  | entry (name : List Nat) (v : Nat) (w1 w2 w3 w4 c : List Nat)

/-- The text of a line. -/
def Line.text : Line → List Nat
  | .blank w c => w ++ c
  | .header s w1 w2 w3 w4 c => w1 ++ (91 :: (w2 ++ secName s ++ w3 ++ [93])) ++ w4 ++ c
  | .entry name v w1 w2 w3 w4 c => w1 ++ (name ++ w2 ++ 61 :: (w3 ++ dec v)) ++ w4 ++ c

/-- The line is well formed. -/
def Line.Ok : Line → Prop
  | .blank w c => Blank w ∧ Comment c
  | .header s w1 w2 w3 w4 c => s ≠ .nil ∧ Blank w1 ∧ Blank w2 ∧ Blank w3 ∧ Blank w4 ∧ Comment c
  | .entry name v w1 w2 w3 w4 c =>
    Word name ∧ name.length < 256 ∧ v ≤ 1073741823 ∧ Blank w1 ∧ Blank w2 ∧ Blank w3 ∧ Blank w4 ∧ Comment c

/-- The text of a file. -/
def fileText (ls : List Line) : List Nat := ls.flatMap (fun l => l.text ++ [10])

/-- What the lines say: entries of the section they stand in, in order; `none` when a name is unknown or a
section is opened which is open already.  Lines before the first section say nothing. -/
def meaning (db : Db) : Sec → FsIds → List Line → Option FsIds
  | _, ids, [] => some ids
  | s, ids, .blank _ _ :: ls => meaning db s ids ls
  | s, ids, .header s' _ _ _ _ _ :: ls => if s' = s then none else meaning db s' ids ls
  | .nil, ids, .entry _ _ _ _ _ _ _ :: ls => meaning db .nil ids ls
  | .users, ids, .entry name v _ _ _ _ _ :: ls =>
    match uidByName db name with
    | none => none
    | some u => meaning db .users { ids with users := ids.users ++ [⟨v, u⟩] } ls
  | .groups, ids, .entry name v _ _ _ _ _ :: ls =>
    match gidByName db name with
    | none => none
    | some g => meaning db .groups { ids with groups := ids.groups ++ [⟨g, v⟩] } ls

/-- The databases of the host agree with themselves: an id which has a name is the id of that name, and names
are words. -/
structure Db.Ok (db : Db) : Prop where
  pw : ∀ u p, db.pwUid u = some p → p.uid = u ∧ db.pwName p.name = some p ∧ Word p.name
  gr : ∀ g p, db.grGid g = some p → p.gid = g ∧ db.grName p.name = some p ∧ Word p.name

/-- Every mapping the other way round. -/
def swap (e : Ent) : Ent := ⟨e.fs, e.host⟩

end Silofs.Idsconf
