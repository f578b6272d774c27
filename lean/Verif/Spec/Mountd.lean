import Verif.Model.Mountd
/-
What users may expect of a service they share with others.
-/
namespace Silofs.Md

open Silofs.Mnt (Resp Sys)

/-- A client which sends no descriptors, or just one with a message of some length. -/
def Tame (c : Conn) : Prop :=
  c.nfds = 0 ∨ (c.nfds = 1 ∧ c.badClose = false ∧ 56 ≤ (c.bytes.take 2048).length)

/-- One which, in addition, has said all it has to say: a whole message, or its end, or a descriptor with it. -/
def Polite (c : Conn) : Prop := Tame c ∧ (2048 ≤ c.bytes.length ∨ c.ends = true ∨ 1 ≤ c.nfds)

/-- Every client that shows up is tame. -/
def TameAll (l : List Happen) : Prop := ∀ c, Happen.arrive c ∈ l → Tame c

/-- Clients which showed up. -/
def Came (l : List Happen) (id uid gid : Nat) : Prop :=
  ∃ c, Happen.arrive c ∈ l ∧ c.id = id ∧ c.uid = uid ∧ c.gid = gid

/-- Somebody was answered, or something done for somebody. -/
def Serves : Ev → Prop
  | .did _ _ => True
  | .answered _ _ => True
  | .lost _ _ => True
  | .dropped _ => False

/-- A file-system was mounted. -/
def Mounts : Ev → Prop
  | .did _ (_, .mount _ _ _) => True
  | _ => False

end Silofs.Md
