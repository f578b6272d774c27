import Verif.Spec.Fsck
import Verif.Props.PackCases
/-
C45: an export which meets a space map that is not stored does not succeed.
-/
set_option linter.unusedSimpArgs false
set_option linter.unusedVariables false
namespace Silofs.Pack
open Silofs Silofs.Addr

/-- Blocks of space maps as they are, without verification. -/
abbrev raw (slots : Nat → Bytes → List (Option Laddr)) : Fk.Env := ⟨slots, fun _ _ _ => true⟩

theorem loop_lost {t : Laddr → Ex → Ex × Option Err} {c : Laddr} (ht : ∀ x, (t c x).2 = some .other) (l : List (Option Laddr)) :
    c ∈ Fk.front l → ∀ x, (loop t l x).2 = some .other := by
  induction l with
  | nil => intro h; cases h
  | cons o l ih =>
    intro h x
    cases o with
    | none => cases h
    | some a =>
      have h : c ∈ a :: Fk.front l := h
      unfold loop
      rcases List.mem_cons.1 h with rfl | h
      · have e := ht x
        generalize t c x = z at e
        obtain ⟨z1, z2⟩ := z
        have e : z2 = some .other := e
        subst e
        rfl
      · generalize t a x = z
        obtain ⟨z1, z2⟩ := z
        cases z2 with
        | none => exact ih h z1
        | some er =>
          cases er with
          | noent => exact ih h z1
          | other => rfl

theorem trav_lost {slots : Nat → Bytes → List (Option Laddr)} {r : Repo} (f : Laddr → Ex → Ex × Option Err) {d j : Nat} {a k : Laddr}
    (h : Fk.Met (raw slots) r d a j k) {er : Err} (hk : r.read k = .error er) : ∀ x, (trav slots r f d a x).2 = some .other := by
  induction h with
  | @self d a =>
    intro x
    cases d with
    | zero => unfold trav; rw [hk]
    | succ d => unfold trav; rw [hk]
  | @down d a l c j k hm hc hd ih =>
    intro x
    have ih := ih hk
    unfold Fk.Env.map at hm
    split at hm
    · cases hm
    · next b hb =>
      have hm : some (slots (d + 1) b) = some l := hm
      cases hm
      unfold trav
      rw [hb]
      have e := loop_lost ih (slots (d + 1) b) hc x
      show (match loop (trav slots r f d) (slots (d + 1) b) x with
        | (x', some e) => (x', some e)
        | (x', none) => cbList f (lmap (slots (d + 1) b)) x').2 = _
      generalize loop (trav slots r f d) (slots (d + 1) b) x = z at e
      obtain ⟨z1, z2⟩ := z
      have e : z2 = some .other := e
      subst e
      rfl

theorem spaces_lost {t : Laddr → Ex → Ex × Option Err} {c : Laddr} (ht : ∀ x, (t c x).2 = some .other) (l : List (Option Laddr)) :
    some c ∈ l → ∀ x, (spaces t l x).2 = some .other := by
  induction l with
  | nil => intro h; cases h
  | cons o l ih =>
    intro h x
    cases o with
    | none =>
      rcases List.mem_cons.1 h with e | h
      · cases e
      · unfold spaces; exact ih h x
    | some a =>
      unfold spaces
      rcases List.mem_cons.1 h with e | h
      · cases e
        have e := ht x
        generalize t c x = z at e
        obtain ⟨z1, z2⟩ := z
        have e : z2 = some .other := e
        subst e
        rfl
      · generalize t a x = z
        obtain ⟨z1, z2⟩ := z
        cases z2 with
        | none => exact ih h z1
        | some er =>
          cases er with
          | noent => exact ih h z1
          | other => rfl

/-- **C45**: whatever else is or is not in the repository: if a space map which the walk comes to (over children with no gap before
them) cannot be read, the export fails: no address of an archive is given out; segments and boot records stay. -/
theorem C45_lost_map {e : Env} {bc : Caddr} {sb br : Laddr} {r : Repo} {b : Bytes} (hs : r.read sb = .ok b) {a : Laddr}
    (ha : some a ∈ e.slots 5 b) {j : Nat} {k : Laddr} (hm : Fk.Met (raw e.slots) r 4 a j k) {er : Err} (hk : r.read k = .error er) :
    (fsPack e bc sb br r).2 = none ∧ (fsPack e bc sb br r).1.seg = r.seg ∧ (fsPack e bc sb br r).1.boot = r.boot := by
  have h := spaces_lost (trav_lost (exportAddr e.h e.recode bc r) hm hk) (e.slots 5 b) ha ⟨[], r.pack⟩
  unfold fsPack
  rw [hs]
  simp only
  unfold inspect
  generalize spaces (trav e.slots r (exportAddr e.h e.recode bc r) 4) (e.slots 5 b) ⟨[], r.pack⟩ = z at h
  obtain ⟨z1, z2⟩ := z
  have h : z2 = some .other := h
  subst h
  exact ⟨rfl, rfl, rfl⟩

/-- A case: the child of the top map is in a segment that is lost. -/
example : ∃ (e : Env) (bc : Caddr) (sb br : Laddr) (r : Repo), (∃ b a k er, r.read sb = .ok b ∧ some a ∈ e.slots 5 b ∧
    Fk.Met (raw e.slots) r 4 a 3 k ∧ r.read k = .error er) ∧ (fsPack e bc sb br r).2 = none := by
  refine ⟨⟨Case.h, fun _ => 0, fun n _ => if n = 5 then [none, some (Case.adr 1 1)] else [some (Case.adr 2 n), none], some⟩,
    caddrOf Case.h 1 Case.b0, Case.adr 1 0, Case.br, Case.s, ⟨[1], Case.adr 1 1, Case.adr 2 4, .noent, rfl, .tail _ (.head _), ?_, rfl⟩, ?_⟩
  · exact .down (l := [some (Case.adr 2 4), none]) rfl (.head _) .self
  · exact (C45_lost_map (b := [1]) rfl (.tail _ (.head _)) (.down (l := [some (Case.adr 2 4), none]) rfl (.head _) .self) (er := .noent) rfl).1

end Silofs.Pack
