import Verif.Props.SuperLoad
/-
Cases of C81: a life that meets the hypotheses, and blocks that are not accepted.
-/
namespace Silofs.Super.Case
open Silofs Silofs.Addr Silofs.Super.Spec

/-- Format gives vectors that tell the kinds apart. -/
def rnd : Rnd := ⟨List.replicate 16 9, fun t => List.replicate 16 t⟩
def lv (x : Nat) : List Nat := List.replicate 16 x
/-- A super block's place in volume `x`. -/
def place (x : Nat) : Uaddr := ⟨⟨⟨lv x, 8192, 0, 0, 7, LTYPE_SUPER⟩, 0, 8192⟩, 0⟩
/-- A root of the maps of kind `t` in volume `x`. -/
def root (x t : Nat) : Uaddr := ⟨⟨⟨lv x, 2097152, 0, t, 6, LTYPE_SPNODE⟩, 8192, 8192⟩, 0⟩
def seg (x t : Nat) : Lsid := ⟨lv x, 2097152, 0, t, 6, LTYPE_SPNODE⟩
def birth : List Nat := List.replicate 64 3

def ops : List Op :=
  [.bindMain 5 (seg 1 5), .bindRoot 5 (root 1 5) (List.replicate 16 77), .take .objs 5 1, .nextGen,
   .fork (place 2) birth, .take .objs 5 (-1), .addFlags 1]

theorem bytes_lv (x : Nat) (h : x < 256) : IsBytes 16 (lv x) :=
  ⟨List.length_replicate, fun b hb => by rw [(List.mem_replicate.1 hb).2]; exact h⟩

theorem good_place (x : Nat) (h : x < 256) : Good (place x) :=
  ⟨⟨⟨bytes_lv x h, (by decide : 8192 < 4294967296), (by decide : 0 < 4294967296), (by decide : 0 < 256),
     (by decide : 7 < 256), (by decide : 2 < 256)⟩, (by decide : (0 : Int) ≤ 0),
    (by decide : (0 : Int) < 4294967296), (by decide : 8192 < 4294967296)⟩,
   (by decide : (0 : Int) ≤ 0), (by decide : (0 : Int) < 9223372036854775808), rfl⟩

theorem good_root (x : Nat) (h : x < 256) : Good (root x 5) :=
  ⟨⟨⟨bytes_lv x h, (by decide : 2097152 < 4294967296), (by decide : 0 < 4294967296), (by decide : 5 < 256),
     (by decide : 6 < 256), (by decide : 3 < 256)⟩, (by decide : (0 : Int) ≤ 8192),
    (by decide : (8192 : Int) < 4294967296), (by decide : 8192 < 4294967296)⟩,
   (by decide : (0 : Int) ≤ 0), (by decide : (0 : Int) < 9223372036854775808), rfl⟩

theorem format_ok : FormatOk rnd birth (place 1) 1073741824 :=
  ⟨by decide, fun t => List.length_replicate, by decide, good_place 1 (by omega), rfl, by omega⟩

def vols (ops : List Op) : Vol := ops.foldl Spec.step (Spec.format rnd (place 1) 1073741824)

theorem sane (n : Nat) : Sane (vols (ops.take n)) := by
  have h : n = 0 ∨ n = 1 ∨ n = 2 ∨ n = 3 ∨ n = 4 ∨ n = 5 ∨ n = 6 ∨ 7 ≤ n := by omega
  rcases h with h | h | h | h | h | h | h | h
  all_goals first
    | subst h
    | (rw [show ops.take n = ops from List.take_of_length_le (by simpa [ops] using h)])
  all_goals
    refine ⟨by decide, fun w t => ?_⟩
    simp only [vols, ops, List.take, List.foldl, Spec.step, Spec.format, countSuper]
    refine ⟨⟨?_, ?_⟩, ?_, ?_⟩ <;> (repeat' split) <;> omega

/-- The life is one the theorems speak about. -/
theorem life : Life (Spec.format rnd (place 1) 1073741824) ops (vols ops) := by
  have l1 := Life.nil (v := Spec.format rnd (place 1) 1073741824)
  have l2 := l1.snoc (op := .bindMain 5 (seg 1 5))
    ⟨rfl, ⟨bytes_lv 1 (by omega), by decide, by decide, by decide, by decide, by decide⟩, rfl⟩ (sane 1)
  have l3 := l2.snoc (op := .bindRoot 5 (root 1 5) (List.replicate 16 77))
    ⟨rfl, good_root 1 (by omega), rfl, rfl, List.length_replicate⟩ (sane 2)
  have l4 := l3.snoc (op := .take .objs 5 1) ⟨by omega, by omega⟩ (sane 3)
  have l5 := l4.snoc (op := .nextGen) trivial (sane 4)
  have l6 := l5.snoc (op := .fork (place 2) birth) ⟨good_place 2 (by omega), rfl, List.length_replicate⟩ (sane 5)
  have l7 := l6.snoc (op := .take .objs 5 (-1)) ⟨by omega, by omega⟩ (sane 6)
  exact l7.snoc (op := .addFlags 1) (by show 1 < 4294967296; omega) (sane 7)

/-- The fork shows the root bound before it, has no main segment, and has one inode less of its own. -/
example : resolveChild (run (formatSuper rnd 0 birth (place 1) 1073741824) ops) 5
      = some (root 1 5, List.replicate 16 77) ∧
    mainLseg (run (formatSuper rnd 0 birth (place 1) 1073741824) ops) 5 = none ∧
    gauge (run (formatSuper rnd 0 birth (place 1) 1073741824) ops) 4096 .objs 5 = -1 := by
  have h := C81_shows rnd 0 birth (place 1) 1073741824 format_ok ops _ life
  exact ⟨(h.2.2.2.2.2.2.1 5 rfl).trans rfl, (h.2.2.2.2.2.2.2.1 5 rfl).trans rfl,
    (h.2.2.2.2.2.2.2.2.2.1 .objs 5 (by omega) (by omega)).1.trans (by decide)⟩

/-- A block of noughts is not accepted. -/
example : verify (fun _ => 0) = false := by decide +kernel

end Silofs.Super.Case
