import Verif.Props.RepoStep2
/-
Whole executions of the repository: every sequence of operations is one of the map from names to
contents, whatever the cache does meanwhile.
-/
set_option linter.unusedSimpArgs false
namespace Silofs.Repo
open Silofs Silofs.Addr Silofs.Sysio

theorem fresh_inv {c : Cfg} (U : Name → Prop) {d : Disk} (h : DOk d) (ro : Bool) : Inv c U (fresh d ro) := by
  refine ⟨⟨List.nodup_nil, ?_, ?_, ?_, ?_, ?_⟩, h, ?_⟩ <;> simp [fresh, Bind]

/-- Every operation of a sequence is as the program issues it. -/
def AllWF (U : Name → Prop) (xs : List (K × Op)) : Prop := ∀ x, x ∈ xs → WellFormed U x.1 x.2

theorem run_inv {c : Cfg} {U : Name → Prop} (hi : PathInj c U) : ∀ (xs : List (K × Op)) {r : Repo}, Inv c U r → AllWF U xs → Inv c U (run c r xs).2 := by
  intro xs
  induction xs with
  | nil => intro r h _; exact h
  | cons x xs ih =>
    obtain ⟨k, op⟩ := x
    intro r h hw
    exact ih (C54_step hi h k op (hw _ (List.mem_cons_self ..))).1 (fun y hy => hw y (List.mem_cons_of_mem _ hy))

/-- C54: a repository behaves as a map from names to contents over whole executions, whatever is
cached, evicted, opened again and stored meanwhile, and whatever calls of the kernel fail. -/
theorem C54_run_partial {c : Cfg} {U : Name → Prop} (hi : PathInj c U) : ∀ (xs : List (K × Op)) {r : Repo}, Inv c U r → AllWF U xs →
    Trace U (content c r.disk) ((xs.map (·.2)).zip (run c r xs).1) (content c (run c r xs).2.disk) := by
  intro xs
  induction xs with
  | nil => intro r h _; exact Trace.nil _ _ (fun _ _ => rfl)
  | cons x xs ih =>
    obtain ⟨k, op⟩ := x
    intro r h hw
    have hs := C54_step hi h k op (hw _ (List.mem_cons_self ..))
    exact Trace.cons _ _ _ _ _ _ hs.2 (ih hs.1 (fun y hy => hw y (List.mem_cons_of_mem _ hy)))

/-- From a repository just opened. -/
theorem C54_fresh_partial {c : Cfg} {U : Name → Prop} (hi : PathInj c U) {d : Disk} (hd : DOk d) (ro : Bool) (xs : List (K × Op)) (hw : AllWF U xs) :
    Trace U (content c d) ((xs.map (·.2)).zip (run c (fresh d ro) xs).1) (content c (run c (fresh d ro) xs).2.disk) :=
  C54_run_partial hi xs (fresh_inv U hd ro) hw

/-! ### What was written is read -/

/-- Operations that do not write to `nm`: those about other names, and those which only look,
bring into the cache, evict or store. -/
def Harmless (nm : Name) (op : Op) : Prop :=
  target op ≠ some nm ∨
  match op with
  | .spawn _ | .stage _ _ | .stat _ _ | .require _ | .requireAt _ _ _ | .read _ _ _ | .load _ _ | .size _ | .pstage _ | .pload _ _ _ | .pflush _ => True
  | _ => False

theorem harmless_step {U : Name → Prop} {s s' : Store} {op : Op} {o : Out} {nm : Name} (hU : U nm) (h : Allowed U s op o s') (hh : Harmless nm op)
    {f : File} (hs : s nm = some f) : ∃ f', s' nm = some f' ∧ (∀ i, f'.byte i = f.byte i) ∧ f.size ≤ f'.size := by
  obtain ⟨_, h2, h3⟩ := h
  by_cases ht : target op = some nm
  · have ho := h2 nm ht
    rw [hs] at ho
    have same : s' nm = some f → ∃ f', s' nm = some f' ∧ (∀ i, f'.byte i = f.byte i) ∧ f.size ≤ f'.size :=
      fun e => ⟨f, e, fun _ => rfl, Nat.le_refl _⟩
    cases op <;> first
      | exact same ho.1
      | (simp only [Own, Made] at ho; split at ho <;> exact same ho)
      | (simp only [Own] at ho; split at ho
         · obtain ⟨a, b, e1, e2, e3, e4, _⟩ := ho
           cases e1
           exact ⟨b, e2, e3, e4⟩
         · exact same ho)
      | exact absurd hh (by simp [Harmless, ht])
  · exact ⟨f, (h3 nm hU ht).trans hs, fun _ => rfl, Nat.le_refl _⟩

theorem harmless_run {c : Cfg} {U : Name → Prop} (hi : PathInj c U) {nm : Name} (hU : U nm) : ∀ (xs : List (K × Op)) {r : Repo}, Inv c U r → AllWF U xs →
    (∀ x, x ∈ xs → Harmless nm x.2) → ∀ f, content c r.disk nm = some f →
    ∃ f', content c (run c r xs).2.disk nm = some f' ∧ (∀ i, f'.byte i = f.byte i) ∧ f.size ≤ f'.size := by
  intro xs
  induction xs with
  | nil => intro r _ _ _ f hf; exact ⟨f, hf, fun _ => rfl, Nat.le_refl _⟩
  | cons x xs ih =>
    obtain ⟨k, op⟩ := x
    intro r h hw hh f hf
    have hs := C54_step hi h k op (hw _ (List.mem_cons_self ..))
    obtain ⟨f1, a1, a2, a3⟩ := harmless_step hU hs.2 (hh _ (List.mem_cons_self ..)) hf
    obtain ⟨f2, b1, b2, b3⟩ := ih hs.1 (fun y hy => hw y (List.mem_cons_of_mem _ hy)) (fun y hy => hh y (List.mem_cons_of_mem _ hy)) f1 a1
    exact ⟨f2, b1, fun i => (b2 i).trans (a2 i), Nat.le_trans a3 b3⟩

/-- Bytes of a content, held by two files. -/
theorem holds_mixed {f f' g : File} {off : Nat} {l b : List Nat} (hm : Mixed f off l l.length f') (hg : ∀ i, g.byte i = f'.byte i)
    (hh : Holds g off l.length b) : b = l := by
  obtain ⟨h1, _, h2⟩ := hh
  apply List.ext_getElem? 
  intro i
  by_cases hi : i < l.length
  · have hb : i < b.length := by omega
    rw [List.getElem?_eq_getElem hb, List.getElem?_eq_getElem hi]
    have e1 := h2 i b[i] (List.getElem?_eq_getElem hb)
    have e2 := hm.1 i l[i] hi (List.getElem?_eq_getElem hi)
    rw [hg] at e1
    rw [← e1, e2]
  · rw [List.getElem?_eq_none (by omega), List.getElem?_eq_none (by omega)]

/-- C54: bytes written to a segment are the bytes read from it later: after any operations on
other names, and operations that do not write to it, with any of them failing. -/
theorem C54_read_after_write {c : Cfg} {U : Name → Prop} (hi : PathInj c U) {r : Repo} (h : Inv c U r) (k : K) (l : Lsid) (pos : Nat) (bufs : List (List Nat))
    (hw : WellFormed U k (.write l pos bufs)) (hok : (step c r k (.write l pos bufs)).1.res = .ok)
    (xs : List (K × Op)) (hxs : AllWF U xs) (hh : ∀ x, x ∈ xs → Harmless (.lseg l) x.2) (k2 : K) (hk2 : k2.stat ≠ 2 ∧ k2.stat < 1000)
    (hr : (step c (run c (step c r k (.write l pos bufs)).2 xs).2 k2 (.read l pos bufs.flatten.length)).1.res = .ok) :
    (step c (run c (step c r k (.write l pos bufs)).2 xs).2 k2 (.read l pos bufs.flatten.length)).1.bytes = bufs.flatten := by
  have hU : U (.lseg l) := hw.1 _ rfl
  have h1 := C54_step hi h k _ hw
  obtain ⟨_, g, _, e2, hm, _⟩ := (h1.2.2.1 _ rfl).1 hok
  obtain ⟨g2, b1, b2, _⟩ := harmless_run hi hU xs h1.1 hxs hh g e2
  have hinv := run_inv hi xs h1.1 hxs
  have h3 := C54_step hi hinv k2 (.read l pos bufs.flatten.length) ⟨fun nm e => by cases e; exact hU, hk2.1, hk2.2, trivial⟩
  obtain ⟨f3, c1, c2⟩ := (h3.2.2.1 _ rfl).2 hr
  rw [b1] at c1
  cases c1
  exact holds_mixed hm b2 c2

/-- C54: an object saved as a whole is what loading it returns later. -/
theorem C54_load_after_save {c : Cfg} {U : Name → Prop} (hi : PathInj c U) {r : Repo} (h : Inv c U r) (k : K) (nm : Name) (l : List Nat)
    (hw : WellFormed U k (.save nm l)) (hok : (step c r k (.save nm l)).1.res = .ok)
    (xs : List (K × Op)) (hxs : AllWF U xs) (hh : ∀ x, x ∈ xs → Harmless nm x.2) (k2 : K) (hk2 : k2.stat ≠ 2 ∧ k2.stat < 1000)
    (hr : (step c (run c (step c r k (.save nm l)).2 xs).2 k2 (.load nm l.length)).1.res = .ok) :
    (step c (run c (step c r k (.save nm l)).2 xs).2 k2 (.load nm l.length)).1.bytes = l := by
  have hU : U nm := hw.1 _ rfl
  have h1 := C54_step hi h k _ hw
  obtain ⟨g, e2, hm, _⟩ := (h1.2.2.1 _ rfl).1 hok
  obtain ⟨g2, b1, b2, _⟩ := harmless_run hi hU xs h1.1 hxs hh g e2
  have hinv := run_inv hi xs h1.1 hxs
  have h3 := C54_step hi hinv k2 (.load nm l.length) ⟨fun nm' e => by cases e; exact hU, hk2.1, hk2.2, hw.2.2.2⟩
  obtain ⟨f3, c1, c2⟩ := (h3.2.2.1 _ rfl).2 hr
  rw [b1] at c1
  cases c1
  exact holds_mixed hm b2 c2

/-- C54: the same for objects in segments of the physical store. -/
theorem C54_pload_after_psave {c : Cfg} {U : Name → Prop} (hi : PathInj c U) {r : Repo} (h : Inv c U r) (k : K) (p : Psid) (off : Nat) (l : List Nat)
    (hw : WellFormed U k (.psave p off l)) (hok : (step c r k (.psave p off l)).1.res = .ok)
    (xs : List (K × Op)) (hxs : AllWF U xs) (hh : ∀ x, x ∈ xs → Harmless (.pseg p) x.2) (k2 : K) (hk2 : k2.stat ≠ 2 ∧ k2.stat < 1000)
    (hr : (step c (run c (step c r k (.psave p off l)).2 xs).2 k2 (.pload p off l.length)).1.res = .ok) :
    (step c (run c (step c r k (.psave p off l)).2 xs).2 k2 (.pload p off l.length)).1.bytes = l := by
  have hU : U (.pseg p) := hw.1 _ rfl
  have h1 := C54_step hi h k _ hw
  obtain ⟨f, g, _, e2, hm⟩ := (h1.2.2.1 _ rfl).1 hok
  have hm' : Mixed f off l l.length g := by
    have : g = f.put off l := wrote_unique f off l _ _ hm (put_wrote f off l)
    have h4 := mixed_put f off l l.length (Nat.le_refl _)
    rw [List.take_length, ← this] at h4
    exact h4
  obtain ⟨g2, b1, b2, _⟩ := harmless_run hi hU xs h1.1 hxs hh g e2
  have hinv := run_inv hi xs h1.1 hxs
  have h3 := C54_step hi hinv k2 (.pload p off l.length) ⟨fun nm' e => by cases e; exact hU, hk2.1, hk2.2, trivial⟩
  obtain ⟨f3, c1, c2⟩ := (h3.2.2.1 _ rfl).2 hr
  rw [b1] at c1
  cases c1
  exact holds_mixed hm' b2 c2

end Silofs.Repo
