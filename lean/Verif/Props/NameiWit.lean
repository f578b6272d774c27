import Verif.Props.NameiLife
import Verif.Props.NameiFail
/-
Concrete histories: cases that meet the hypotheses of the C13-C18 theorems, and
counter-examples where the claim of the property is false of the code.
-/
set_option linter.unusedSimpArgs false
set_option linter.unusedVariables false
namespace Silofs.Ns

/-- Decision procedure for `Vfs`. -/
def vfsB (s : Fs) : Op → Bool
  | .rename _ d n d2 n2 _ =>
    match s.look d n with
    | none => true
    | some c => !(decide (s.look d2 n2 = some c)) || !(s.isDirI c)
  | .link _ d _ i => (decide (d = ROOT) || decide (0 < s.names d)) &&
      (decide (0 < s.names i) || (match s.ino i with | some x => decide (0 < x.nopen) | none => false))
  | .openReg _ i _ => decide (i = ROOT) || decide (0 < s.names i) ||
      (match s.ino i with | some x => decide (0 < x.nopen) | none => false)
  | .openDir _ i _ => decide (i = ROOT) || decide (0 < s.names i) ||
      (match s.ino i with | some x => decide (0 < x.nopen) | none => false)
  | _ => true

theorem openB {s : Fs} {i : Nat} (h : (match s.ino i with | some x => decide (0 < x.nopen) | none => false) = true) :
    ∃ x, s.ino i = some x ∧ 0 < x.nopen := by
  split at h
  · next x hx => exact ⟨x, hx, by simpa using h⟩
  · cases h

theorem vfsB_ok {s : Fs} {op : Op} (h : vfsB s op = true) : Vfs s op := by
  cases op with
  | rename cr d n d2 n2 f =>
    intro c h1 h2
    simp only [vfsB, h1, h2] at h
    simpa using h
  | link cr d n i =>
    simp only [vfsB, Bool.and_eq_true, Bool.or_eq_true, decide_eq_true_eq] at h
    exact ⟨h.1, h.2.imp id openB⟩
  | openReg cr i f =>
    simp only [vfsB, Bool.or_eq_true, decide_eq_true_eq] at h
    rcases h with (h | h) | h
    · exact .inl h
    · exact .inr (.inl h)
    · exact .inr (.inr (openB h))
  | openDir cr i f =>
    simp only [vfsB, Bool.or_eq_true, decide_eq_true_eq] at h
    rcases h with (h | h) | h
    · exact .inl h
    · exact .inr (.inl h)
    · exact .inr (.inr (openB h))
  | _ => trivial

/-- A sufficient check for `TearFree`: no rename fails. -/
def tearB (s : Fs) (o : Orc) : Op → Bool
  | .rename cr d n d2 n2 f => ((Op.rename cr d n d2 n2 f).body s o).1.isNone
  | _ => true

theorem tearB_ok {s : Fs} {o : Orc} {op : Op} (h : tearB s o op = true) : TearFree s o op := by
  cases op with
  | rename cr d n d2 n2 f => exact .inl (by simpa [tearB] using h)
  | _ => trivial

def runL : Fs → List (Orc × Op) → Fs
  | s, [] => s
  | s, (o, op) :: l => runL (s.step o op).2 l

def okL : Fs → List (Orc × Op) → Bool
  | _, [] => true
  | s, (o, op) :: l => vfsB s op && tearB s o op && decide ((s.step o op).1 ≠ .die) && okL (s.step o op).2 l

theorem runL_run {a : Attr} {m : Nat} : ∀ (l : List (Orc × Op)) {s : Fs}, Run a m s → okL s l = true →
    Run a m (runL s l)
  | [], _, h, _ => h
  | (o, op) :: l, s, h, hk => by
    simp only [okL, Bool.and_eq_true, decide_eq_true_eq] at hk
    exact runL_run l (.step o op h (vfsB_ok hk.1.1.1) (tearB_ok hk.1.1.2) hk.1.2) hk.2

/-- Root directory of mode 01777 owned by root. -/
def wA : Attr := { kind := .dir, perm := 0o1777, uid := 0, gid := 0 }
def w0 : Fs := Fs.init wA 100
def su : Cred := { uid := 0, gid := 0, host := 0 }
def u5 : Cred := { uid := 5, gid := 5, host := 5 }
def u7 : Cred := { uid := 7, gid := 7, host := 7 }
def spw (i : Nat) : Orc := { spawn := some i }
def na : Name := [97]
def nb : Name := [98]
def nc : Name := [99]

theorem w_run (l : List (Orc × Op)) (h : okL w0 l = true) : Run wA 100 (runL w0 l) :=
  runL_run l .init h

/-! ### The theorems are not vacuous -/

/-- mkdir a; create a/b; link a/b as c; close; unlink a/b -/
def hist1 : List (Orc × Op) :=
  [(spw 2, .mkdir su 1 na 0o755), (spw 3, .create su 2 nb .reg 0o644), ({}, .link su 1 nc 3),
   ({}, .release 3 false {}), ({}, .unlink su 2 nb)]

example : Run wA 100 (runL w0 hist1) := w_run _ (by decide +kernel)
example : (runL w0 hist1).ents = [⟨1, nc, 3⟩, ⟨1, na, 2⟩] ∧
    ((runL w0 hist1).ino 3).map Ino.nlink = some 1 ∧ ((runL w0 hist1).ino 1).map Ino.nlink = some 3 ∧
    ((runL w0 hist1).ino 2).map Ino.nlink = some 2 := by decide +kernel

/-- C14: an open file outlives its last name and goes with its last close. -/
def hist2 : List (Orc × Op) := [(spw 2, .create su 1 na .reg 0o644), ({}, .unlink su 1 na)]
example : Run wA 100 (runL w0 hist2) := w_run _ (by decide +kernel)
example : (runL w0 hist2).ents = [] ∧ ((runL w0 hist2).ino 2).map (fun x => (x.nlink, x.nopen, x.data)) = some (0, 1, true) := by
  decide +kernel
example : ((runL w0 (hist2 ++ [(({} : Orc), .release 2 false {})])).ino 2).isNone = true := by decide +kernel

/-- C15: rename over an existing file, and exchange. -/
def hist3 : List (Orc × Op) :=
  [(spw 2, .mknodReg su 1 na 0o644), (spw 3, .mknodReg su 1 nb 0o644)]
example : Run wA 100 (runL w0 (hist3 ++ [(({} : Orc), .rename su 1 na 1 nb {})])) := w_run _ (by decide +kernel)
example : ((runL w0 hist3).step {} (.rename su 1 na 1 nb {})).1 = .ok ∧
    ((runL w0 hist3).step {} (.rename su 1 na 1 nb {})).2.ents = [⟨1, nb, 2⟩] ∧
    (((runL w0 hist3).step {} (.rename su 1 na 1 nb {})).2.ino 3).isNone = true := by decide +kernel
example : ((runL w0 hist3).step {} (.rename su 1 na 1 nb { exchange := true })).1 = .ok ∧
    ((runL w0 hist3).step {} (.rename su 1 na 1 nb { exchange := true })).2.look 1 na = some 3 ∧
    ((runL w0 hist3).step {} (.rename su 1 na 1 nb { exchange := true })).2.look 1 nb = some 2 := by decide +kernel
example : ((runL w0 hist3).step {} (.rename su 1 na 1 nb { noreplace := true })).1 = .err .eexist := by decide +kernel
example : ((runL w0 hist3).step {} (.rename su 1 na 1 nc { exchange := true })).1 = .err .enoent := by decide +kernel

/-- C16: an error of each class with nothing changed. -/
example : ((runL w0 hist3).step {} (.mkdir su 1 na 0o755)).1 = .err .eexist ∧
    ((runL w0 hist3).step { rem1 := .fail } (.unlink su 1 na)).1 = .err .eio ∧
    Quiet (runL w0 hist3) { rem1 := .fail } (.unlink su 1 na) := by
  refine ⟨by decide +kernel, by decide +kernel, rfl, rfl, by decide, by decide, trivial⟩

/-- C18: user 5's file in the sticky root can be removed by user 5 and not by user 7. -/
def hist4 : List (Orc × Op) := [(spw 2, .mknodReg u5 1 na 0o644)]
example : ((runL w0 hist4).step {} (.unlink u7 1 na)).1 = .err .eperm := by decide +kernel
example : ((runL w0 hist4).step {} (.unlink u5 1 na)).1 = .ok := by decide +kernel
example : ((runL w0 hist4).step {} (.rename u7 1 na 1 nb {})).1 = .err .eperm := by decide +kernel

/-! ### Counter-examples -/

/-- C13. link(2) into a directory that was removed while open succeeds (`check_link` does not call
`check_add_dentry`); when the directory is closed its entries go with it and the file is left with
a link count of 2 and one name. Only the `Vfs` assumption on link is broken. -/
theorem C13_link_into_removed_violated :
    ∃ l : List (Orc × Op), okL w0 (l.take 4) = true ∧ (∀ p ∈ l, p.1.rem1 = .ok ∧ p.1.add1 = false ∧ p.1.drop = false) ∧
      ((runL w0 l).ino 3).map Ino.nlink = some 2 ∧ (runL w0 l).ents = [⟨1, nb, 3⟩] :=
  ⟨[(spw 2, .mkdir su 1 na 0o755), ({}, .openDir su 2 {}), (spw 3, .mknodReg su 1 nb 0o644),
    ({}, .rmdir su 1 na), ({}, .link su 2 nc 3), ({}, .release 2 true {})], by decide +kernel⟩

/-- C15. Renaming a directory onto its own name (also by way of the same directory and name)
removes it with everything inside; a file inside keeps a link count of 1 and has no name. -/
theorem C15_dir_onto_itself_violated :
    ∃ l : List (Orc × Op), okL w0 l = true ∧
      ((runL w0 l).step {} (.rename su 1 na 1 na {})).1 = .ok ∧
      (runL w0 l).look 2 nb = some 3 ∧
      ((runL w0 l).step {} (.rename su 1 na 1 na {})).2.ents = [] ∧
      (((runL w0 l).step {} (.rename su 1 na 1 na {})).2.ino 3).map Ino.nlink = some 1 :=
  ⟨[(spw 2, .mkdir su 1 na 0o755), (spw 3, .mknodReg su 2 nb 0o644)], by decide +kernel⟩

/-- C15. A file may replace an empty directory and a directory a file (POSIX: EISDIR, ENOTDIR). -/
theorem C15_type_mismatch_violated :
    ∃ l : List (Orc × Op), okL w0 l = true ∧ (runL w0 l).isDirI 2 = true ∧ (runL w0 l).isDirI 3 = false ∧
      (runL w0 l).look 1 na = some 2 ∧ (runL w0 l).look 1 nb = some 3 ∧
      ((runL w0 l).step {} (.rename su 1 nb 1 na {})).1 = .ok ∧
      ((runL w0 l).step {} (.rename su 1 na 1 nb {})).1 = .ok :=
  ⟨[(spw 2, .mkdir su 1 na 0o755), (spw 3, .mknodReg su 1 nb 0o644)], by decide +kernel⟩

/-- C15. A directory may be moved into its own sub-directory (POSIX: EINVAL); both are then
unreachable from the root. -/
theorem C15_loop_violated :
    ∃ l : List (Orc × Op), okL w0 l = true ∧ (runL w0 l).look 1 na = some 2 ∧ (runL w0 l).look 2 nb = some 3 ∧
      ((runL w0 l).step {} (.rename su 1 na 3 nc {})).1 = .ok ∧
      ((runL w0 l).step {} (.rename su 1 na 3 nc {})).2.ents = [⟨3, nc, 2⟩, ⟨2, nb, 3⟩] :=
  ⟨[(spw 2, .mkdir su 1 na 0o755), (spw 3, .mkdir su 2 nb 0o755)], by decide +kernel⟩

/-- C16. A rename for which no space is left for the new entry reports ENOSPC, and the file has
lost its name. -/
theorem C16_rename_loses_name_violated :
    ∃ l : List (Orc × Op), okL w0 l = true ∧ (runL w0 l).look 1 na = some 2 ∧
      ((runL w0 l).step { add1 := true } (.rename su 1 na 1 nc {})).1 = .err .enospc ∧
      ((runL w0 l).step { add1 := true } (.rename su 1 na 1 nc {})).2.look 1 na = none ∧
      ((runL w0 l).step { add1 := true } (.rename su 1 na 1 nc {})).2.look 1 nc = none :=
  ⟨hist3, by decide +kernel⟩

/-- C16. A rename onto an existing file that fails has removed that file. -/
theorem C16_replace_removes_target_violated :
    ∃ l : List (Orc × Op), okL w0 l = true ∧ (runL w0 l).look 1 nb = some 3 ∧
      ((runL w0 l).step { rem1 := .fail } (.rename su 1 na 1 nb {})).1 = .err .eio ∧
      ((runL w0 l).step { rem1 := .fail } (.rename su 1 na 1 nb {})).2.look 1 nb = none ∧
      (((runL w0 l).step { rem1 := .fail } (.rename su 1 na 1 nb {})).2.ino 3).isNone = true :=
  ⟨hist3, by decide +kernel⟩

/-- C16. unlink reports EIO when the contents cannot be disposed of, with the name gone. -/
theorem C16_unlink_violated :
    ∃ l : List (Orc × Op), okL w0 l = true ∧ (runL w0 l).look 1 na = some 2 ∧
      ((runL w0 l).step { drop := true } (.unlink su 1 na)).1 = .err .eio ∧
      ((runL w0 l).step { drop := true } (.unlink su 1 na)).2.look 1 na = none :=
  ⟨hist3, by decide +kernel⟩

/-- C16. A create that fails to add the entry, and then fails to undo, leaves an inode without
any name. -/
theorem C16_create_leak_violated :
    ∃ o : Orc, (w0.step o (.create su 1 na .reg 0o644)).1 = .err .enospc ∧ (w0.ino 2).isNone = true ∧
      ((w0.step o (.create su 1 na .reg 0o644)).2.ino 2).isSome = true ∧
      (w0.step o (.create su 1 na .reg 0o644)).2.ents = [] :=
  ⟨{ spawn := some 2, add1 := true, undo := true }, by decide +kernel⟩

/-- C18. Replacing an empty directory checks the sticky bit of the source directory instead of the
target's: user 5 moves an own directory out of the sticky root over another user's empty directory
in a directory that user 5 owns and that is not sticky, and is refused. -/
theorem C18_replace_refused_violated :
    ∃ l : List (Orc × Op), okL w0 l = true ∧
      (runL w0 l).look 1 na = some 2 ∧ (runL w0 l).look 3 nc = some 4 ∧
      ((runL w0 l).ino 2).map (fun x => x.attr.uid) = some 5 ∧
      ((runL w0 l).ino 3).map (fun x => (x.attr.uid, x.attr.perm.testBit 9)) = some (5, false) ∧
      ((runL w0 l).step {} (.rmdir u5 3 nc)).1 = .ok ∧
      ((runL w0 l).step {} (.rename u5 1 na 3 nc {})).1 = .err .eperm :=
  ⟨[(spw 2, .mkdir u5 1 na 0o755), (spw 3, .mkdir u5 1 nb 0o777), (spw 4, .mkdir u7 3 nc 0o755)],
   by decide +kernel⟩

/-- C14. A FIFO is pinned in memory when made. Linked again after its last name was removed (the
kernel refuses this), it is still marked for disposal, and forgetting it aborts the process. -/
theorem C14_relink_panic_violated :
    ∃ l : List (Orc × Op), ((runL w0 l).look 1 nb = some 2) ∧
      ((runL w0 l).step {} (.forget 2)).1 = .die :=
  ⟨[(spw 2, .mknodSpecial su 1 na .fifo 0o644 true), ({}, .unlink su 1 na), ({}, .link su 1 nb 2)],
   by decide +kernel⟩

end Silofs.Ns
