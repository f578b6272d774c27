import Verif.Model.RepoFmt

/-!
# What a repository is (C78)

Said of the host's directory alone, and without the checks which the code makes.
-/

namespace Silofs.Rf

def DirAt (h : Host) (sl : Slot) : Prop := ∃ p, h.ent sl = some (.dir p)

/-- a file of at least a KB which begins with `b` -/
def FileAt (h : Host) (sl : Slot) (b : List Nat) : Prop :=
  ∃ p d, h.ent sl = some (.file p d) ∧ 1024 ≤ d.length ∧ b <+: d

/-- the parts which `open` asks for: the directories, "#SILOFS#" and version 1 in `meta`, "SILOFS_LOCK" in `lock` -/
structure Skeleton (h : Host) : Prop where
  top : DirAt h .top
  dots : DirAt h .dots
  blobs : DirAt h .blobs
  pack : DirAt h .pack
  objs : DirAt h .objs
  refs : DirAt h .refs
  metaOk : FileAt h .metaf [0x23, 0x53, 0x49, 0x4C, 0x4F, 0x46, 0x53, 0x23, 1, 0, 0, 0]
  lockOk : FileAt h .lockf [83, 73, 76, 79, 70, 83, 95, 76, 79, 67, 75]

/-- a whole repository: and all 256 directories which objects are put in -/
structure IsRepo (h : Host) : Prop where
  skel : Skeleton h
  subs : ∀ i, i < 256 → DirAt h (.sub i)

/-- the user may use the directory, `.silofs`, `objs`, and read `meta` and `lock` -/
structure Able (root : Bool) (h : Host) : Prop where
  top : ∃ p, h.ent .top = some (.dir p) ∧ (root ∨ (p.r ∧ p.w ∧ p.x))
  dots : ∃ p, h.ent .dots = some (.dir p) ∧ (root ∨ (p.r ∧ p.x))
  objs : ∃ p, h.ent .objs = some (.dir p) ∧ (root ∨ p.r)
  metaR : ∃ p d, h.ent .metaf = some (.file p d) ∧ (root ∨ p.r)
  lockR : ∃ p d, h.ent .lockf = some (.file p d) ∧ (root ∨ p.r)

/-- names are in directories -/
structure Tree (h : Host) : Prop where
  extra : h.extra ≠ 0 → DirAt h .top
  conf : h.ent .conf ≠ none → DirAt h .top
  dots : h.ent .dots ≠ none → DirAt h .top
  blobs : h.ent .blobs ≠ none → DirAt h .dots
  pack : h.ent .pack ≠ none → DirAt h .dots
  objs : h.ent .objs ≠ none → DirAt h .dots
  refs : h.ent .refs ≠ none → DirAt h .dots
  metaf : h.ent .metaf ≠ none → DirAt h .dots
  lockf : h.ent .lockf ≠ none → DirAt h .dots
  sub : ∀ i, h.ent (.sub i) ≠ none → DirAt h .objs

/-- no call fails -/
def Calm (e : Env) : Prop := ∀ k, e.fault k = .go

/-- the umask leaves the owner's bits -/
def Plain (e : Env) : Prop := e.mask.r = false ∧ e.mask.w = false ∧ e.mask.x = false

/-- what a user tries: the command, or the library's format -/
inductive Try where
  | init (txt : List Nat)
  | format

/-- the directory after an attempt, however it ended -/
def tryOne (h : Host) : Try → Env → Host
  | .init txt, e => (init txt e ⟨h, 0⟩).2.host
  | .format, e => (format e ⟨h, 0⟩).2.host

def tries (h : Host) : List (Try × Env) → Host
  | [] => h
  | (t, e) :: l => tries (tryOne h t e) l

end Silofs.Rf
