import Verif.Model.Fsinst

/-!
# What a user expects of setting up and taking down (C74)

Stated over the ledger alone: which steps a command depends on, what it holds
once it runs, and what must be left when it is done or when it gave up.
-/
namespace Silofs.Fi

/-- The steps that have to succeed for a command with arguments `a`. -/
def needs (a : Args) : Step → Bool
  | .args | .memLimits | .repoEnable | .envEnable | .brefType => true
  | .dataTrunc | .metaTrunc => !a.std
  | .derive => a.pw
  | .get o =>
    match o with
    | .allocIf => false
    | .poolMutex | .dataFd | .dataMap | .metaFd | .metaMap => !a.std
    | .slab i => !a.std && decide (i < 12)
    | .uidEnt i => decide (i < a.nu)
    | .gidEnt i => decide (i < a.ng)
    | .fqMem | .fqSem | .fqCh | .fqOp | .fqCtl => a.fuse
    | .inb i | .outb i | .rwi i => a.fuse && decide (i < min (max a.nproc 2) 16)
    | _ => true

/-- What a command holds once it is set up. -/
def wants (a : Args) (o : Obj) : Bool := needs a (.get o) || decide (o = .allocIf)

/-- The machine and the limits of the process leave enough memory. -/
def roomy (a : Args) : Prop := 2 ^ 28 ≤ a.total ∧ 2 ^ 28 ≤ a.rlim

/-- Nothing is held, nothing was misused, the program still runs. -/
structure Spotless (s : St) : Prop where
  held : ∀ o, s.held o = false
  ptr : ∀ p, s.ptr p = false
  bad : s.bad = false
  dead : s.dead = false

/-- The steps whose denial is not undone properly (see the theorems ending in
`_violated`): those of the repository object after its hash was opened, the
derivation of the key, and the buffers of a dispatcher other than the last. -/
def slippery (a : Args) : Step → Bool
  | .repoEnable | .derive => true
  | .get .repoTbl | .get .repoMutex => true
  | .get (.inb i) | .get (.outb i) | .get (.rwi i) =>
    a.fuse && decide (i + 1 < min (max a.nproc 2) 16)
  | _ => false

end Silofs.Fi
