import Verif.Spec.Fsinst

/-!
# The environment is set up as a whole or not at all, and taken down (C74)
-/
set_option linter.unusedSimpArgs false
set_option linter.unusedVariables false
namespace Silofs.Fi

/-! ## Adding to and taking from the ledger -/

/-- The ledger with the things of `P` added. -/
def add (P : Obj → Bool) (s : St) : St :=
  { s with held := fun o => P o || s.held o }

/-- None of the things of `P` is held. -/
def Fresh (P : Obj → Bool) (s : St) : Prop := ∀ o, P o = true → s.held o = false

/-- All is well and there is an allocator. -/
def Live (s : St) : Prop := s.dead = false ∧ s.bad = false ∧ s.held .allocIf = true

/-- All is well. -/
def Well (s : St) : Prop := s.dead = false ∧ s.bad = false

/-- `f` adds `P` when `c` holds, and otherwise fails without a trace. -/
def S (L : St → Prop) (f : St → Bool × St) (P : Obj → Bool) (c : Bool) : Prop :=
  ∀ s, L s → Fresh P s → f s = if c then (true, add P s) else (false, s)

/-- `f` adds `P` when `c` holds, and otherwise fails. -/
def W (L : St → Prop) (f : St → Bool × St) (P : Obj → Bool) (c : Bool) : Prop :=
  ∀ s, L s → Fresh P s →
    (c = true → f s = (true, add P s)) ∧ (c = false → (f s).1 = false)

/-- `u` takes away what `P` added. -/
def Undo (L : St → Prop) (u : St → St) (P : Obj → Bool) : Prop :=
  ∀ s, L s → Fresh P s → u (add P s) = s

/-- The things in a list. -/
def only (l : List Obj) : Obj → Bool := fun o => decide (o ∈ l)

theorem St.ext' {s t : St} (h1 : ∀ o, s.held o = t.held o) (h2 : ∀ p, s.ptr p = t.ptr p)
    (h3 : s.bad = t.bad) (h4 : s.dead = t.dead) : s = t := by
  cases s; cases t; simp at *; exact ⟨funext h1, funext h2, h3, h4⟩

theorem S.weak {L f P c} (h : S L f P c) : W L f P c := by
  intro s hl hf
  rw [h s hl hf]
  constructor
  · intro hc; rw [hc]; rfl
  · intro hc; rw [hc]; rfl

variable (ok : Step → Bool)

/-! ## The components -/

theorem lcache_S : S Live (lcacheInit ok) (only [.uamapTbl, .nilBlk, .uniTbl, .vniTbl])
    (ok (.get .uamapTbl) && ok (.get .nilBlk) && ok (.get .uniTbl) && ok (.get .vniTbl)) := by
  intro s hl hf
  have h1 := hl.1
  have h2 := hl.2.1
  have h3 := hl.2.2
  have a0 := hf .uamapTbl (by decide)
  have a1 := hf .nilBlk (by decide)
  have a2 := hf .uniTbl (by decide)
  have a3 := hf .vniTbl (by decide)
  cases b0 : ok (.get .uamapTbl)
  · simp [lcacheInit, lcacheFini, hmapqsInit, hmapqsFini, orUndo, andThen, acq, put, chk, rel, relIf, upd, Obj.heap, mdInit, h1, h2, h3, a0, a1, a2, a3, b0] <;> (apply St.ext' <;> simp [add, only, h1, h2, h3, b0] <;> grind (splits := 24) (gen := 30) (ematch := 30) [upd])
  cases b1 : ok (.get .nilBlk)
  · simp [lcacheInit, lcacheFini, hmapqsInit, hmapqsFini, orUndo, andThen, acq, put, chk, rel, relIf, upd, Obj.heap, mdInit, h1, h2, h3, a0, a1, a2, a3, b0, b1] <;> (apply St.ext' <;> simp [add, only, h1, h2, h3, b0, b1] <;> grind (splits := 24) (gen := 30) (ematch := 30) [upd])
  cases b2 : ok (.get .uniTbl)
  · simp [lcacheInit, lcacheFini, hmapqsInit, hmapqsFini, orUndo, andThen, acq, put, chk, rel, relIf, upd, Obj.heap, mdInit, h1, h2, h3, a0, a1, a2, a3, b0, b1, b2] <;> (apply St.ext' <;> simp [add, only, h1, h2, h3, b0, b1, b2] <;> grind (splits := 24) (gen := 30) (ematch := 30) [upd])
  cases b3 : ok (.get .vniTbl)
  · simp [lcacheInit, lcacheFini, hmapqsInit, hmapqsFini, orUndo, andThen, acq, put, chk, rel, relIf, upd, Obj.heap, mdInit, h1, h2, h3, a0, a1, a2, a3, b0, b1, b2, b3] <;> (apply St.ext' <;> simp [add, only, h1, h2, h3, b0, b1, b2, b3] <;> grind (splits := 24) (gen := 30) (ematch := 30) [upd])
  simp [lcacheInit, lcacheFini, hmapqsInit, hmapqsFini, orUndo, andThen, acq, put, chk, rel, relIf, upd, Obj.heap, mdInit, h1, h2, h3, a0, a1, a2, a3, b0, b1, b2, b3] <;> (apply St.ext' <;> simp [add, only, h1, h2, h3, b0, b1, b2, b3] <;> grind (splits := 24) (gen := 30) (ematch := 30) [upd])

theorem lcache_U : Undo Live (lcacheFini) (only [.uamapTbl, .nilBlk, .uniTbl, .vniTbl]) := by
  intro s hl hf
  have h1 := hl.1
  have h2 := hl.2.1
  have h3 := hl.2.2
  have a0 := hf .uamapTbl (by decide)
  have a1 := hf .nilBlk (by decide)
  have a2 := hf .uniTbl (by decide)
  have a3 := hf .vniTbl (by decide)
  simp [lcacheFini, hmapqsFini, add, only, orUndo, andThen, acq, put, chk, rel, relIf, upd, Obj.heap, mdInit, h1, h2, h3, a0, a1, a2, a3] <;> (apply St.ext' <;> simp [add, only, h1, h2, h3] <;> grind (splits := 24) (gen := 30) (ematch := 30) [upd])

theorem submitq_S : S Live (submitqInit ok) (only [.smqMutex])
    (ok (.get .smqMutex)) := by
  intro s hl hf
  have h1 := hl.1
  have h2 := hl.2.1
  have h3 := hl.2.2
  have a0 := hf .smqMutex (by decide)
  cases b0 : ok (.get .smqMutex)
  · simp [submitqInit, orUndo, andThen, acq, put, chk, rel, relIf, upd, Obj.heap, mdInit, h1, h2, h3, a0, b0] <;> (apply St.ext' <;> simp [add, only, h1, h2, h3, b0] <;> grind (splits := 24) (gen := 30) (ematch := 30) [upd])
  simp [submitqInit, orUndo, andThen, acq, put, chk, rel, relIf, upd, Obj.heap, mdInit, h1, h2, h3, a0, b0] <;> (apply St.ext' <;> simp [add, only, h1, h2, h3, b0] <;> grind (splits := 24) (gen := 30) (ematch := 30) [upd])

theorem submitq_U : Undo Live (submitqFini) (only [.smqMutex]) := by
  intro s hl hf
  have h1 := hl.1
  have h2 := hl.2.1
  have h3 := hl.2.2
  have a0 := hf .smqMutex (by decide)
  simp [submitqFini, add, only, orUndo, andThen, acq, put, chk, rel, relIf, upd, Obj.heap, mdInit, h1, h2, h3, a0] <;> (apply St.ext' <;> simp [add, only, h1, h2, h3] <;> grind (splits := 24) (gen := 30) (ematch := 30) [upd])

theorem bstore_S : S Live (bstoreInit ok) (only [.pcacheTbl])
    (ok (.get .pcacheTbl)) := by
  intro s hl hf
  have h1 := hl.1
  have h2 := hl.2.1
  have h3 := hl.2.2
  have a0 := hf .pcacheTbl (by decide)
  cases b0 : ok (.get .pcacheTbl)
  · simp [bstoreInit, orUndo, andThen, acq, put, chk, rel, relIf, upd, Obj.heap, mdInit, h1, h2, h3, a0, b0] <;> (apply St.ext' <;> simp [add, only, h1, h2, h3, b0] <;> grind (splits := 24) (gen := 30) (ematch := 30) [upd])
  simp [bstoreInit, orUndo, andThen, acq, put, chk, rel, relIf, upd, Obj.heap, mdInit, h1, h2, h3, a0, b0] <;> (apply St.ext' <;> simp [add, only, h1, h2, h3, b0] <;> grind (splits := 24) (gen := 30) (ematch := 30) [upd])

theorem bstore_U : Undo Live (bstoreFini) (only [.pcacheTbl]) := by
  intro s hl hf
  have h1 := hl.1
  have h2 := hl.2.1
  have h3 := hl.2.2
  have a0 := hf .pcacheTbl (by decide)
  simp [bstoreFini, add, only, orUndo, andThen, acq, put, chk, rel, relIf, upd, Obj.heap, mdInit, h1, h2, h3, a0] <;> (apply St.ext' <;> simp [add, only, h1, h2, h3] <;> grind (splits := 24) (gen := 30) (ematch := 30) [upd])

theorem repo_U : Undo Live (repoFini) (only [.repoMd, .repoTbl, .repoMutex]) := by
  intro s hl hf
  have h1 := hl.1
  have h2 := hl.2.1
  have h3 := hl.2.2
  have a0 := hf .repoMd (by decide)
  have a1 := hf .repoTbl (by decide)
  have a2 := hf .repoMutex (by decide)
  simp [repoFini, add, only, orUndo, andThen, acq, put, chk, rel, relIf, upd, Obj.heap, mdInit, h1, h2, h3, a0, a1, a2] <;> (apply St.ext' <;> simp [add, only, h1, h2, h3] <;> grind (splits := 24) (gen := 30) (ematch := 30) [upd])

theorem envInit_S : S Live (envInit ok) (only [.envRw, .envMutex, .bootCipher, .envMd, .encCipher, .decCipher, .iconv])
    (ok .brefType && ok (.get .envRw) && ok (.get .envMutex) && ok (.get .bootCipher) && ok (.get .envMd) && ok .envEnable && ok (.get .encCipher) && ok (.get .decCipher) && ok (.get .iconv)) := by
  intro s hl hf
  have h1 := hl.1
  have h2 := hl.2.1
  have h3 := hl.2.2
  have a0 := hf .envRw (by decide)
  have a1 := hf .envMutex (by decide)
  have a2 := hf .bootCipher (by decide)
  have a3 := hf .envMd (by decide)
  have a4 := hf .encCipher (by decide)
  have a5 := hf .decCipher (by decide)
  have a6 := hf .iconv (by decide)
  cases b0 : ok .brefType
  · simp [envInit, envLocks, envLocksFini, envCrypto, envCryptoFini, envFini, orUndo, andThen, acq, put, chk, rel, relIf, upd, Obj.heap, mdInit, h1, h2, h3, a0, a1, a2, a3, a4, a5, a6, b0] <;> (apply St.ext' <;> simp [add, only, h1, h2, h3, b0] <;> grind (splits := 24) (gen := 30) (ematch := 30) [upd])
  cases b1 : ok (.get .envRw)
  · simp [envInit, envLocks, envLocksFini, envCrypto, envCryptoFini, envFini, orUndo, andThen, acq, put, chk, rel, relIf, upd, Obj.heap, mdInit, h1, h2, h3, a0, a1, a2, a3, a4, a5, a6, b0, b1] <;> (apply St.ext' <;> simp [add, only, h1, h2, h3, b0, b1] <;> grind (splits := 24) (gen := 30) (ematch := 30) [upd])
  cases b2 : ok (.get .envMutex)
  · simp [envInit, envLocks, envLocksFini, envCrypto, envCryptoFini, envFini, orUndo, andThen, acq, put, chk, rel, relIf, upd, Obj.heap, mdInit, h1, h2, h3, a0, a1, a2, a3, a4, a5, a6, b0, b1, b2] <;> (apply St.ext' <;> simp [add, only, h1, h2, h3, b0, b1, b2] <;> grind (splits := 24) (gen := 30) (ematch := 30) [upd])
  cases b3 : ok (.get .bootCipher)
  · simp [envInit, envLocks, envLocksFini, envCrypto, envCryptoFini, envFini, orUndo, andThen, acq, put, chk, rel, relIf, upd, Obj.heap, mdInit, h1, h2, h3, a0, a1, a2, a3, a4, a5, a6, b0, b1, b2, b3] <;> (apply St.ext' <;> simp [add, only, h1, h2, h3, b0, b1, b2, b3] <;> grind (splits := 24) (gen := 30) (ematch := 30) [upd])
  cases b4 : ok (.get .envMd)
  · simp [envInit, envLocks, envLocksFini, envCrypto, envCryptoFini, envFini, orUndo, andThen, acq, put, chk, rel, relIf, upd, Obj.heap, mdInit, h1, h2, h3, a0, a1, a2, a3, a4, a5, a6, b0, b1, b2, b3, b4] <;> (apply St.ext' <;> simp [add, only, h1, h2, h3, b0, b1, b2, b3, b4] <;> grind (splits := 24) (gen := 30) (ematch := 30) [upd])
  cases b5 : ok .envEnable
  · simp [envInit, envLocks, envLocksFini, envCrypto, envCryptoFini, envFini, orUndo, andThen, acq, put, chk, rel, relIf, upd, Obj.heap, mdInit, h1, h2, h3, a0, a1, a2, a3, a4, a5, a6, b0, b1, b2, b3, b4, b5] <;> (apply St.ext' <;> simp [add, only, h1, h2, h3, b0, b1, b2, b3, b4, b5] <;> grind (splits := 24) (gen := 30) (ematch := 30) [upd])
  cases b6 : ok (.get .encCipher)
  · simp [envInit, envLocks, envLocksFini, envCrypto, envCryptoFini, envFini, orUndo, andThen, acq, put, chk, rel, relIf, upd, Obj.heap, mdInit, h1, h2, h3, a0, a1, a2, a3, a4, a5, a6, b0, b1, b2, b3, b4, b5, b6] <;> (apply St.ext' <;> simp [add, only, h1, h2, h3, b0, b1, b2, b3, b4, b5, b6] <;> grind (splits := 24) (gen := 30) (ematch := 30) [upd])
  cases b7 : ok (.get .decCipher)
  · simp [envInit, envLocks, envLocksFini, envCrypto, envCryptoFini, envFini, orUndo, andThen, acq, put, chk, rel, relIf, upd, Obj.heap, mdInit, h1, h2, h3, a0, a1, a2, a3, a4, a5, a6, b0, b1, b2, b3, b4, b5, b6, b7] <;> (apply St.ext' <;> simp [add, only, h1, h2, h3, b0, b1, b2, b3, b4, b5, b6, b7] <;> grind (splits := 24) (gen := 30) (ematch := 30) [upd])
  cases b8 : ok (.get .iconv)
  · simp [envInit, envLocks, envLocksFini, envCrypto, envCryptoFini, envFini, orUndo, andThen, acq, put, chk, rel, relIf, upd, Obj.heap, mdInit, h1, h2, h3, a0, a1, a2, a3, a4, a5, a6, b0, b1, b2, b3, b4, b5, b6, b7, b8] <;> (apply St.ext' <;> simp [add, only, h1, h2, h3, b0, b1, b2, b3, b4, b5, b6, b7, b8] <;> grind (splits := 24) (gen := 30) (ematch := 30) [upd])
  simp [envInit, envLocks, envLocksFini, envCrypto, envCryptoFini, envFini, orUndo, andThen, acq, put, chk, rel, relIf, upd, Obj.heap, mdInit, h1, h2, h3, a0, a1, a2, a3, a4, a5, a6, b0, b1, b2, b3, b4, b5, b6, b7, b8] <;> (apply St.ext' <;> simp [add, only, h1, h2, h3, b0, b1, b2, b3, b4, b5, b6, b7, b8] <;> grind (splits := 24) (gen := 30) (ematch := 30) [upd])

theorem env_U : Undo Live (envFini) (only [.envRw, .envMutex, .bootCipher, .envMd, .encCipher, .decCipher, .iconv]) := by
  intro s hl hf
  have h1 := hl.1
  have h2 := hl.2.1
  have h3 := hl.2.2
  have a0 := hf .envRw (by decide)
  have a1 := hf .envMutex (by decide)
  have a2 := hf .bootCipher (by decide)
  have a3 := hf .envMd (by decide)
  have a4 := hf .encCipher (by decide)
  have a5 := hf .decCipher (by decide)
  have a6 := hf .iconv (by decide)
  simp [envFini, envLocksFini, envCryptoFini, add, only, orUndo, andThen, acq, put, chk, rel, relIf, upd, Obj.heap, mdInit, h1, h2, h3, a0, a1, a2, a3, a4, a5, a6] <;> (apply St.ext' <;> simp [add, only, h1, h2, h3] <;> grind (splits := 24) (gen := 30) (ematch := 30) [upd])

theorem fqLocks_S : S Live (fqLocks ok) (only [.fqSem, .fqCh, .fqOp, .fqCtl])
    (ok (.get .fqSem) && ok (.get .fqCh) && ok (.get .fqOp) && ok (.get .fqCtl)) := by
  intro s hl hf
  have h1 := hl.1
  have h2 := hl.2.1
  have h3 := hl.2.2
  have a0 := hf .fqSem (by decide)
  have a1 := hf .fqCh (by decide)
  have a2 := hf .fqOp (by decide)
  have a3 := hf .fqCtl (by decide)
  cases b0 : ok (.get .fqSem)
  · simp [fqLocks, orUndo, andThen, acq, put, chk, rel, relIf, upd, Obj.heap, mdInit, h1, h2, h3, a0, a1, a2, a3, b0] <;> (apply St.ext' <;> simp [add, only, h1, h2, h3, b0] <;> grind (splits := 24) (gen := 30) (ematch := 30) [upd])
  cases b1 : ok (.get .fqCh)
  · simp [fqLocks, orUndo, andThen, acq, put, chk, rel, relIf, upd, Obj.heap, mdInit, h1, h2, h3, a0, a1, a2, a3, b0, b1] <;> (apply St.ext' <;> simp [add, only, h1, h2, h3, b0, b1] <;> grind (splits := 24) (gen := 30) (ematch := 30) [upd])
  cases b2 : ok (.get .fqOp)
  · simp [fqLocks, orUndo, andThen, acq, put, chk, rel, relIf, upd, Obj.heap, mdInit, h1, h2, h3, a0, a1, a2, a3, b0, b1, b2] <;> (apply St.ext' <;> simp [add, only, h1, h2, h3, b0, b1, b2] <;> grind (splits := 24) (gen := 30) (ematch := 30) [upd])
  cases b3 : ok (.get .fqCtl)
  · simp [fqLocks, orUndo, andThen, acq, put, chk, rel, relIf, upd, Obj.heap, mdInit, h1, h2, h3, a0, a1, a2, a3, b0, b1, b2, b3] <;> (apply St.ext' <;> simp [add, only, h1, h2, h3, b0, b1, b2, b3] <;> grind (splits := 24) (gen := 30) (ematch := 30) [upd])
  simp [fqLocks, orUndo, andThen, acq, put, chk, rel, relIf, upd, Obj.heap, mdInit, h1, h2, h3, a0, a1, a2, a3, b0, b1, b2, b3] <;> (apply St.ext' <;> simp [add, only, h1, h2, h3, b0, b1, b2, b3] <;> grind (splits := 24) (gen := 30) (ematch := 30) [upd])

theorem fqLocks_U : Undo Live (fqLocksFini) (only [.fqSem, .fqCh, .fqOp, .fqCtl]) := by
  intro s hl hf
  have h1 := hl.1
  have h2 := hl.2.1
  have h3 := hl.2.2
  have a0 := hf .fqSem (by decide)
  have a1 := hf .fqCh (by decide)
  have a2 := hf .fqOp (by decide)
  have a3 := hf .fqCtl (by decide)
  simp [fqLocksFini, add, only, orUndo, andThen, acq, put, chk, rel, relIf, upd, Obj.heap, mdInit, h1, h2, h3, a0, a1, a2, a3] <;> (apply St.ext' <;> simp [add, only, h1, h2, h3] <;> grind (splits := 24) (gen := 30) (ematch := 30) [upd])

theorem pool_S : S Well (poolInit ok) (only [.poolMutex, .dataFd, .dataMap, .metaFd, .metaMap])
    (ok (.get .poolMutex) && ok (.get .dataFd) && ok .dataTrunc && ok (.get .dataMap) && ok (.get .metaFd) && ok .metaTrunc && ok (.get .metaMap)) := by
  intro s hl hf
  have h1 := hl.1
  have h2 := hl.2
  have a0 := hf .poolMutex (by decide)
  have a1 := hf .dataFd (by decide)
  have a2 := hf .dataMap (by decide)
  have a3 := hf .metaFd (by decide)
  have a4 := hf .metaMap (by decide)
  cases b0 : ok (.get .poolMutex)
  · simp [poolInit, poolMemfds, dataSetup, metaSetup, dataClose, metaClose, orUndo, andThen, acq, put, chk, rel, relIf, upd, Obj.heap, mdInit, h1, h2, a0, a1, a2, a3, a4, b0] <;> (apply St.ext' <;> simp [add, only, h1, h2, b0] <;> grind (splits := 24) (gen := 30) (ematch := 30) [upd])
  cases b1 : ok (.get .dataFd)
  · simp [poolInit, poolMemfds, dataSetup, metaSetup, dataClose, metaClose, orUndo, andThen, acq, put, chk, rel, relIf, upd, Obj.heap, mdInit, h1, h2, a0, a1, a2, a3, a4, b0, b1] <;> (apply St.ext' <;> simp [add, only, h1, h2, b0, b1] <;> grind (splits := 24) (gen := 30) (ematch := 30) [upd])
  cases b2 : ok .dataTrunc
  · simp [poolInit, poolMemfds, dataSetup, metaSetup, dataClose, metaClose, orUndo, andThen, acq, put, chk, rel, relIf, upd, Obj.heap, mdInit, h1, h2, a0, a1, a2, a3, a4, b0, b1, b2] <;> (apply St.ext' <;> simp [add, only, h1, h2, b0, b1, b2] <;> grind (splits := 24) (gen := 30) (ematch := 30) [upd])
  cases b3 : ok (.get .dataMap)
  · simp [poolInit, poolMemfds, dataSetup, metaSetup, dataClose, metaClose, orUndo, andThen, acq, put, chk, rel, relIf, upd, Obj.heap, mdInit, h1, h2, a0, a1, a2, a3, a4, b0, b1, b2, b3] <;> (apply St.ext' <;> simp [add, only, h1, h2, b0, b1, b2, b3] <;> grind (splits := 24) (gen := 30) (ematch := 30) [upd])
  cases b4 : ok (.get .metaFd)
  · simp [poolInit, poolMemfds, dataSetup, metaSetup, dataClose, metaClose, orUndo, andThen, acq, put, chk, rel, relIf, upd, Obj.heap, mdInit, h1, h2, a0, a1, a2, a3, a4, b0, b1, b2, b3, b4] <;> (apply St.ext' <;> simp [add, only, h1, h2, b0, b1, b2, b3, b4] <;> grind (splits := 24) (gen := 30) (ematch := 30) [upd])
  cases b5 : ok .metaTrunc
  · simp [poolInit, poolMemfds, dataSetup, metaSetup, dataClose, metaClose, orUndo, andThen, acq, put, chk, rel, relIf, upd, Obj.heap, mdInit, h1, h2, a0, a1, a2, a3, a4, b0, b1, b2, b3, b4, b5] <;> (apply St.ext' <;> simp [add, only, h1, h2, b0, b1, b2, b3, b4, b5] <;> grind (splits := 24) (gen := 30) (ematch := 30) [upd])
  cases b6 : ok (.get .metaMap)
  · simp [poolInit, poolMemfds, dataSetup, metaSetup, dataClose, metaClose, orUndo, andThen, acq, put, chk, rel, relIf, upd, Obj.heap, mdInit, h1, h2, a0, a1, a2, a3, a4, b0, b1, b2, b3, b4, b5, b6] <;> (apply St.ext' <;> simp [add, only, h1, h2, b0, b1, b2, b3, b4, b5, b6] <;> grind (splits := 24) (gen := 30) (ematch := 30) [upd])
  simp [poolInit, poolMemfds, dataSetup, metaSetup, dataClose, metaClose, orUndo, andThen, acq, put, chk, rel, relIf, upd, Obj.heap, mdInit, h1, h2, a0, a1, a2, a3, a4, b0, b1, b2, b3, b4, b5, b6] <;> (apply St.ext' <;> simp [add, only, h1, h2, b0, b1, b2, b3, b4, b5, b6] <;> grind (splits := 24) (gen := 30) (ematch := 30) [upd])

theorem pool_U : Undo Well (poolFini) (only [.poolMutex, .dataFd, .dataMap, .metaFd, .metaMap]) := by
  intro s hl hf
  have h1 := hl.1
  have h2 := hl.2
  have a0 := hf .poolMutex (by decide)
  have a1 := hf .dataFd (by decide)
  have a2 := hf .dataMap (by decide)
  have a3 := hf .metaFd (by decide)
  have a4 := hf .metaMap (by decide)
  simp [poolFini, dataClose, metaClose, add, only, orUndo, andThen, acq, put, chk, rel, relIf, upd, Obj.heap, mdInit, h1, h2, a0, a1, a2, a3, a4] <;> (apply St.ext' <;> simp [add, only, h1, h2] <;> grind (splits := 24) (gen := 30) (ematch := 30) [upd])

theorem idsmapInit_S : S Live (idsmapInit ok) (only [.uhtof, .uftoh, .ghtof, .gftoh])
    (ok (.get .uhtof) && ok (.get .uftoh) && ok (.get .ghtof) && ok (.get .gftoh)) := by
  intro s hl hf
  have h1 := hl.1
  have h2 := hl.2.1
  have h3 := hl.2.2
  have a0 := hf .uhtof (by decide)
  have a1 := hf .uftoh (by decide)
  have a2 := hf .ghtof (by decide)
  have a3 := hf .gftoh (by decide)
  cases b0 : ok (.get .uhtof)
  · simp [idsmapInit, uhmapsInit, uhmapsFini, ghmapsInit, ghmapsFini, orUndo, andThen, acq, put, chk, rel, relIf, upd, Obj.heap, mdInit, h1, h2, h3, a0, a1, a2, a3, b0] <;> (apply St.ext' <;> simp [add, only, h1, h2, h3, b0] <;> grind (splits := 24) (gen := 30) (ematch := 30) [upd])
  cases b1 : ok (.get .uftoh)
  · simp [idsmapInit, uhmapsInit, uhmapsFini, ghmapsInit, ghmapsFini, orUndo, andThen, acq, put, chk, rel, relIf, upd, Obj.heap, mdInit, h1, h2, h3, a0, a1, a2, a3, b0, b1] <;> (apply St.ext' <;> simp [add, only, h1, h2, h3, b0, b1] <;> grind (splits := 24) (gen := 30) (ematch := 30) [upd])
  cases b2 : ok (.get .ghtof)
  · simp [idsmapInit, uhmapsInit, uhmapsFini, ghmapsInit, ghmapsFini, orUndo, andThen, acq, put, chk, rel, relIf, upd, Obj.heap, mdInit, h1, h2, h3, a0, a1, a2, a3, b0, b1, b2] <;> (apply St.ext' <;> simp [add, only, h1, h2, h3, b0, b1, b2] <;> grind (splits := 24) (gen := 30) (ematch := 30) [upd])
  cases b3 : ok (.get .gftoh)
  · simp [idsmapInit, uhmapsInit, uhmapsFini, ghmapsInit, ghmapsFini, orUndo, andThen, acq, put, chk, rel, relIf, upd, Obj.heap, mdInit, h1, h2, h3, a0, a1, a2, a3, b0, b1, b2, b3] <;> (apply St.ext' <;> simp [add, only, h1, h2, h3, b0, b1, b2, b3] <;> grind (splits := 24) (gen := 30) (ematch := 30) [upd])
  simp [idsmapInit, uhmapsInit, uhmapsFini, ghmapsInit, ghmapsFini, orUndo, andThen, acq, put, chk, rel, relIf, upd, Obj.heap, mdInit, h1, h2, h3, a0, a1, a2, a3, b0, b1, b2, b3] <;> (apply St.ext' <;> simp [add, only, h1, h2, h3, b0, b1, b2, b3] <;> grind (splits := 24) (gen := 30) (ematch := 30) [upd])

theorem hmaps_U : Undo Live (fun s => ghmapsFini (uhmapsFini s)) (only [.uhtof, .uftoh, .ghtof, .gftoh]) := by
  intro s hl hf
  have h1 := hl.1
  have h2 := hl.2.1
  have h3 := hl.2.2
  have a0 := hf .uhtof (by decide)
  have a1 := hf .uftoh (by decide)
  have a2 := hf .ghtof (by decide)
  have a3 := hf .gftoh (by decide)
  simp [uhmapsFini, ghmapsFini, add, only, orUndo, andThen, acq, put, chk, rel, relIf, upd, Obj.heap, mdInit, h1, h2, h3, a0, a1, a2, a3] <;> (apply St.ext' <;> simp [add, only, h1, h2, h3] <;> grind (splits := 24) (gen := 30) (ematch := 30) [upd])

/-! ## Loops -/

theorem add_live {P : Obj → Bool} {s : St} (h : Live s) : Live (add P s) :=
  ⟨h.1, h.2.1, by simp [add, h.2.2]⟩

theorem add_well {P : Obj → Bool} {s : St} (h : Well s) : Well (add P s) := h

theorem add_add (P Q : Obj → Bool) (s : St) :
    add Q (add P s) = add (fun o => P o || Q o) s := by
  apply St.ext' <;> simp [add]
  intro o
  cases P o <;> cases Q o <;> simp

/-- `p` holds of 0, …, n-1. -/
def allB (p : Nat → Bool) : Nat → Bool
  | 0 => true
  | n + 1 => allB p n && p n

theorem allB_iff (p : Nat → Bool) (n : Nat) : allB p n = true ↔ ∀ i, i < n → p i = true := by
  induction n with
  | zero => simp [allB]
  | succ n ih =>
    simp only [allB, Bool.and_eq_true, ih]
    constructor
    · intro ⟨h1, h2⟩ i hi
      by_cases hn : i = n
      · rw [hn]; exact h2
      · exact h1 i (by omega)
    · intro h
      exact ⟨fun i hi => h i (by omega), h n (by omega)⟩

/-- The first `n` of a family of things. -/
def fam (mk : Nat → Obj) (n : Nat) : Obj → Bool :=
  fun o => (List.range n).any fun i => decide (o = mk i)

theorem fam_iff {mk : Nat → Obj} {n : Nat} {o : Obj} :
    fam mk n o = true ↔ ∃ i, i < n ∧ o = mk i := by
  simp [fam, List.any_eq_true]

theorem fam_succ (mk : Nat → Obj) (n : Nat) (s : St) :
    add (fam mk (n + 1)) s = add (fam mk n) (add (only [mk n]) s) := by
  apply St.ext' <;> simp [add, fam, only, List.range_succ]
  intro o
  cases s.held o <;> cases decide (o = mk n) <;> simp

theorem fam_succ' (mk : Nat → Obj) (n : Nat) (s : St) :
    add (fam mk (n + 1)) s = add (only [mk n]) (add (fam mk n) s) := by
  apply St.ext' <;> simp [add, fam, only, List.range_succ]
  intro o
  cases s.held o <;> cases decide (o = mk n) <;> simp

theorem fam_zero (mk : Nat → Obj) (s : St) : add (fam mk 0) s = s := by
  apply St.ext' <;> simp [add, fam]

/-- One thing, acquired. -/
theorem acq_S (o : Obj) : S Live (acq ok o) (only [o]) (ok (.get o)) := by
  intro s ⟨h1, h2, h3⟩ hf
  have a := hf o (by simp [only])
  cases b : ok (.get o)
  · simp [acq, b, h1]
  · simp [acq, b, h1, a, h2, h3]
    apply St.ext'
    · intro p
      by_cases hp : p = o <;> simp [hp, add, only, upd]
    · intro p; rfl
    · simp [add, h2]
    · simp [add, h1]

/-- One thing that is not memory, acquired. -/
theorem acq_S0 (o : Obj) (ho : o.heap = false) : S Well (acq ok o) (only [o]) (ok (.get o)) := by
  intro s ⟨h1, h2⟩ hf
  have a := hf o (by simp [only])
  cases b : ok (.get o)
  · simp [acq, b, h1]
  · simp [acq, b, h1, a, h2, ho]
    apply St.ext'
    · intro p
      by_cases hp : p = o <;> simp [hp, add, only, upd]
    · intro p; rfl
    · simp [add, h2]
    · simp [add, h1]

theorem rel_U (o : Obj) : Undo Live (rel o) (only [o]) := by
  intro s ⟨h1, h2, h3⟩ hf
  have a := hf o (by simp [only])
  apply St.ext' <;> simp [rel, add, only, h1, h2, h3, upd]
  intro p
  by_cases hp : p = o <;> simp [hp, a]

theorem rel_U0 (o : Obj) (ho : o.heap = false) : Undo Well (rel o) (only [o]) := by
  intro s ⟨h1, h2⟩ hf
  have a := hf o (by simp [only])
  apply St.ext' <;> simp [rel, add, only, h1, h2, ho, upd]
  intro p
  by_cases hp : p = o <;> simp [hp, a]

theorem relIf_U (o : Obj) : Undo Live (relIf o) (only [o]) := by
  intro s hl hf
  have : (add (only [o]) s).held o = true := by simp [add, only]
  unfold relIf
  rw [if_pos this]
  exact rel_U o s hl hf

theorem relIf_none {o : Obj} {s : St} (h : s.held o = false) : relIf o s = s := by
  simp [relIf, h]

section slabs

theorem slabs_U (n : Nat) (s : St) (hl : Well s) (hf : Fresh (fam .slab n) s) :
    each (fun i => rel (.slab i)) n (add (fam .slab n) s) = s := by
  induction n generalizing s with
  | zero => exact fam_zero _ s
  | succ n ih =>
    have hfn : Fresh (only [.slab n]) s := fun o ho => by
      simp [only] at ho
      exact hf o (fam_iff.2 ⟨n, by omega, ho⟩)
    rw [fam_succ]
    simp only [each]
    rw [ih _ (add_well hl) ?_]
    · exact rel_U0 _ rfl s hl hfn
    · intro o ho
      obtain ⟨i, hi, rfl⟩ := fam_iff.1 ho
      have := hf (.slab i) (fam_iff.2 ⟨i, by omega, rfl⟩)
      simp [add, only, this]
      omega

theorem slabs_S (n : Nat) :
    S Well (slabsInit ok n) (fam .slab n) (allB (fun i => ok (.get (.slab i))) n) := by
  induction n with
  | zero => intro s _ _; simp [slabsInit, allB, fam_zero]
  | succ n ih =>
    intro s hl hf
    have hfn : Fresh (fam .slab n) s := fun o ho => by
      obtain ⟨i, hi, rfl⟩ := fam_iff.1 ho
      exact hf _ (fam_iff.2 ⟨i, by omega, rfl⟩)
    have hf1 : Fresh (only [.slab n]) (add (fam .slab n) s) := fun o ho => by
      simp [only] at ho
      subst ho
      have h1 := hf (.slab n) (fam_iff.2 ⟨n, by omega, rfl⟩)
      simp [add, h1, fam]
      intro x hx
      omega
    simp only [slabsInit, andThen, ih s hl hfn, allB]
    rcases Bool.eq_false_or_eq_true (allB (fun i => ok (.get (.slab i))) n) with hb | hb
    rotate_left
    · simp [hb]
    · simp only [hb, if_true, orUndo, acq_S0 ok (.slab n) rfl _ (add_well hl) hf1, Bool.true_and]
      cases ok (.get (.slab n))
      · simp [slabs_U n s hl hfn]
      · simp [fam_succ']

end slabs

/-! ## The map of ids -/

theorem upTo_acq (mk : Nat → Obj) (hmk : ∀ i j, mk i = mk j → i = j) (n : Nat) (s : St)
    (hl : Live s) (hf : Fresh (fam mk n) s) :
    ∃ k, k ≤ n ∧ upTo (fun i => acq ok (mk i)) n s
        = (allB (fun i => ok (.get (mk i))) n, add (fam mk k) s)
      ∧ (allB (fun i => ok (.get (mk i))) n = true → k = n) := by
  induction n with
  | zero => exact ⟨0, Nat.le_refl _, by simp [upTo, allB, fam_zero], fun _ => rfl⟩
  | succ n ih =>
    have hfn : Fresh (fam mk n) s := fun o ho => by
      obtain ⟨i, hi, rfl⟩ := fam_iff.1 ho
      exact hf _ (fam_iff.2 ⟨i, by omega, rfl⟩)
    obtain ⟨k, hk, he, hk2⟩ := ih hfn
    simp only [upTo, andThen, he, allB]
    cases hb : allB (fun i => ok (.get (mk i))) n
    · exact ⟨k, by omega, by simp, by simp⟩
    · have hkn := hk2 hb
      subst hkn
      have hf1 : Fresh (only [mk k]) (add (fam mk k) s) := fun o ho => by
        simp [only] at ho
        subst ho
        have h1 := hf (mk k) (fam_iff.2 ⟨k, by omega, rfl⟩)
        simp only [add, h1, Bool.or_false]
        cases hx : fam mk k (mk k)
        · rfl
        · obtain ⟨i, hi, hi2⟩ := fam_iff.1 hx
          have := hmk _ _ hi2
          omega
      simp only [acq_S ok (mk k) _ (add_live hl) hf1, Bool.true_and]
      cases ok (.get (mk k))
      · exact ⟨k, by omega, by simp, by simp⟩
      · exact ⟨k + 1, Nat.le_refl _, by simp [fam_succ'], fun _ => rfl⟩

theorem each_relIf (mk : Nat → Obj) (hmk : ∀ i j, mk i = mk j → i = j) (n k : Nat) (hk : k ≤ n)
    (s : St) (hl : Live s) (hf : Fresh (fam mk n) s) :
    each (fun i => relIf (mk i)) n (add (fam mk k) s) = s := by
  induction n generalizing s k with
  | zero =>
    have : k = 0 := by omega
    subst this
    exact fam_zero _ s
  | succ n ih =>
    have hfn : Fresh (fam mk n) s := fun o ho => by
      obtain ⟨i, hi, rfl⟩ := fam_iff.1 ho
      exact hf _ (fam_iff.2 ⟨i, by omega, rfl⟩)
    have h1 := hf (mk n) (fam_iff.2 ⟨n, by omega, rfl⟩)
    simp only [each]
    by_cases hkn : k = n + 1
    · subst hkn
      rw [fam_succ, ih n (Nat.le_refl _) _ (add_live hl) ?_]
      · exact relIf_U _ s hl (fun o ho => by simp [only] at ho; rw [ho]; exact h1)
      · intro o ho
        obtain ⟨i, hi, rfl⟩ := fam_iff.1 ho
        have h2 := hfn (mk i) ho
        simp [add, only, h2]
        intro h3
        have := hmk _ _ h3
        omega
    · rw [ih k (by omega) s hl hfn]
      exact relIf_none h1

/-- The things of the map of ids. -/
def idsP (nu ng : Nat) : Obj → Bool :=
  fun o => only [.uhtof, .uftoh, .ghtof, .gftoh] o || (fam .uidEnt nu o || fam .gidEnt ng o)

theorem idsClear_at (nu ng k j : Nat) (hk : k ≤ nu) (hj : j ≤ ng) (s : St) (hl : Live s)
    (hf : Fresh (fam .uidEnt nu) s) (hg : Fresh (fam .gidEnt ng) s) :
    idsmapClear nu ng (add (fam .gidEnt j) (add (fam .uidEnt k) s)) = s := by
  have hsw : add (fam .gidEnt j) (add (fam .uidEnt k) s) = add (fam .uidEnt k) (add (fam .gidEnt j) s) := by
    rw [add_add, add_add]
    apply St.ext' <;> simp [add]
    intro o
    cases fam .gidEnt j o <;> cases fam .uidEnt k o <;> simp
  rw [hsw]
  unfold idsmapClear
  rw [each_relIf .uidEnt (fun i j h => by simpa using h) nu k hk _ (add_live hl) ?_]
  · exact each_relIf .gidEnt (fun i j h => by simpa using h) ng j hj s hl hg
  · intro o ho
    have h2 := hf o ho
    obtain ⟨i, hi, rfl⟩ := fam_iff.1 ho
    simp [add, h2, fam]

theorem ids_add (nu ng : Nat) (s : St) :
    add (idsP nu ng) s = add (fam .gidEnt ng) (add (fam .uidEnt nu)
      (add (only [.uhtof, .uftoh, .ghtof, .gftoh]) s)) := by
  apply St.ext' <;> simp [add, idsP]
  intro o
  cases s.held o <;> cases only [.uhtof, .uftoh, .ghtof, .gftoh] o <;> cases fam .uidEnt nu o <;>
    cases fam .gidEnt ng o <;> simp

theorem ids_S (nu ng : Nat) : S Live (idsmapSetup ok nu ng) (idsP nu ng)
    ((ok (.get .uhtof) && ok (.get .uftoh) && ok (.get .ghtof) && ok (.get .gftoh)) &&
      (allB (fun i => ok (.get (.uidEnt i))) nu && allB (fun i => ok (.get (.gidEnt i))) ng)) := by
  intro s hl hf
  have hf0 : Fresh (only [.uhtof, .uftoh, .ghtof, .gftoh]) s := fun o ho =>
    hf o (by simp [idsP, ho])
  have e0 := idsmapInit_S ok s hl hf0
  simp only [idsmapSetup, andThen, e0]
  cases hc : ok (.get .uhtof) && ok (.get .uftoh) && ok (.get .ghtof) && ok (.get .gftoh)
  · simp
  · have hl1 : Live (add (only [.uhtof, .uftoh, .ghtof, .gftoh]) s) := add_live hl
    have hfu : Fresh (fam .uidEnt nu) (add (only [.uhtof, .uftoh, .ghtof, .gftoh]) s) := by
      intro o ho
      have h2 := hf o (by simp [idsP, ho])
      obtain ⟨i, hi, rfl⟩ := fam_iff.1 ho
      simp [add, h2, only]
    have hfg : Fresh (fam .gidEnt ng) (add (only [.uhtof, .uftoh, .ghtof, .gftoh]) s) := by
      intro o ho
      have h2 := hf o (by simp [idsP, ho])
      obtain ⟨i, hi, rfl⟩ := fam_iff.1 ho
      simp [add, h2, only]
    have hback : ∀ k j, k ≤ nu → j ≤ ng →
        idsmapFini nu ng (add (fam .gidEnt j) (add (fam .uidEnt k)
          (add (only [.uhtof, .uftoh, .ghtof, .gftoh]) s))) = s := by
      intro k j hk hj
      unfold idsmapFini
      rw [idsClear_at nu ng k j hk hj _ hl1 hfu hfg]
      exact hmaps_U s hl hf0
    obtain ⟨k, hk, hu, hku⟩ := upTo_acq ok .uidEnt (fun i j h => by simpa using h) nu _ hl1 hfu
    simp only [if_true, orUndo, andThen, hu, Bool.true_and]
    cases hbu : allB (fun i => ok (.get (.uidEnt i))) nu
    · have := hback k 0 hk (Nat.zero_le _)
      rw [fam_zero] at this
      simp [this]
    · have hkn := hku hbu
      subst hkn
      have hfg2 : Fresh (fam .gidEnt ng) (add (fam .uidEnt k) (add (only [.uhtof, .uftoh, .ghtof, .gftoh]) s)) := by
        intro o ho
        have h2 := hfg o ho
        obtain ⟨i, hi, rfl⟩ := fam_iff.1 ho
        have h3 : fam .uidEnt k (.gidEnt i) = false := by simp [fam]
        show (fam .uidEnt k (.gidEnt i) || _) = false
        rw [h3, h2]; rfl
      obtain ⟨j, hj, hg, hjg⟩ := upTo_acq ok .gidEnt (fun i j h => by simpa using h) ng _ (add_live hl1) hfg2
      simp only [hg, Bool.true_and]
      cases hbg : allB (fun i => ok (.get (.gidEnt i))) ng
      · simp [hback k j (Nat.le_refl _) hj]
      · have := hjg hbg
        subst this
        simp [ids_add]

theorem ids_U (nu ng : Nat) :
    Undo Live (fun s => idsmapFini nu ng (idsmapClear nu ng s)) (idsP nu ng) := by
  intro s hl hf
  have hf0 : Fresh (only [.uhtof, .uftoh, .ghtof, .gftoh]) s := fun o ho =>
    hf o (by simp [idsP, ho])
  have hl1 : Live (add (only [.uhtof, .uftoh, .ghtof, .gftoh]) s) := add_live hl
  have hfu : Fresh (fam .uidEnt nu) (add (only [.uhtof, .uftoh, .ghtof, .gftoh]) s) := by
    intro o ho
    have h2 := hf o (by simp [idsP, ho])
    obtain ⟨i, hi, rfl⟩ := fam_iff.1 ho
    simp [add, h2, only]
  have hfg : Fresh (fam .gidEnt ng) (add (only [.uhtof, .uftoh, .ghtof, .gftoh]) s) := by
    intro o ho
    have h2 := hf o (by simp [idsP, ho])
    obtain ⟨i, hi, rfl⟩ := fam_iff.1 ho
    simp [add, h2, only]
  show idsmapFini nu ng (idsmapClear nu ng (add (idsP nu ng) s)) = s
  rw [ids_add, idsClear_at nu ng nu ng (Nat.le_refl _) (Nat.le_refl _) _ hl1 hfu hfg]
  unfold idsmapFini
  have := idsClear_at nu ng 0 0 (Nat.zero_le _) (Nat.zero_le _) _ hl1 hfu hfg
  rw [fam_zero, fam_zero] at this
  rw [this]
  exact hmaps_U s hl hf0

/-! ## Repository and environment -/

/-- The things of the repository object. -/
def repoP : Obj → Bool := only [.repoMd, .repoTbl, .repoMutex]

/-- What the repository object needs. -/
def repoC : Bool :=
  ok (.get .repoMd) && ok .repoEnable && ok (.get .repoTbl) && ok (.get .repoMutex)

theorem repo_W : W Live (repoInit ok) repoP (repoC ok) := by
  intro s hl hf
  have h1 := hl.1
  have h2 := hl.2.1
  have h3 := hl.2.2
  have a0 := hf .repoMd (by decide)
  have a1 := hf .repoTbl (by decide)
  have a2 := hf .repoMutex (by decide)
  cases b0 : ok (.get .repoMd)
  · simp [repoInit, repoC, orUndo, andThen, acq, put, chk, rel, relIf, upd, Obj.heap, mdInit, h1, h2, h3, a0, a1, a2, b0]
  cases b1 : ok .repoEnable
  · simp [repoInit, repoC, orUndo, andThen, acq, put, chk, rel, relIf, upd, Obj.heap, mdInit, h1, h2, h3, a0, a1, a2, b0, b1]
  cases b2 : ok (.get .repoTbl)
  · simp [repoInit, repoC, orUndo, andThen, acq, put, chk, rel, relIf, upd, Obj.heap, mdInit, h1, h2, h3, a0, a1, a2, b0, b1, b2]
  cases b3 : ok (.get .repoMutex)
  · simp [repoInit, repoC, orUndo, andThen, acq, put, chk, rel, relIf, upd, Obj.heap, mdInit, h1, h2, h3, a0, a1, a2, b0, b1, b2, b3]
  simp [repoInit, repoC, orUndo, andThen, acq, put, chk, rel, relIf, upd, Obj.heap, mdInit, h1, h2, h3, a0, a1, a2, b0, b1, b2, b3]
  apply St.ext' <;> simp [add, repoP, only, h1, h2] <;> grind [upd]

theorem repo_S (c1 : ok .repoEnable = true) (c2 : ok (.get .repoTbl) = true)
    (c3 : ok (.get .repoMutex) = true) : S Live (repoInit ok) repoP (repoC ok) := by
  intro s hl hf
  cases b0 : ok (.get .repoMd)
  · simp [repoInit, repoC, orUndo, andThen, acq, put, chk, rel, relIf, upd, Obj.heap, mdInit, hl.1, b0]
  · have hc : repoC ok = true := by simp [repoC, b0, c1, c2, c3]
    rw [hc, (repo_W ok s hl hf).1 hc]
    rfl

/-- The things of the environment. -/
def envP : Obj → Bool :=
  only [.envRw, .envMutex, .bootCipher, .envMd, .encCipher, .decCipher, .iconv]

/-- What `silofs_fsenv_init` needs. -/
def envC : Bool :=
  ok .brefType && ok (.get .envRw) && ok (.get .envMutex) && ok (.get .bootCipher) &&
    ok (.get .envMd) && ok .envEnable && ok (.get .encCipher) && ok (.get .decCipher) &&
    ok (.get .iconv)

theorem env_W (pw : Bool) : W Live (envSetup ok pw) envP (envC ok && (!pw || ok .derive)) := by
  intro s hl hf
  have e := envInit_S ok s hl hf
  have hd : (add envP s).dead = false := hl.1
  rcases Bool.eq_false_or_eq_true (envC ok) with hb | hb
  · have hb' := hb
    unfold envC at hb
    rw [hb] at e
    have e' : envInit ok s = (true, add envP s) := by rw [e]; rfl
    cases pw
    · simp [envSetup, andThen, e', hb']
    · simp [envSetup, andThen, e', hb', chk, hd]
  · have hb' := hb
    unfold envC at hb
    rw [hb] at e
    simp [envSetup, andThen, e, hb']

theorem env_S (pw : Bool) (hd : pw = true → ok .derive = true) :
    S Live (envSetup ok pw) envP (envC ok && (!pw || ok .derive)) := by
  intro s hl hf
  have e := envInit_S ok s hl hf
  rcases Bool.eq_false_or_eq_true (envC ok) with hb | hb
  · have hc : (envC ok && (!pw || ok .derive)) = true := by
      rw [hb]
      cases pw
      · rfl
      · simp [hd rfl]
    rw [hc, (env_W ok pw s hl hf).1 hc]
    rfl
  · have hb' := hb
    unfold envC at hb
    rw [hb] at e
    simp [envSetup, andThen, e, hb']

/-! ## The queue of a mount -/

/-- The buffers of a dispatcher. -/
def bufP (i : Nat) : Obj → Bool := only [.inb i, .outb i, .rwi i]

/-- What a dispatcher needs. -/
def bufC (i : Nat) : Bool := ok (.get (.inb i)) && ok (.get (.outb i)) && ok (.get (.rwi i))

theorem disp_S (i : Nat) : S Live (dispInit ok i) (bufP i) (bufC ok i) := by
  intro s hl hf
  have h1 := hl.1
  have h2 := hl.2.1
  have h3 := hl.2.2
  have a0 := hf (.inb i) (by simp [bufP, only])
  have a1 := hf (.outb i) (by simp [bufP, only])
  have a2 := hf (.rwi i) (by simp [bufP, only])
  cases b0 : ok (.get (.inb i))
  · simp [dispInit, dispBufs, dispFree, bufC, orUndo, andThen, acq, put, chk, rel, relIf, upd, Obj.heap, mdInit, h1, h2, h3, a0, a1, a2, b0]
  cases b1 : ok (.get (.outb i))
  · simp [dispInit, dispBufs, dispFree, bufC, orUndo, andThen, acq, put, chk, rel, relIf, upd, Obj.heap, mdInit, h1, h2, h3, a0, a1, a2, b0, b1]
    apply St.ext' <;> simp [add, h1, h2] <;> grind [upd]
  cases b2 : ok (.get (.rwi i))
  · simp [dispInit, dispBufs, dispFree, bufC, orUndo, andThen, acq, put, chk, rel, relIf, upd, Obj.heap, mdInit, h1, h2, h3, a0, a1, a2, b0, b1, b2]
    apply St.ext' <;> simp [add, h1, h2] <;> grind [upd]
  simp [dispInit, dispBufs, dispFree, bufC, orUndo, andThen, acq, put, chk, rel, relIf, upd, Obj.heap, mdInit, h1, h2, h3, a0, a1, a2, b0, b1, b2]
  apply St.ext' <;> simp [add, bufP, only, h1, h2] <;> grind [upd]

theorem dispFree_U (i : Nat) : Undo Live (dispFree i) (bufP i) := by
  intro s hl hf
  have h1 := hl.1
  have h2 := hl.2.1
  have h3 := hl.2.2
  have a0 := hf (.inb i) (by simp [bufP, only])
  have a1 := hf (.outb i) (by simp [bufP, only])
  have a2 := hf (.rwi i) (by simp [bufP, only])
  simp [dispFree, add, bufP, only, orUndo, andThen, acq, put, chk, rel, relIf, upd, Obj.heap, mdInit, h1, h2, h3, a0, a1, a2]
  apply St.ext' <;> simp [add, bufP, only, h1, h2] <;> grind [upd]

theorem dispFree_none {i : Nat} {s : St} (hf : Fresh (bufP i) s) : dispFree i s = s := by
  have a0 := hf (.inb i) (by simp [bufP, only])
  have a1 := hf (.outb i) (by simp [bufP, only])
  have a2 := hf (.rwi i) (by simp [bufP, only])
  simp [dispFree, relIf, a0, a1, a2]

/-- The buffers of the first `n` dispatchers. -/
def bufsP (n : Nat) : Obj → Bool := fun o => (List.range n).any fun i => bufP i o

theorem bufsP_iff {n : Nat} {o : Obj} :
    bufsP n o = true ↔ ∃ i, i < n ∧ (o = .inb i ∨ o = .outb i ∨ o = .rwi i) := by
  simp [bufsP, bufP, only, List.any_eq_true]

theorem bufP_iff {i : Nat} {o : Obj} :
    bufP i o = true ↔ (o = .inb i ∨ o = .outb i ∨ o = .rwi i) := by
  simp [bufP, only]

theorem bufsP_zero (s : St) : add (bufsP 0) s = s := by
  apply St.ext' <;> simp [add, bufsP]

theorem bufsP_succ (n : Nat) (s : St) : add (bufsP (n + 1)) s = add (bufsP n) (add (bufP n) s) := by
  apply St.ext' <;> simp [add, bufsP, List.range_succ]
  intro o
  cases s.held o <;> cases bufP n o <;> simp

theorem bufsP_succ' (n : Nat) (s : St) : add (bufsP (n + 1)) s = add (bufP n) (add (bufsP n) s) := by
  apply St.ext' <;> simp [add, bufsP, List.range_succ]
  intro o
  cases s.held o <;> cases bufP n o <;> simp

theorem bufs_disj {n m : Nat} (h : n ≤ m) {o : Obj} (ho : bufP m o = true) : bufsP n o = false := by
  cases hx : bufsP n o
  · rfl
  · obtain ⟨i, hi, hi2⟩ := bufsP_iff.1 hx
    have h2 := bufP_iff.1 ho
    rcases hi2 with rfl | rfl | rfl <;> simp at h2 <;> omega

theorem fresh_bufs_mono {n m : Nat} (h : n ≤ m) {s : St} (hf : Fresh (bufsP m) s) :
    Fresh (bufsP n) s := fun o ho => by
  obtain ⟨i, hi, hi2⟩ := bufsP_iff.1 ho
  exact hf o (bufsP_iff.2 ⟨i, by omega, hi2⟩)

theorem fresh_buf {n m : Nat} (h : n < m) {s : St} (hf : Fresh (bufsP m) s) :
    Fresh (bufP n) s := fun o ho => hf o (bufsP_iff.2 ⟨n, h, bufP_iff.1 ho⟩)

/-- Initialising the dispatchers stops at the first that cannot be. -/
theorem dispInits_eq (n : Nat) (s : St) (hl : Live s) (hf : Fresh (bufsP n) s) :
    ∃ k, k ≤ n ∧ dispInits ok n s = (k, add (bufsP k) s) ∧
      (∀ i, i < k → bufC ok i = true) ∧ (k < n → bufC ok k = false) := by
  induction n with
  | zero => exact ⟨0, Nat.le_refl _, by simp [dispInits, bufsP_zero], by omega, by omega⟩
  | succ n ih =>
    obtain ⟨k, hk, he, h1, h2⟩ := ih (fresh_bufs_mono (Nat.le_succ n) hf)
    simp only [dispInits, he]
    by_cases hkn : k = n
    · subst hkn
      have hf1 : Fresh (bufP k) (add (bufsP k) s) := fun o ho => by
        have h3 := fresh_buf (Nat.lt_succ_self k) hf o ho
        simp [add, h3, bufs_disj (Nat.le_refl _) ho]
      rw [if_pos rfl, disp_S ok k _ (add_live hl) hf1]
      cases hb : bufC ok k
      · exact ⟨k, by omega, by simp, h1, fun _ => hb⟩
      · refine ⟨k + 1, Nat.le_refl _, by simp [bufsP_succ'], ?_, by omega⟩
        intro i hi
        by_cases h4 : i = k
        · rw [h4]; exact hb
        · exact h1 i (by omega)
    · rw [if_neg hkn]
      exact ⟨k, by omega, rfl, h1, fun _ => h2 (by omega)⟩

/-- Taking down dispatchers that were all seen. -/
theorem dispFinis_seen (seen n m : Nat) (hn : n ≤ seen) (hm : m ≤ n) (s : St) (hl : Live s)
    (hf : Fresh (bufsP n) s) : dispFinis seen n (add (bufsP m) s) = s := by
  induction n generalizing s m with
  | zero =>
    have : m = 0 := by omega
    subst this
    exact bufsP_zero s
  | succ n ih =>
    have hfn := fresh_buf (Nat.lt_succ_self n) hf
    have hd : decide (n < seen) = true := by simp; omega
    by_cases hmn : m = n + 1
    · subst hmn
      have hf2 : Fresh (bufsP n) (add (bufP n) s) := fun o ho => by
        have h3 := fresh_bufs_mono (Nat.le_succ n) hf o ho
        cases hx : bufP n o
        · simp [add, h3, hx]
        · rw [bufs_disj (Nat.le_refl _) hx] at ho
          exact nomatch ho
      have e := ih n (by omega) (Nat.le_refl _) (add (bufP n) s) (add_live hl) hf2
      rw [bufsP_succ]
      show dispFini (decide (n < seen)) n (dispFinis seen n (add (bufsP n) (add (bufP n) s))) = s
      rw [e, hd]
      have hdd : (add (bufP n) s).dead = false := hl.1
      simp only [dispFini, hdd, Bool.false_eq_true, if_false, if_true]
      exact dispFree_U n s hl hfn
    · have e := ih m (by omega) (by omega) s hl (fresh_bufs_mono (Nat.le_succ n) hf)
      show dispFini (decide (n < seen)) n (dispFinis seen n (add (bufsP m) s)) = s
      rw [e, hd]
      simp only [dispFini, hl.1, Bool.false_eq_true, if_false, if_true]
      exact dispFree_none hfn

/-- The things of the queue. -/
def fqP (nd : Nat) : Obj → Bool :=
  fun o => only [.fqMem] o || (only [.fqSem, .fqCh, .fqOp, .fqCtl] o || bufsP nd o)

/-- What the queue needs. -/
def fqC (nd : Nat) : Bool :=
  ok (.get .fqMem) && ((ok (.get .fqSem) && ok (.get .fqCh) && ok (.get .fqOp) && ok (.get .fqCtl)) &&
    allB (bufC ok) nd)

theorem fq_add (nd : Nat) (s : St) : add (fqP nd) s =
    add (bufsP nd) (add (only [.fqSem, .fqCh, .fqOp, .fqCtl]) (add (only [.fqMem]) s)) := by
  apply St.ext' <;> simp [add, fqP]
  intro o
  cases s.held o <;> cases only [.fqMem] o <;> cases only [.fqSem, .fqCh, .fqOp, .fqCtl] o <;>
    cases bufsP nd o <;> simp

theorem fq_fresh {nd : Nat} {s : St} (hf : Fresh (fqP nd) s) :
    Fresh (only [.fqMem]) s ∧
    Fresh (only [.fqSem, .fqCh, .fqOp, .fqCtl]) (add (only [.fqMem]) s) ∧
    Fresh (bufsP nd) (add (only [.fqSem, .fqCh, .fqOp, .fqCtl]) (add (only [.fqMem]) s)) := by
  refine ⟨fun o ho => hf o (by simp [fqP, ho]), fun o ho => ?_, fun o ho => ?_⟩
  · have h1 := hf o (by simp [fqP, ho])
    simp [only] at ho
    rcases ho with rfl | rfl | rfl | rfl <;> simp [add, only, h1]
  · have h1 := hf o (by simp [fqP, ho])
    obtain ⟨i, hi, h2⟩ := bufsP_iff.1 ho
    rcases h2 with rfl | rfl | rfl <;> simp [add, only, h1]

theorem fq_W (nd : Nat) : W Live (fqNew ok nd) (fqP nd) (fqC ok nd) := by
  intro s hl hf
  obtain ⟨f1, f2, f3⟩ := fq_fresh hf
  have hl1 : Live (add (only [.fqMem]) s) := add_live hl
  have hl2 : Live (add (only [.fqSem, .fqCh, .fqOp, .fqCtl]) (add (only [.fqMem]) s)) := add_live hl1
  have e1 := acq_S ok .fqMem s hl f1
  have e2 := fqLocks_S ok _ hl1 f2
  obtain ⟨k, hk, e3, h1, h2⟩ := dispInits_eq ok nd _ hl2 f3
  simp only [fqNew, fqInit, andThen, orUndo, e1]
  rcases Bool.eq_false_or_eq_true (ok (.get .fqMem)) with b1 | b1
  rotate_left
  · simp [b1, fqC]
  rcases Bool.eq_false_or_eq_true (ok (.get .fqSem) && ok (.get .fqCh) && ok (.get .fqOp) && ok (.get .fqCtl)) with b2 | b2
  rotate_left
  · rw [b2] at e2
    simp [b1, b2, e2, fqC]
  rw [b2] at e2
  simp only [b1, e2, if_true, e3]
  rcases Bool.eq_false_or_eq_true (allB (bufC ok) nd) with b3 | b3
  · have hkn : k = nd := by
      rcases Nat.lt_or_ge k nd with h | h
      · have := (allB_iff _ _).1 b3 k h
        rw [h2 h] at this
        exact nomatch this
      · omega
    subst hkn
    constructor
    · intro _
      simp [fq_add]
    · intro h
      simp only [fqC, b1, b2, b3] at h
      exact nomatch h
  · have hkn : k ≠ nd := by
      intro h
      have := (allB_iff (bufC ok) nd).2 (fun i hi => h1 i (by omega))
      rw [b3] at this
      exact nomatch this
    rw [if_neg hkn]
    constructor
    · intro h
      simp only [fqC, b1, b2, b3] at h
      exact nomatch h
    · intro _; rfl

theorem fq_U (nd : Nat) : Undo Live (fqDel nd) (fqP nd) := by
  intro s hl hf
  obtain ⟨f1, f2, f3⟩ := fq_fresh hf
  have hl1 : Live (add (only [.fqMem]) s) := add_live hl
  rw [fq_add]
  unfold fqDel fqFini
  rw [dispFinis_seen nd nd nd (Nat.le_refl _) (Nat.le_refl _) _ (add_live hl1) f3,
    fqLocks_U _ hl1 f2]
  exact rel_U _ s hl f1

theorem fq_S (nd : Nat) (hb : ∀ i, i + 1 < nd → bufC ok i = true) :
    S Live (fqNew ok nd) (fqP nd) (fqC ok nd) := by
  intro s hl hf
  obtain ⟨f1, f2, f3⟩ := fq_fresh hf
  have hl1 : Live (add (only [.fqMem]) s) := add_live hl
  have hl2 : Live (add (only [.fqSem, .fqCh, .fqOp, .fqCtl]) (add (only [.fqMem]) s)) := add_live hl1
  rcases Bool.eq_false_or_eq_true (fqC ok nd) with hc | hc
  · rw [hc, (fq_W ok nd s hl hf).1 hc]; rfl
  rw [hc]
  have e1 := acq_S ok .fqMem s hl f1
  have e2 := fqLocks_S ok _ hl1 f2
  obtain ⟨k, hk, e3, h1, h2⟩ := dispInits_eq ok nd _ hl2 f3
  simp only [fqNew, fqInit, andThen, orUndo, e1]
  rcases Bool.eq_false_or_eq_true (ok (.get .fqMem)) with b1 | b1
  rotate_left
  · simp [b1]
  rcases Bool.eq_false_or_eq_true (ok (.get .fqSem) && ok (.get .fqCh) && ok (.get .fqOp) && ok (.get .fqCtl)) with b2 | b2
  rotate_left
  · rw [b2] at e2
    simp [b1, e2, rel_U .fqMem s hl f1]
  rw [b2] at e2
  simp only [b1, e2, if_true, e3]
  have hkn : k ≠ nd := by
    intro h
    have := (allB_iff (bufC ok) nd).2 (fun i hi => h1 i (by omega))
    simp only [fqC, b1, b2, this] at hc
    exact nomatch hc
  have hk1 : k + 1 = nd := by
    rcases Nat.lt_or_ge (k + 1) nd with h | h
    · have := hb k h
      rw [h2 (by omega)] at this
      exact nomatch this
    · omega
  rw [if_neg hkn, dispFinis_seen (k + 1) nd k (by omega) hk _ hl2 f3, fqLocks_U _ hl1 f2]
  simp [rel_U .fqMem s hl f1]

/-! ## The allocator -/

/-- All is well and nothing of an allocator is held. -/
def NoHeap (s : St) : Prop := Well s ∧ ∀ o, o.heap = true → s.held o = false

/-- What the allocator holds. -/
def allocP (a : Args) : Obj → Bool :=
  if a.std then only [.allocIf]
  else fun o => only [.poolMutex, .dataFd, .dataMap, .metaFd, .metaMap] o ||
    (fam .slab NSLABS o || only [.allocIf] o)

/-- What the pool of the allocator needs. -/
def poolC : Bool :=
  ok (.get .poolMutex) && ok (.get .dataFd) && ok .dataTrunc && ok (.get .dataMap) &&
    ok (.get .metaFd) && ok .metaTrunc && ok (.get .metaMap)

/-- What the allocator needs. -/
def allocC (a : Args) : Bool :=
  ok .memLimits && (decide (2 ^ 28 ≤ a.total) && decide (2 ^ 28 ≤ a.rlim) &&
    (a.std || (poolC ok && allB (fun i => ok (.get (.slab i))) NSLABS)))

theorem put_S (o : Obj) : S Well (put o) (only [o]) true := by
  intro s hl hf
  have h := hf o (by simp [only])
  simp only [put, hl.1, hl.2, h]
  simp
  apply St.ext' <;> simp [add, only, hl.1, hl.2]
  intro x
  by_cases hx : x = o <;> simp [upd, hx]

theorem calcMem_some {want total rlim : Nat} :
    (∃ n, calcMemSize want total rlim = some n) ↔ 2 ^ 28 ≤ total ∧ 2 ^ 28 ≤ rlim := by
  have hG : GIGA / 4 = 2 ^ 28 := by decide
  unfold calcMemSize
  rw [hG]
  by_cases h1 : total < 2 ^ 28
  · rw [if_pos h1]
    exact ⟨fun ⟨_, h⟩ => (nomatch h), fun h => by omega⟩
  · rw [if_neg h1]
    by_cases h2 : rlim < 2 ^ 28
    · rw [if_pos h2]
      exact ⟨fun ⟨_, h⟩ => (nomatch h), fun h => by omega⟩
    · rw [if_neg h2]
      exact ⟨fun _ => ⟨by omega, by omega⟩, fun _ => ⟨_, rfl⟩⟩

/-- The arithmetic of the memory to use, with the constants as numbers. -/
theorem mem_arith (want total rlim m : Nat) (h1 : 268435456 ≤ total) (h2 : 268435456 ≤ rlim)
    (hm : m = min (max want 268435456) (min (min 68719476736 rlim) (total / 4)) / 2097152 * 2097152) :
    67108864 ≤ m ∧ m ≤ 68719476736 ∧ m ≤ rlim ∧ m ≤ total / 4 ∧ m % 2097152 = 0 ∧
      m ≤ max want 268435456 := by
  refine ⟨?_, ?_, ?_, ?_, ?_, ?_⟩ <;> omega

theorem calcMem_eq {want total rlim n : Nat} (h : calcMemSize want total rlim = some n) :
    268435456 ≤ total ∧ 268435456 ≤ rlim ∧
    n = min (max (if want = 0 then 4294967296 else want) 268435456)
      (min (min 68719476736 rlim) (total / 4)) / 2097152 * 2097152 := by
  have h0 := calcMem_some.1 ⟨n, h⟩
  have e1 : GIGA / 4 = 268435456 := by decide
  have e2 : 4 * GIGA = 4294967296 := by decide
  have e3 : 64 * GIGA = 68719476736 := by decide
  have e4 : 2 * MEGA = 2097152 := by decide
  have e5 : (2 : Nat) ^ 28 = 268435456 := by decide
  rw [e5] at h0
  unfold calcMemSize at h
  rw [e1, e2, e3, e4, if_neg (by omega), if_neg (by omega)] at h
  exact ⟨h0.1, h0.2, (Option.some.inj h).symm⟩

theorem calcMem_check {want total rlim n : Nat} (h : calcMemSize want total rlim = some n) :
    checkMemSize n = true := by
  obtain ⟨h1, h2, h3⟩ := calcMem_eq h
  have := mem_arith _ _ _ _ h1 h2 h3
  have e1 : 8 * MEGA = 8388608 := by decide
  have e2 : 64 * GIGA = 68719476736 := by decide
  unfold checkMemSize
  rw [e1, e2]
  simp only [Bool.and_eq_true, decide_eq_true_eq]
  omega

theorem alloc_add {a : Args} (ha : a.std = false) (s : St) : add (allocP a) s =
    add (only [.allocIf]) (add (fam .slab NSLABS)
      (add (only [.poolMutex, .dataFd, .dataMap, .metaFd, .metaMap]) s)) := by
  apply St.ext' <;> simp [add, allocP, ha]
  intro o
  cases s.held o <;> cases only [.allocIf] o <;> cases fam .slab NSLABS o <;>
    cases only [.poolMutex, .dataFd, .dataMap, .metaFd, .metaMap] o <;> simp

theorem alloc_fresh {a : Args} (ha : a.std = false) {s : St} (hf : Fresh (allocP a) s) :
    Fresh (only [.poolMutex, .dataFd, .dataMap, .metaFd, .metaMap]) s ∧
    Fresh (fam .slab NSLABS) (add (only [.poolMutex, .dataFd, .dataMap, .metaFd, .metaMap]) s) ∧
    Fresh (only [.allocIf]) (add (fam .slab NSLABS)
      (add (only [.poolMutex, .dataFd, .dataMap, .metaFd, .metaMap]) s)) := by
  refine ⟨fun o ho => hf o (by simp [allocP, ha, ho]), fun o ho => ?_, fun o ho => ?_⟩
  · have h1 := hf o (by simp [allocP, ha, ho])
    obtain ⟨i, hi, rfl⟩ := fam_iff.1 ho
    simp [add, only, h1]
  · have h1 := hf o (by simp [allocP, ha, ho])
    simp [only] at ho
    subst ho
    have h2 : fam .slab NSLABS .allocIf = false := by decide
    simp [add, only, h1, h2]

/-- `fs_ctx_setup_alloc` without the pointer. -/
def allocF (a : Args) : St → Bool × St :=
  andThen (chk ok .memLimits) fun s =>
    match calcMemSize a.want a.total a.rlim with
    | none => (false, s)
    | some n => if a.std then callocInit s else qallocInit ok n s

/-- `fs_ctx_destroy_alloc` without the pointer. -/
def allocU (a : Args) : St → St := if a.std then callocFini else qallocFini

theorem alloc_S (a : Args) : S NoHeap (allocF ok a) (allocP a) (allocC ok a) := by
  intro s hl hf
  have hw := hl.1
  simp only [allocF, andThen, chk, hw.1, Bool.false_eq_true, if_false]
  cases b0 : ok .memLimits
  · simp [allocC, b0]
  simp only
  cases hc : calcMemSize a.want a.total a.rlim with
  | none =>
    have hn : ¬ (2 ^ 28 ≤ a.total ∧ 2 ^ 28 ≤ a.rlim) := by
      intro h
      obtain ⟨n, hn⟩ := calcMem_some.2 h
      rw [hc] at hn
      exact nomatch hn
    have : allocC ok a = false := by
      unfold allocC
      simp only [Bool.and_eq_false_iff, decide_eq_false_iff_not]
      omega
    simp [this]
  | some n =>
    have hr := calcMem_some.1 ⟨n, hc⟩
    have hC : allocC ok a = (a.std || (poolC ok && allB (fun i => ok (.get (.slab i))) NSLABS)) := by
      unfold allocC
      rw [b0, decide_eq_true hr.1, decide_eq_true hr.2]
      simp
    rw [hC]
    cases hs : a.std
    · obtain ⟨f1, f2, f3⟩ := alloc_fresh hs hf
      have e1 := pool_S ok s hw f1
      have e2 := slabs_S ok NSLABS _ (add_well hw) f2
      have e3 := put_S .allocIf _ (add_well (add_well hw)) f3
      simp only [Bool.false_eq_true, if_false, Bool.false_or]
      rw [alloc_add hs]
      unfold qallocInit
      rw [if_pos (calcMem_check hc)]
      simp only [andThen, orUndo]
      rcases Bool.eq_false_or_eq_true (poolC ok) with b1 | b1
      rotate_left
      · have b1' := b1
        unfold poolC at b1
        rw [b1] at e1
        simp [e1, b1']
      have b1' := b1
      unfold poolC at b1
      rw [b1] at e1
      simp only [e1, if_true, e2, b1', Bool.true_and]
      rcases Bool.eq_false_or_eq_true (allB (fun i => ok (.get (.slab i))) NSLABS) with b2 | b2
      rotate_left
      · simp [b2, pool_U s hw f1]
      simp [b2, e3]
    · have e := put_S .allocIf s hw (fun o ho => hf o (by simp [allocP, hs, ho]))
      simp only [if_true, Bool.true_or, callocInit]
      rw [e]
      simp [allocP, hs]

theorem alloc_U (a : Args) : Undo NoHeap (allocU a) (allocP a) := by
  intro s hl hf
  have hw := hl.1
  cases hs : a.std
  · obtain ⟨f1, f2, f3⟩ := alloc_fresh hs hf
    rw [alloc_add hs]
    simp only [allocU, hs, Bool.false_eq_true, if_false, qallocFini]
    rw [rel_U0 .allocIf rfl _ (add_well (add_well hw)) f3]
    unfold slabsFini
    rw [slabs_U NSLABS _ (add_well hw) f2, pool_U s hw f1]
    unfold dropHeap
    rw [hw.1]
    apply St.ext' <;> simp [hw.1]
    intro o ho
    cases hh : o.heap
    · rfl
    · rw [hl.2 o hh] at ho
      exact nomatch ho
  · have := rel_U0 .allocIf rfl s hw (fun o ho => hf o (by simp [allocP, hs, ho]))
    simp only [allocU, hs, if_true, callocFini]
    rw [show allocP a = only [.allocIf] by simp [allocP, hs]]
    exact this

/-! ## Components one after the other -/

/-- The ledger with `P` added and the pointer `p` set. -/
def take (p : Ptr) (P : Obj → Bool) (s : St) : St :=
  { add P s with ptr := upd s.ptr p true }

/-- The ledger with the pointer `p` set. -/
def mark (p : Ptr) (s : St) : St := { s with ptr := upd s.ptr p true }

theorem up1 {L f P c} (h : S L f P c) (p : Ptr) {s : St} (hd : s.dead = false) (hl : L s)
    (hf : Fresh P s) : setup1 p f s = if c then (true, take p P s) else (false, s) := by
  simp only [setup1, andThen, h s hl hf]
  cases c
  · rfl
  · simp [setPtr, take, add, hd]

theorem up1W {L f P c} (h : W L f P c) (p : Ptr) {s : St} (hd : s.dead = false) (hl : L s)
    (hf : Fresh P s) : (c = true → setup1 p f s = (true, take p P s)) ∧
      (c = false → (setup1 p f s).1 = false) := by
  obtain ⟨h1, h2⟩ := h s hl hf
  constructor
  · intro hc
    simp only [setup1, andThen, h1 hc]
    simp [setPtr, take, add, hd]
  · intro hc
    have h3 := h2 hc
    simp only [setup1, andThen]
    rcases he : f s with ⟨b, s'⟩
    rw [he] at h3
    simp only at h3
    subst h3
    rfl

theorem down1 {L u P} (h : Undo L u P) (p : Ptr) {s : St} (hd : s.dead = false)
    (hl : L (mark p s)) (hf : Fresh P s) (hp : s.ptr p = false) :
    destroy1 p u (take p P s) = s := by
  have e : u (take p P s) = mark p s := h (mark p s) hl hf
  have hp' : (take p P s).ptr p = true := by simp [take, upd]
  simp only [destroy1, hp', if_true, e]
  have hd' : (mark p s).dead = false := hd
  simp only [setPtr, hd', Bool.false_eq_true, if_false]
  apply St.ext' <;> simp [mark, hd]
  intro q
  by_cases hq : q = p
  · subst hq; simp [upd, hp]
  · simp [upd, hq]

/-- A component: its pointer, how it is set up and taken down, what it holds
and what it needs. -/
structure Comp where
  p : Ptr
  f : St → Bool × St
  u : St → St
  P : Obj → Bool
  c : Bool

/-- The component as the model has it. -/
def Comp.tri (x : Comp) : Ptr × (St → Bool × St) × (St → St) := (x.p, x.f, x.u)

/-- Two components have different pointers and hold different things. -/
def Comp.apart (x y : Comp) : Prop := x.p ≠ y.p ∧ ∀ o, x.P o = true → y.P o = false

/-- Nothing of any of the components is there. -/
def Clean (cs : List Comp) (s : St) : Prop :=
  Live s ∧ ∀ x ∈ cs, s.ptr x.p = false ∧ Fresh x.P s

/-- The ledger with all components in place. -/
def runAll : List Comp → St → St
  | [], s => s
  | x :: cs, s => runAll cs (take x.p x.P s)

theorem clean_take {x : Comp} {cs : List Comp} {s : St} (h : Clean (x :: cs) s)
    (hap : ∀ y ∈ cs, x.apart y) : Clean cs (take x.p x.P s) := by
  refine ⟨add_live (P := x.P) h.1, fun y hy => ?_⟩
  obtain ⟨h1, h2⟩ := h.2 y (List.mem_cons_of_mem _ hy)
  obtain ⟨h3, h4⟩ := hap y hy
  refine ⟨?_, fun o ho => ?_⟩
  · simp only [take, upd]
    rw [if_neg (Ne.symm h3)]
    exact h1
  · have h5 : x.P o = false := by
      cases hx : x.P o
      · rfl
      · rw [h4 o hx] at ho
        exact nomatch ho
    simp [take, add, h5, h2 o ho]

theorem live_mark {p : Ptr} {s : St} (h : Live s) : Live (mark p s) := h

theorem down_take {x : Comp} {cs : List Comp} {s : St} (h : Clean (x :: cs) s)
    (hu : Undo Live x.u x.P) : destroy1 x.p x.u (take x.p x.P s) = s := by
  obtain ⟨h1, h2⟩ := h.2 x (List.mem_cons_self ..)
  exact down1 hu x.p h.1.1 (live_mark h.1) h2 h1

theorem down_none (cs : List Comp) (s : St) (h : ∀ x ∈ cs, s.ptr x.p = false) :
    destroyAll (cs.map Comp.tri) s = s := by
  induction cs with
  | nil => rfl
  | cons x cs ih =>
    simp only [List.map_cons, Comp.tri, destroyAll]
    have e := ih (fun y hy => h y (List.mem_cons_of_mem _ hy))
    change destroy1 x.p x.u (destroyAll (cs.map Comp.tri) s) = s
    rw [e]
    simp [destroy1, h x (List.mem_cons_self ..)]

theorem down_run (cs : List Comp) (s : St) (h : Clean cs s) (hap : cs.Pairwise Comp.apart)
    (hu : ∀ x ∈ cs, Undo Live x.u x.P) :
    destroyAll (cs.map Comp.tri) (runAll cs s) = s := by
  induction cs generalizing s with
  | nil => rfl
  | cons x cs ih =>
    obtain ⟨h1, h2⟩ := List.pairwise_cons.1 hap
    have e := ih (take x.p x.P s) (clean_take h h1) h2 (fun y hy => hu y (List.mem_cons_of_mem _ hy))
    change destroy1 x.p x.u (destroyAll (cs.map Comp.tri) (runAll cs (take x.p x.P s))) = s
    rw [e]
    exact down_take h (hu x (List.mem_cons_self ..))

theorem up_weak (cs : List Comp) (s : St) (h : Clean cs s) (hap : cs.Pairwise Comp.apart)
    (hw : ∀ x ∈ cs, W Live x.f x.P x.c) :
    ((∀ x ∈ cs, x.c = true) → setupAll (cs.map Comp.tri) s = (true, runAll cs s)) ∧
    ((∃ x ∈ cs, x.c = false) → (setupAll (cs.map Comp.tri) s).1 = false) := by
  induction cs generalizing s with
  | nil => exact ⟨fun _ => rfl, fun ⟨x, hx, _⟩ => by simp at hx⟩
  | cons x cs ih =>
    obtain ⟨h1, h2⟩ := List.pairwise_cons.1 hap
    obtain ⟨i1, i2⟩ := ih (take x.p x.P s) (clean_take h h1) h2
      (fun y hy => hw y (List.mem_cons_of_mem _ hy))
    obtain ⟨hp, hf⟩ := h.2 x (List.mem_cons_self ..)
    obtain ⟨e1, e2⟩ := up1W (hw x (List.mem_cons_self ..)) x.p h.1.1 h.1 hf
    have hE : setupAll ((x :: cs).map Comp.tri) s =
      andThen (setup1 x.p x.f) (setupAll (cs.map Comp.tri)) s := rfl
    rw [hE]
    constructor
    · intro hall
      simp only [andThen, e1 (hall x (List.mem_cons_self ..))]
      exact i1 (fun y hy => hall y (List.mem_cons_of_mem _ hy))
    · rintro ⟨y, hy, hyc⟩
      rcases Bool.eq_false_or_eq_true x.c with hx | hx
      · simp only [andThen, e1 hx]
        rcases List.mem_cons.1 hy with rfl | hy
        · rw [hx] at hyc
          exact nomatch hyc
        · exact i2 ⟨y, hy, hyc⟩
      · have h3 := e2 hx
        simp only [andThen]
        rcases he : setup1 x.p x.f s with ⟨b, s'⟩
        rw [he] at h3
        simp only at h3
        subst h3
        rfl

theorem up_strong (cs : List Comp) (s : St) (h : Clean cs s) (hap : cs.Pairwise Comp.apart)
    (hs : ∀ x ∈ cs, S Live x.f x.P x.c) (hu : ∀ x ∈ cs, Undo Live x.u x.P) :
    destroyAll (cs.map Comp.tri) (setupAll (cs.map Comp.tri) s).2 = s ∧
    ∀ q, (∀ x ∈ cs, x.p ≠ q) → (setupAll (cs.map Comp.tri) s).2.ptr q = s.ptr q := by
  induction cs generalizing s with
  | nil => exact ⟨rfl, fun _ _ => rfl⟩
  | cons x cs ih =>
    obtain ⟨h1, h2⟩ := List.pairwise_cons.1 hap
    obtain ⟨i1, i2⟩ := ih (take x.p x.P s) (clean_take h h1) h2
      (fun y hy => hs y (List.mem_cons_of_mem _ hy)) (fun y hy => hu y (List.mem_cons_of_mem _ hy))
    obtain ⟨hp, hf⟩ := h.2 x (List.mem_cons_self ..)
    have e := up1 (hs x (List.mem_cons_self ..)) x.p h.1.1 h.1 hf
    have hE : setupAll ((x :: cs).map Comp.tri) s =
      andThen (setup1 x.p x.f) (setupAll (cs.map Comp.tri)) s := rfl
    rw [hE]
    rcases Bool.eq_false_or_eq_true x.c with hx | hx
    · rw [hx] at e
      have e' : andThen (setup1 x.p x.f) (setupAll (cs.map Comp.tri)) s =
          setupAll (cs.map Comp.tri) (take x.p x.P s) := by
        simp only [andThen, e, if_true]
      rw [e']
      refine ⟨?_, fun q hq => ?_⟩
      · change destroy1 x.p x.u (destroyAll (cs.map Comp.tri) _) = s
        rw [i1]
        exact down_take h (hu x (List.mem_cons_self ..))
      · rw [i2 q (fun y hy => hq y (List.mem_cons_of_mem _ hy))]
        have := hq x (List.mem_cons_self ..)
        simp only [take, upd]
        rw [if_neg (Ne.symm this)]
    · rw [hx] at e
      have e' : andThen (setup1 x.p x.f) (setupAll (cs.map Comp.tri)) s = (false, s) := by
        simp only [andThen, e]
        rfl
      rw [e']
      exact ⟨down_none (x :: cs) s (fun y hy => (h.2 y hy).1), fun _ _ => rfl⟩

/-! ## The whole -/

/-- What the map of ids needs. -/
def idsC (nu ng : Nat) : Bool :=
  (ok (.get .uhtof) && ok (.get .uftoh) && ok (.get .ghtof) && ok (.get .gftoh)) &&
    (allB (fun i => ok (.get (.uidEnt i))) nu && allB (fun i => ok (.get (.gidEnt i))) ng)

/-- The components after the allocator, the queue of a mount last. -/
def parts (a : Args) : List Comp :=
  [ ⟨.lcache, lcacheInit ok, lcacheFini, only [.uamapTbl, .nilBlk, .uniTbl, .vniTbl],
      ok (.get .uamapTbl) && ok (.get .nilBlk) && ok (.get .uniTbl) && ok (.get .vniTbl)⟩,
    ⟨.repo, repoInit ok, repoFini, repoP, repoC ok⟩,
    ⟨.submitq, submitqInit ok, submitqFini, only [.smqMutex], ok (.get .smqMutex)⟩,
    ⟨.flusher, fun s => (true, s), id, fun _ => false, true⟩,
    ⟨.idsmap, idsmapSetup ok a.nu a.ng,
      fun s => idsmapFini a.nu a.ng (idsmapClear a.nu a.ng s), idsP a.nu a.ng, idsC ok a.nu a.ng⟩,
    ⟨.bstore, bstoreInit ok, bstoreFini, only [.pcacheTbl], ok (.get .pcacheTbl)⟩,
    ⟨.fsenv, envSetup ok a.pw, envFini, envP, envC ok && (!a.pw || ok .derive)⟩ ]

/-- The queue. -/
def fqPart (a : Args) : Comp :=
  ⟨.fuseq, fqNew ok (ndispLim a.nproc), fqDel (ndispLim a.nproc), fqP (ndispLim a.nproc),
    fqC ok (ndispLim a.nproc)⟩

/-- All components after the allocator. -/
def allParts (a : Args) : List Comp := parts ok a ++ if a.fuse then [fqPart ok a] else []

theorem parts_tri (a : Args) : (parts ok a).map Comp.tri = comps ok a := rfl

/-- Whose a thing is. -/
def own : Obj → Option Ptr
  | .uamapTbl | .nilBlk | .uniTbl | .vniTbl => some .lcache
  | .repoMd | .repoTbl | .repoMutex => some .repo
  | .smqMutex => some .submitq
  | .uhtof | .uftoh | .ghtof | .gftoh | .uidEnt _ | .gidEnt _ => some .idsmap
  | .pcacheTbl => some .bstore
  | .envRw | .envMutex | .bootCipher | .envMd | .encCipher | .decCipher | .iconv => some .fsenv
  | .fqMem | .fqSem | .fqCh | .fqOp | .fqCtl | .inb _ | .outb _ | .rwi _ => some .fuseq
  | _ => Option.none

theorem mem_parts {a : Args} {x : Comp} (hx : x ∈ allParts ok a) :
    x ∈ parts ok a ∨ (a.fuse = true ∧ x = fqPart ok a) := by
  unfold allParts at hx
  rcases List.mem_append.1 hx with h | h
  · exact Or.inl h
  · cases hf : a.fuse
    · simp [hf] at h
    · simp [hf] at h
      exact Or.inr ⟨rfl, h⟩

theorem part_cases {a : Args} {Q : Comp → Prop} (hq : ∀ x ∈ parts ok a, Q x)
    (hf : a.fuse = true → Q (fqPart ok a)) : ∀ x ∈ allParts ok a, Q x := by
  intro x hx
  rcases mem_parts ok hx with h | ⟨h, rfl⟩
  · exact hq x h
  · exact hf h

theorem fqP_own {nd : Nat} {o : Obj} (h : fqP nd o = true) : own o = some .fuseq := by
  simp only [fqP, Bool.or_eq_true] at h
  rcases h with h | h | h
  · simp [only] at h; subst h; rfl
  · simp [only] at h
    rcases h with rfl | rfl | rfl | rfl <;> rfl
  · obtain ⟨i, hi, h⟩ := bufsP_iff.1 h
    rcases h with rfl | rfl | rfl <;> rfl

theorem idsP_own {nu ng : Nat} {o : Obj} (h : idsP nu ng o = true) : own o = some .idsmap := by
  simp only [idsP, Bool.or_eq_true] at h
  rcases h with h | h | h
  · simp [only] at h
    rcases h with rfl | rfl | rfl | rfl <;> rfl
  · obtain ⟨i, hi, rfl⟩ := fam_iff.1 h
    rfl
  · obtain ⟨i, hi, rfl⟩ := fam_iff.1 h
    rfl

theorem parts_own (a : Args) : ∀ x ∈ allParts ok a, ∀ o, x.P o = true → own o = some x.p := by
  apply part_cases
  · intro x hx
    simp only [parts, List.mem_cons, List.not_mem_nil, or_false] at hx
    rcases hx with rfl | rfl | rfl | rfl | rfl | rfl | rfl <;> intro o ho
    · simp [only] at ho
      rcases ho with rfl | rfl | rfl | rfl <;> rfl
    · simp [repoP, only] at ho
      rcases ho with rfl | rfl | rfl <;> rfl
    · simp [only] at ho
      subst ho; rfl
    · exact nomatch ho
    · exact idsP_own ho
    · simp [only] at ho
      subst ho; rfl
    · simp [envP, only] at ho
      rcases ho with rfl | rfl | rfl | rfl | rfl | rfl | rfl <;> rfl
  · intro _ o ho
    exact fqP_own ho

theorem parts_ptrs (a : Args) : (allParts ok a).Pairwise fun x y => x.p ≠ y.p := by
  unfold allParts
  cases a.fuse <;> simp [parts, fqPart]

theorem pairwise_imp_mem {α : Type} {R T : α → α → Prop} {l : List α} (h : l.Pairwise R)
    (hi : ∀ x ∈ l, ∀ y ∈ l, R x y → T x y) : l.Pairwise T := by
  induction l with
  | nil => exact List.Pairwise.nil
  | cons x l ih =>
    obtain ⟨h1, h2⟩ := List.pairwise_cons.1 h
    refine List.pairwise_cons.2 ⟨fun y hy => hi x (List.mem_cons_self ..) y (List.mem_cons_of_mem _ hy) (h1 y hy), ?_⟩
    exact ih h2 (fun y hy z hz => hi y (List.mem_cons_of_mem _ hy) z (List.mem_cons_of_mem _ hz))

theorem parts_apart (a : Args) : (allParts ok a).Pairwise Comp.apart := by
  refine pairwise_imp_mem (parts_ptrs ok a) ?_
  intro x hx y hy hne
  refine ⟨hne, fun o ho => ?_⟩
  cases hy' : y.P o
  · rfl
  · have h1 := parts_own ok a x hx o ho
    have h2 := parts_own ok a y hy o hy'
    rw [h1] at h2
    exact absurd (Option.some.inj h2) hne

theorem flusher_S : S Live (fun s => (true, s)) (fun _ => false) true := by
  intro s _ _
  simp [add]

theorem flusher_U : Undo Live id (fun _ => false) := by
  intro s _ _
  simp [add]

theorem parts_W (a : Args) : ∀ x ∈ allParts ok a, W Live x.f x.P x.c := by
  apply part_cases
  · intro x hx
    simp only [parts, List.mem_cons, List.not_mem_nil, or_false] at hx
    rcases hx with rfl | rfl | rfl | rfl | rfl | rfl | rfl
    · exact (lcache_S ok).weak
    · exact repo_W ok
    · exact (submitq_S ok).weak
    · exact flusher_S.weak
    · exact (ids_S ok a.nu a.ng).weak
    · exact (bstore_S ok).weak
    · exact env_W ok a.pw
  · intro _
    exact fq_W ok _

theorem parts_U (a : Args) : ∀ x ∈ allParts ok a, Undo Live x.u x.P := by
  apply part_cases
  · intro x hx
    simp only [parts, List.mem_cons, List.not_mem_nil, or_false] at hx
    rcases hx with rfl | rfl | rfl | rfl | rfl | rfl | rfl
    · exact lcache_U
    · exact repo_U
    · exact submitq_U
    · exact flusher_U
    · exact ids_U a.nu a.ng
    · exact bstore_U
    · exact env_U
  · intro _
    exact fq_U _

theorem parts_S (a : Args) (hs : ∀ t, slippery a t = true → needs a t = true → ok t = true) :
    ∀ x ∈ allParts ok a, S Live x.f x.P x.c := by
  apply part_cases
  · intro x hx
    simp only [parts, List.mem_cons, List.not_mem_nil, or_false] at hx
    rcases hx with rfl | rfl | rfl | rfl | rfl | rfl | rfl
    · exact lcache_S ok
    · exact repo_S ok (hs _ rfl rfl) (hs _ rfl rfl) (hs _ rfl rfl)
    · exact submitq_S ok
    · exact flusher_S
    · exact ids_S ok a.nu a.ng
    · exact bstore_S ok
    · exact env_S ok a.pw (fun h => hs .derive rfl h)
  · intro hf
    apply fq_S
    intro i hi
    unfold ndispLim at hi
    have h1 : ∀ t, t = Step.get (.inb i) ∨ t = .get (.outb i) ∨ t = .get (.rwi i) → ok t = true := by
      intro t ht
      apply hs t
      · rcases ht with rfl | rfl | rfl <;> simp only [slippery, hf, Bool.true_and, decide_eq_true_eq] <;> exact hi
      · rcases ht with rfl | rfl | rfl <;> simp only [needs, hf, Bool.true_and, decide_eq_true_eq] <;> omega
    simp [bufC, h1 (.get (.inb i)) (by simp), h1 (.get (.outb i)) (by simp), h1 (.get (.rwi i)) (by simp)]

/-- The ledger before the components: handle, password and allocator. -/
def base (a : Args) : St :=
  take .alloc (allocP a) (take .password (only [.passwd]) (add (only [.inst]) St.empty))

theorem allocP_own {a : Args} {o : Obj} (h : allocP a o = true) : own o = Option.none ∧ o ≠ .inst ∧ o ≠ .passwd ∧ o.heap = false := by
  unfold allocP at h
  cases hs : a.std
  · simp only [hs, Bool.false_eq_true, if_false, Bool.or_eq_true] at h
    rcases h with h | h | h
    · simp [only] at h
      rcases h with rfl | rfl | rfl | rfl | rfl <;> simp [own, Obj.heap]
    · obtain ⟨i, hi, rfl⟩ := fam_iff.1 h
      simp [own, Obj.heap]
    · simp [only] at h
      subst h; simp [own, Obj.heap]
  · simp [hs, only] at h
    subst h; simp [own, Obj.heap]

theorem allocP_if (a : Args) : allocP a .allocIf = true := by
  unfold allocP
  cases a.std <;> simp [only]

theorem part_own_some {a : Args} {x : Comp} (hx : x ∈ allParts ok a) :
    x.p ≠ .alloc ∧ x.p ≠ .password := by
  revert x
  apply part_cases
  · intro x hx
    simp only [parts, List.mem_cons, List.not_mem_nil, or_false] at hx
    rcases hx with rfl | rfl | rfl | rfl | rfl | rfl | rfl <;> simp
  · intro _
    simp [fqPart]

theorem base_clean (a : Args) : Clean (allParts ok a) (base a) := by
  refine ⟨⟨rfl, rfl, ?_⟩, fun x hx => ⟨?_, fun o ho => ?_⟩⟩
  · simp [base, take, add, allocP_if]
  · obtain ⟨h1, h2⟩ := part_own_some ok hx
    simp [base, take, add, upd, h1, h2, St.empty]
  · have h1 := parts_own ok a x hx o ho
    have h2 : allocP a o = false := by
      cases hb : allocP a o
      · rfl
      · rw [(allocP_own hb).1] at h1
        exact nomatch h1
    have h3 : only [.passwd] o = false := by
      simp [only]
      rintro rfl
      exact nomatch h1
    have h4 : only [.inst] o = false := by
      simp [only]
      rintro rfl
      exact nomatch h1
    simp [base, take, add, h2, h3, h4, St.empty]

theorem setupAll_append (l m : List (Ptr × (St → Bool × St) × (St → St))) (s : St) :
    setupAll (l ++ m) s = andThen (setupAll l) (setupAll m) s := by
  induction l generalizing s with
  | nil => rfl
  | cons x l ih =>
    obtain ⟨p, f, u⟩ := x
    simp only [List.cons_append, setupAll, andThen]
    rcases setup1 p f s with ⟨b, s'⟩
    cases b
    · rfl
    · simp only [ih, andThen]

theorem destroyAll_append (l m : List (Ptr × (St → Bool × St) × (St → St))) (s : St) :
    destroyAll (l ++ m) s = destroyAll l (destroyAll m s) := by
  induction l with
  | nil => rfl
  | cons x l ih =>
    obtain ⟨p, f, u⟩ := x
    simp only [List.cons_append, destroyAll, ih]

theorem setup_tail (a : Args) :
    andThen (setupAll (comps ok a)) (setupFuseq ok a) = setupAll ((allParts ok a).map Comp.tri) := by
  funext s
  unfold allParts
  rw [List.map_append, setupAll_append, parts_tri]
  simp only [andThen]
  rcases setupAll (comps ok a) s with ⟨b, s'⟩
  cases b
  · rfl
  · cases hf : a.fuse
    · simp [setupFuseq, hf, setupAll]
    · simp only [setupFuseq, hf, if_true, List.map_cons, List.map_nil, setupAll, andThen, Comp.tri, fqPart]
      rcases setup1 .fuseq (fqNew ok (ndispLim a.nproc)) s' with ⟨b, s''⟩
      cases b <;> rfl

theorem destroy_tail (a : Args) (s : St) (h : a.fuse = false → s.ptr .fuseq = false) :
    destroyAll (comps ok a) (destroyFuseq a s) = destroyAll ((allParts ok a).map Comp.tri) s := by
  unfold allParts
  rw [List.map_append, destroyAll_append, parts_tri]
  cases hf : a.fuse
  · simp [destroyFuseq, destroy1, h hf, destroyAll]
  · rfl

theorem parts_not_fuseq {a : Args} (hf : a.fuse = false) : ∀ x ∈ allParts ok a, x.p ≠ .fuseq := by
  apply part_cases
  · intro x hx
    simp only [parts, List.mem_cons, List.not_mem_nil, or_false] at hx
    rcases hx with rfl | rfl | rfl | rfl | rfl | rfl | rfl <;> simp
  · intro h
    rw [hf] at h
    exact nomatch h

theorem run_ptr (cs : List Comp) (s : St) (q : Ptr) (h : ∀ x ∈ cs, x.p ≠ q) :
    (runAll cs s).ptr q = s.ptr q := by
  induction cs generalizing s with
  | nil => rfl
  | cons x cs ih =>
    rw [runAll, ih _ (fun y hy => h y (List.mem_cons_of_mem _ hy))]
    have := h x (List.mem_cons_self ..)
    simp only [take, upd]
    rw [if_neg (Ne.symm this)]

theorem run_held (cs : List Comp) (s : St) (o : Obj) :
    (runAll cs s).held o = true ↔ s.held o = true ∨ ∃ x ∈ cs, x.P o = true := by
  induction cs generalizing s with
  | nil => simp [runAll]
  | cons x cs ih =>
    rw [runAll, ih]
    simp only [take, add, Bool.or_eq_true, List.mem_cons, exists_eq_or_imp]
    grind

/-- The ledger after the handle was allocated. -/
def st1 : St := add (only [.inst]) St.empty

/-- … and the password copied. -/
def st2 : St := take .password (only [.passwd]) st1

theorem st2_noheap : NoHeap st2 := by
  refine ⟨⟨rfl, rfl⟩, fun o ho => ?_⟩
  have h1 : only [.passwd] o = false := by
    simp [only]; rintro rfl; exact nomatch ho
  have h2 : only [.inst] o = false := by
    simp [only]; rintro rfl; exact nomatch ho
  simp [st2, st1, take, add, h1, h2, St.empty]

theorem st2_fresh (a : Args) : Fresh (allocP a) st2 := by
  intro o ho
  obtain ⟨_, h1, h2, _⟩ := allocP_own ho
  simp [st2, st1, take, add, only, h1, h2, St.empty]

theorem st1_up : setup1 .password (acq ok .passwd) st1 =
    if ok (.get .passwd) then (true, st2) else (false, st1) :=
  up1 (acq_S0 ok .passwd rfl) .password rfl (s := st1) ⟨rfl, rfl⟩ (fun o ho => by simp [only] at ho; subst ho; rfl)

theorem st1_down : destroy1 .password (rel .passwd) st2 = st1 :=
  down1 (rel_U0 .passwd rfl) .password (s := st1) rfl ⟨rfl, rfl⟩ (fun o ho => by simp [only] at ho; subst ho; rfl) rfl

theorem st2_up (a : Args) : setupAlloc ok a st2 =
    if allocC ok a then (true, base a) else (false, st2) :=
  up1 (alloc_S ok a) .alloc rfl (s := st2) st2_noheap (st2_fresh a)

theorem st2_down (a : Args) : destroyAlloc a (base a) = st2 :=
  down1 (alloc_U a) .alloc (s := st2) rfl st2_noheap (st2_fresh a) rfl

theorem st1_acq : acq ok .inst St.empty = if ok (.get .inst) then (true, st1) else (false, St.empty) :=
  acq_S0 ok .inst rfl St.empty ⟨rfl, rfl⟩ (fun _ _ => rfl)

theorem st1_rel : rel .inst st1 = St.empty :=
  rel_U0 .inst rfl St.empty ⟨rfl, rfl⟩ (fun _ _ => rfl)

/-- Everything that is needed. -/
def allC (a : Args) : Prop :=
  ok .args = true ∧ ok (.get .inst) = true ∧ ok (.get .passwd) = true ∧ allocC ok a = true ∧
    ∀ x ∈ allParts ok a, x.c = true

theorem empty_spotless : Spotless St.empty := ⟨fun _ => rfl, fun _ => rfl, rfl, rfl⟩

theorem new_true (a : Args) (h : allC ok a) :
    newEnv ok a St.empty = (true, runAll (allParts ok a) (base a)) := by
  obtain ⟨h1, h2, h3, h4, h5⟩ := h
  have e := (up_weak (allParts ok a) (base a) (base_clean ok a) (parts_apart ok a) (parts_W ok a)).1 h5
  have e0 : chk ok .args St.empty = (true, St.empty) := by simp [chk, St.empty, h1]
  simp only [newEnv, newInst, ctxSetup]
  rw [setup_tail]
  simp only [andThen, orUndo, e0, st1_acq, h2, if_true, st1_up, h3, st2_up, h4, e]

theorem new_false (a : Args) (h : ¬ allC ok a) : (newEnv ok a St.empty).1 = false := by
  have e0 : chk ok .args St.empty = (ok .args, St.empty) := by simp [chk, St.empty]
  simp only [newEnv, newInst, ctxSetup]
  rw [setup_tail]
  simp only [andThen, orUndo, e0]
  cases b1 : ok .args
  · rfl
  simp only [st1_acq]
  cases b2 : ok (.get .inst)
  · simp
  simp only [if_true, st1_up]
  cases b3 : ok (.get .passwd)
  · simp
  simp only [if_true, st2_up]
  rcases Bool.eq_false_or_eq_true (allocC ok a) with b4 | b4
  rotate_left
  · simp [b4]
  simp only [b4, if_true]
  have hx : ∃ x ∈ allParts ok a, x.c = false := by
    apply Classical.byContradiction
    intro hn
    apply h
    refine ⟨b1, b2, b3, b4, fun x hx => ?_⟩
    cases hc : x.c
    · exact absurd ⟨x, hx, hc⟩ hn
    · rfl
  have e := (up_weak (allParts ok a) (base a) (base_clean ok a) (parts_apart ok a) (parts_W ok a)).2 hx
  rcases he : setupAll ((allParts ok a).map Comp.tri) (base a) with ⟨b, s'⟩
  rw [he] at e
  simp only at e
  subst e
  rfl

theorem destroy_back (a : Args) {s : St} (h : a.fuse = false → s.ptr .fuseq = false)
    (hd : destroyAll ((allParts ok a).map Comp.tri) s = base a) : ctxDestroy ok a s = st1 := by
  unfold ctxDestroy
  rw [destroy_tail ok a s h, hd, st2_down, st1_down]

theorem destroy_none {a : Args} {s : St} (h : ∀ p, s.ptr p = false) : ctxDestroy ok a s = s := by
  unfold ctxDestroy
  rw [destroy_tail ok a s (fun _ => h _), down_none _ _ (fun x _ => h _)]
  simp [destroyAlloc, destroy1, h]

theorem destroy_st2 (a : Args) : ctxDestroy ok a st2 = st1 := by
  unfold ctxDestroy
  have h : ∀ q, q ≠ Ptr.password → st2.ptr q = false := by
    intro q hq
    simp [st2, st1, take, add, upd, hq, St.empty]
  rw [destroy_tail ok a st2 (fun _ => h _ (by decide)),
    down_none _ _ (fun x hx => h _ (part_own_some ok hx).2)]
  have e : destroyAlloc a st2 = st2 := by
    simp [destroyAlloc, destroy1, h .alloc (by decide)]
  rw [e, st1_down]

theorem new_back (a : Args) (hs : ∀ t, slippery a t = true → needs a t = true → ok t = true)
    {s : St} (h : newEnv ok a St.empty = (false, s)) : s = St.empty := by
  have e0 : chk ok .args St.empty = (ok .args, St.empty) := by simp [chk, St.empty]
  simp only [newEnv, newInst, ctxSetup] at h
  rw [setup_tail] at h
  simp only [andThen, orUndo, e0] at h
  cases b1 : ok .args
  · rw [b1] at h; exact (Prod.mk.inj h).2.symm
  simp only [b1, st1_acq] at h
  cases b2 : ok (.get .inst)
  · rw [b2] at h; exact (Prod.mk.inj h).2.symm
  simp only [b2, if_true, st1_up] at h
  cases b3 : ok (.get .passwd)
  · simp only [b3, Bool.false_eq_true, if_false] at h
    rw [destroy_none ok (fun p => rfl), st1_rel] at h
    exact (Prod.mk.inj h).2.symm
  simp only [b3, if_true, st2_up] at h
  rcases Bool.eq_false_or_eq_true (allocC ok a) with b4 | b4
  rotate_left
  · simp only [b4, Bool.false_eq_true, if_false] at h
    rw [destroy_st2, st1_rel] at h
    exact (Prod.mk.inj h).2.symm
  simp only [b4, if_true] at h
  obtain ⟨i1, i2⟩ := up_strong (allParts ok a) (base a) (base_clean ok a) (parts_apart ok a)
    (parts_S ok a hs) (parts_U ok a)
  rcases he : setupAll ((allParts ok a).map Comp.tri) (base a) with ⟨b, s'⟩
  rw [he] at h i1 i2
  cases b
  · simp only at h i1 i2
    rw [destroy_back ok a (fun hf => i2 .fuseq (parts_not_fuseq ok hf)) i1, st1_rel] at h
    exact (Prod.mk.inj h).2.symm
  · exact absurd (Prod.mk.inj h).1 (by decide)

theorem slab_C {a : Args} : allB (fun i => ok (.get (.slab i))) NSLABS = true ↔
    ∀ i, i < 12 → ok (.get (.slab i)) = true := allB_iff _ _

theorem allC_of_needs (a : Args) (hr : roomy a) (h : ∀ t, needs a t = true → ok t = true) :
    allC ok a := by
  refine ⟨h _ rfl, h _ rfl, h _ rfl, ?_, ?_⟩
  · unfold allocC
    rw [h .memLimits rfl, decide_eq_true hr.1, decide_eq_true hr.2]
    cases hs : a.std
    · have e : ∀ t, needs a t = (!a.std) → ok t = true := fun t ht => h t (by rw [ht, hs]; rfl)
      have e2 := (slab_C ok (a := a)).2 (fun i hi => h (.get (.slab i)) (by simp [needs, hs, hi]))
      simp only [Bool.true_and, Bool.false_or, poolC, e2, e .dataTrunc rfl, e .metaTrunc rfl,
        e (.get .poolMutex) rfl, e (.get .dataFd) rfl, e (.get .dataMap) rfl, e (.get .metaFd) rfl,
        e (.get .metaMap) rfl]
    · simp
  · apply part_cases
    · intro x hx
      simp only [parts, List.mem_cons, List.not_mem_nil, or_false] at hx
      rcases hx with rfl | rfl | rfl | rfl | rfl | rfl | rfl
      · simp [h (.get .uamapTbl) rfl, h (.get .nilBlk) rfl, h (.get .uniTbl) rfl, h (.get .vniTbl) rfl]
      · simp [repoC, h (.get .repoMd) rfl, h .repoEnable rfl, h (.get .repoTbl) rfl,
          h (.get .repoMutex) rfl]
      · exact h (.get .smqMutex) rfl
      · rfl
      · have e1 := (allB_iff (fun i => ok (.get (.uidEnt i))) a.nu).2
          (fun i hi => h (.get (.uidEnt i)) (by simp [needs, hi]))
        have e2 := (allB_iff (fun i => ok (.get (.gidEnt i))) a.ng).2
          (fun i hi => h (.get (.gidEnt i)) (by simp [needs, hi]))
        simp [idsC, h (.get .uhtof) rfl, h (.get .uftoh) rfl, h (.get .ghtof) rfl,
          h (.get .gftoh) rfl, e1, e2]
      · exact h (.get .pcacheTbl) rfl
      · have e : (!a.pw || ok .derive) = true := by
          cases hp : a.pw
          · rfl
          · simp [h .derive hp]
        simp [envC, e, h .brefType rfl, h .envEnable rfl, h (.get .envRw) rfl, h (.get .envMutex) rfl,
          h (.get .bootCipher) rfl, h (.get .envMd) rfl, h (.get .encCipher) rfl,
          h (.get .decCipher) rfl, h (.get .iconv) rfl]
    · intro hf
      have e : ∀ t, needs a t = a.fuse → ok t = true := fun t ht => h t (by rw [ht, hf])
      have e2 := (allB_iff (bufC ok) (ndispLim a.nproc)).2 (fun i hi => by
        unfold ndispLim at hi
        simp only [bufC, Bool.and_eq_true]
        refine ⟨⟨?_, ?_⟩, ?_⟩ <;>
          (apply h; simp only [needs, hf, Bool.true_and, decide_eq_true_eq]; exact hi))
      simp [fqPart, fqC, e2, e (.get .fqMem) rfl, e (.get .fqSem) rfl, e (.get .fqCh) rfl,
        e (.get .fqOp) rfl, e (.get .fqCtl) rfl]

theorem needs_of_allC (a : Args) (h : allC ok a) :
    roomy a ∧ ∀ t, needs a t = true → ok t = true := by
  obtain ⟨h1, h2, h3, h4, h5⟩ := h
  have c0 := h5 _ (List.mem_append_left _ (List.mem_cons_self ..) : _ ∈ allParts ok a)
  have hm : ∀ x ∈ parts ok a, x.c = true := fun x hx => h5 x (List.mem_append_left _ hx)
  have c1 : repoC ok = true := hm ⟨.repo, repoInit ok, repoFini, repoP, repoC ok⟩ (by simp [parts])
  have c2 : ok (.get .smqMutex) = true :=
    hm ⟨.submitq, submitqInit ok, submitqFini, only [.smqMutex], ok (.get .smqMutex)⟩ (by simp [parts])
  have c4 : idsC ok a.nu a.ng = true :=
    hm ⟨.idsmap, idsmapSetup ok a.nu a.ng, fun s => idsmapFini a.nu a.ng (idsmapClear a.nu a.ng s),
      idsP a.nu a.ng, idsC ok a.nu a.ng⟩ (by simp [parts])
  have c5 : ok (.get .pcacheTbl) = true :=
    hm ⟨.bstore, bstoreInit ok, bstoreFini, only [.pcacheTbl], ok (.get .pcacheTbl)⟩ (by simp [parts])
  have c6 : (envC ok && (!a.pw || ok .derive)) = true :=
    hm ⟨.fsenv, envSetup ok a.pw, envFini, envP, envC ok && (!a.pw || ok .derive)⟩ (by simp [parts])
  have c7 : a.fuse = true → fqC ok (ndispLim a.nproc) = true := fun hf =>
    h5 (fqPart ok a) (by simp [allParts, hf])
  simp only [allocC, Bool.and_eq_true, Bool.or_eq_true, decide_eq_true_eq] at h4
  obtain ⟨m0, ⟨m1, m2⟩, m3⟩ := h4
  refine ⟨⟨m1, m2⟩, ?_⟩
  simp only [Bool.and_eq_true] at c0
  simp only [repoC, Bool.and_eq_true] at c1
  simp only [idsC, Bool.and_eq_true, allB_iff] at c4
  simp only [envC, Bool.and_eq_true, Bool.or_eq_true, Bool.not_eq_true'] at c6
  have n3 : a.std = false → poolC ok = true ∧ ∀ i, i < 12 → ok (.get (.slab i)) = true := by
    intro hs
    rcases m3 with m3 | m3
    · rw [hs] at m3; exact nomatch m3
    · exact ⟨m3.1, (slab_C ok (a := a)).1 m3.2⟩
  simp only [poolC, Bool.and_eq_true] at n3
  have n7 : a.fuse = true → (ok (.get .fqMem) = true ∧ ((ok (.get .fqSem) = true ∧ ok (.get .fqCh) = true) ∧
      ok (.get .fqOp) = true) ∧ ok (.get .fqCtl) = true) ∧ ∀ i, i < min (max a.nproc 2) 16 →
      (ok (.get (.inb i)) = true ∧ ok (.get (.outb i)) = true) ∧ ok (.get (.rwi i)) = true := by
    intro hf
    have := c7 hf
    simp only [fqC, Bool.and_eq_true, allB_iff, bufC, ndispLim] at this
    exact ⟨⟨this.1, this.2.1⟩, this.2.2⟩
  intro t ht
  cases t with
  | get o =>
    cases o <;> simp only [needs, Bool.and_eq_true, decide_eq_true_eq, Bool.not_eq_true'] at ht <;>
      first
        | assumption
        | grind
  | _ => simp only [needs, Bool.not_eq_true'] at ht <;> grind

/-! ## The theorems -/

/-- **C74**: a command gets its environment exactly when the machine and the
limits of the process leave enough memory and every single step that the
command depends on succeeds: one denial and the command is refused, and there
is no other reason to refuse it. -/
theorem C74_succeeds_iff (a : Args) :
    (newEnv ok a St.empty).1 = true ↔ roomy a ∧ ∀ t, needs a t = true → ok t = true := by
  constructor
  · intro h
    apply needs_of_allC
    apply Classical.byContradiction
    intro hn
    rw [new_false ok a hn] at h
    exact nomatch h
  · rintro ⟨h1, h2⟩
    rw [new_true ok a (allC_of_needs ok a h1 h2)]

theorem new_state (a : Args) {s : St} (h : newEnv ok a St.empty = (true, s)) :
    s = runAll (allParts ok a) (base a) := by
  have h1 : allC ok a := by
    apply Classical.byContradiction
    intro hn
    have := new_false ok a hn
    rw [h] at this
    exact nomatch this
  rw [new_true ok a h1] at h
  exact (Prod.mk.inj h).2.symm

/-- **C74**: taking down an environment that was set up releases everything:
nothing is left, nothing is released twice or after its allocator is gone. -/
theorem C74_teardown (a : Args) {s : St} (h : newEnv ok a St.empty = (true, s)) :
    Spotless (delEnv ok a s) := by
  rw [new_state ok a h]
  unfold delEnv
  have hd := down_run (allParts ok a) (base a) (base_clean ok a) (parts_apart ok a) (parts_U ok a)
  have hp : a.fuse = false → (runAll (allParts ok a) (base a)).ptr .fuseq = false := by
    intro hf
    rw [run_ptr _ _ _ (parts_not_fuseq ok hf)]
    rfl
  rw [destroy_back ok a hp hd, st1_rel]
  exact empty_spotless

/-- **C74**, as far as it is true: when a step is denied, everything that was
acquired before is released and nothing is left, provided the denied step is
not one of the slippery ones (for these see the theorems ending in
`_violated`).  Missing from the full statement: the denial of a slippery
step. -/
theorem C74_all_or_nothing_partial (a : Args)
    (hs : ∀ t, slippery a t = true → needs a t = true → ok t = true)
    {s : St} (h : newEnv ok a St.empty = (false, s)) : Spotless s := by
  rw [new_back ok a hs h]
  exact empty_spotless

theorem run_well (cs : List Comp) (s : St) : (runAll cs s).bad = s.bad ∧ (runAll cs s).dead = s.dead := by
  induction cs generalizing s with
  | nil => exact ⟨rfl, rfl⟩
  | cons x cs ih => exact ih _

theorem allParts_held (a : Args) (o : Obj) :
    (∃ x ∈ allParts ok a, x.P o = true) ↔
      (only [.uamapTbl, .nilBlk, .uniTbl, .vniTbl] o = true ∨ repoP o = true ∨ only [.smqMutex] o = true ∨
        idsP a.nu a.ng o = true ∨ only [.pcacheTbl] o = true ∨ envP o = true) ∨
      (a.fuse = true ∧ fqP (ndispLim a.nproc) o = true) := by
  unfold allParts
  cases a.fuse <;> simp [parts, fqPart] <;> grind

/-- **C74**: an environment that was set up holds exactly what the command
wants, each thing once. -/
theorem C74_holds (a : Args) {s : St} (h : newEnv ok a St.empty = (true, s)) :
    s.bad = false ∧ s.dead = false ∧ ∀ o, s.held o = wants a o := by
  rw [new_state ok a h]
  refine ⟨(run_well _ _).1, (run_well _ _).2, fun o => ?_⟩
  have hb : (base a).held o = true ↔ allocP a o = true ∨ o = .passwd ∨ o = .inst := by
    simp [base, take, add, only, St.empty]
  rw [Bool.eq_iff_iff, run_held, hb, allParts_held]
  have hfu : fam .uidEnt a.nu o = true ↔ ∃ i, i < a.nu ∧ o = .uidEnt i := fam_iff
  have hfg : fam .gidEnt a.ng o = true ↔ ∃ i, i < a.ng ∧ o = .gidEnt i := fam_iff
  have hfs : fam .slab NSLABS o = true ↔ ∃ i, i < 12 ∧ o = .slab i := fam_iff
  have hbf : bufsP (ndispLim a.nproc) o = true ↔
    ∃ i, i < min (max a.nproc 2) 16 ∧ (o = .inb i ∨ o = .outb i ∨ o = .rwi i) := bufsP_iff
  have hal : allocP a o = true ↔ o = .allocIf ∨ (a.std = false ∧
      (only [.poolMutex, .dataFd, .dataMap, .metaFd, .metaMap] o = true ∨ ∃ i, i < 12 ∧ o = .slab i)) := by
    unfold allocP
    cases a.std
    · simp only [Bool.false_eq_true, if_false, Bool.or_eq_true, hfs]
      simp [only]
      grind
    · simp [only]
  rw [hal]
  simp only [idsP, fqP, Bool.or_eq_true, hfu, hfg, hbf, repoP, envP, wants]
  cases o <;> simp [only, needs]

/-! ## The memory to use -/

/-- **C74**: the memory given to the allocator is a quarter of the machine's
memory at most, within the limit of the process and never above 64G; it is a
multiple of 2M, never below 64M, so that the allocator accepts it; and it is
not above what was asked for, unless less than 256M was. -/
theorem C74_memory {want total rlim n : Nat} (h : calcMemSize want total rlim = some n) :
    n ≤ total / 4 ∧ n ≤ rlim ∧ n ≤ 2 ^ 36 ∧ n % 2 ^ 21 = 0 ∧ 2 ^ 26 ≤ n ∧
      checkMemSize n = true ∧ (want ≠ 0 → n ≤ max want (2 ^ 28)) := by
  obtain ⟨h1, h2, h3⟩ := calcMem_eq h
  have hm := mem_arith _ _ _ _ h1 h2 h3
  have e1 : (2 : Nat) ^ 36 = 68719476736 := by decide
  have e2 : (2 : Nat) ^ 21 = 2097152 := by decide
  have e3 : (2 : Nat) ^ 26 = 67108864 := by decide
  have e4 : (2 : Nat) ^ 28 = 268435456 := by decide
  rw [e1, e2, e3, e4]
  refine ⟨hm.2.2.2.1, hm.2.2.1, hm.2.1, hm.2.2.2.2.1, hm.1, calcMem_check h, fun hw => ?_⟩
  have := hm.2.2.2.2.2
  rw [if_neg hw] at this
  exact this

/-- **C74**: what was asked for is given, rounded down to a multiple of 2M,
whenever it lies within all limits. -/
theorem C74_memory_exact {want total rlim : Nat} (h1 : 2 ^ 28 ≤ want) (h2 : want ≤ 2 ^ 36)
    (h3 : want ≤ rlim) (h4 : 4 * want ≤ total) :
    calcMemSize want total rlim = some (want / 2 ^ 21 * 2 ^ 21) := by
  obtain ⟨n, hn⟩ := (calcMem_some (want := want) (total := total) (rlim := rlim)).2 ⟨by omega, by omega⟩
  obtain ⟨e1, e2, e3⟩ := calcMem_eq hn
  have q1 : (2 : Nat) ^ 36 = 68719476736 := by decide
  have q2 : (2 : Nat) ^ 28 = 268435456 := by decide
  have q3 : (2 : Nat) ^ 21 = 2097152 := by decide
  rw [q1] at h2
  rw [q2] at h1
  have hw : want ≠ 0 := by omega
  have hm : min (max want 268435456) (min (min 68719476736 rlim) (total / 4)) = want := by omega
  rw [if_neg hw, hm] at e3
  rw [hn, e3, q3]

/-- The lower bound of 256M, which the code names, is not kept: a machine that
has 256M, and so is accepted, gets 64M. -/
theorem C74_memory_floor_violated : calcMemSize 0 (2 ^ 28) (2 ^ 40) = some (2 ^ 26) ∧ 2 ^ 26 < 2 ^ 28 := by
  decide

/-! ## Where it fails -/

/-- All steps but `t` succeed. -/
def deny (t : Step) : Step → Bool := fun u => decide (u ≠ t)

/-- A command with a password and a map of two users and one group. -/
def cmdArgs : Args := ⟨false, false, true, 2, 1, 4, 2 ^ 30, 2 ^ 34, 2 ^ 40⟩

/-- A mount with four dispatchers. -/
def mntArgs : Args := ⟨false, true, true, 0, 0, 4, 2 ^ 30, 2 ^ 34, 2 ^ 40⟩

/-- A command that allocates from the C library. -/
def stdArgs : Args := ⟨true, false, true, 0, 0, 4, 2 ^ 30, 2 ^ 34, 2 ^ 40⟩

/-- When the key cannot be derived from the password, the command is refused,
and locks, ciphers, hash and converter of the environment stay: the pointer to
the environment is set only afterwards (lib/execlib.c:421-447). -/
theorem C74_derive_violated :
    (newEnv (deny .derive) cmdArgs St.empty).1 = false ∧
    ∀ o ∈ [Obj.envRw, .envMutex, .bootCipher, .envMd, .encCipher, .decCipher, .iconv],
      (newEnv (deny .derive) cmdArgs St.empty).2.held o = true := by
  decide +kernel

/-- When an algorithm of the repository's hash cannot be enabled, the handle of
the hash stays open (lib/crypt/mdigest.c:23-46). -/
theorem C74_hash_violated :
    (newEnv (deny .repoEnable) cmdArgs St.empty).1 = false ∧
    (newEnv (deny .repoEnable) cmdArgs St.empty).2.held .repoMd = true := by
  decide +kernel

/-- When the table of the repository cannot be allocated, a mutex is destroyed
that was never initialised (lib/repo.c:1909-1938). -/
theorem C74_repo_table_violated :
    (newEnv (deny (.get .repoTbl)) cmdArgs St.empty).1 = false ∧
    (newEnv (deny (.get .repoTbl)) cmdArgs St.empty).2.bad = true := by
  decide +kernel

/-- When the mutex of the repository cannot be initialised, the table stays
allocated, which is lost with the allocator of the C library
(lib/repo.c:1909-1938). -/
theorem C74_repo_mutex_violated :
    (newEnv (deny (.get .repoMutex)) stdArgs St.empty).1 = false ∧
    (newEnv (deny (.get .repoMutex)) stdArgs St.empty).2.bad = true ∧
    (newEnv (deny (.get .repoMutex)) stdArgs St.empty).2.held .repoTbl = true := by
  decide +kernel

/-- When a buffer of a dispatcher other than the last cannot be allocated, the
program goes through a NULL pointer while it takes down the dispatchers that
were not initialised yet (lib/fuseq.c:3863-3869 through 4580-4588). -/
theorem C74_dispatcher_violated :
    (newEnv (deny (.get (.outb 0))) mntArgs St.empty).1 = false ∧
    (newEnv (deny (.get (.outb 0))) mntArgs St.empty).2.dead = true := by
  decide +kernel

/-- For each kind of slippery step there is a command that its denial harms, so
the exception in `C74_all_or_nothing_partial` is not larger than it must
be. -/
theorem C74_slippery_sharp :
    (∀ t ∈ [Step.repoEnable, .derive, .get .repoTbl, .get .repoMutex],
      slippery cmdArgs t = true ∧ ¬ Spotless (newEnv (deny t) cmdArgs St.empty).2) ∧
    (∀ t ∈ [Step.get (.inb 0), .get (.outb 1), .get (.rwi 2)],
      slippery mntArgs t = true ∧ ¬ Spotless (newEnv (deny t) mntArgs St.empty).2) := by
  constructor
  · intro t ht
    simp only [List.mem_cons, List.not_mem_nil, or_false] at ht
    rcases ht with rfl | rfl | rfl | rfl <;> refine ⟨by decide, fun h => ?_⟩
    · have := h.held .repoMd
      revert this
      decide +kernel
    · have := h.held .envRw
      revert this
      decide +kernel
    · have := h.bad
      revert this
      decide +kernel
    · have := h.bad
      revert this
      decide +kernel
  · intro t ht
    simp only [List.mem_cons, List.not_mem_nil, or_false] at ht
    rcases ht with rfl | rfl | rfl <;> refine ⟨by decide, fun h => ?_⟩ <;>
      (have := h.dead; revert this; decide +kernel)

/-! ## The hypotheses are met -/

/-- A mount whose steps all succeed is set up. -/
example : (newEnv (fun _ => true) mntArgs St.empty).1 = true := by decide +kernel

example : (newEnv (fun _ => true) mntArgs St.empty).2.held (.rwi 3) = true ∧
    (newEnv (fun _ => true) mntArgs St.empty).2.held (.rwi 4) = false := by decide +kernel

/-- The last buffer of the last dispatcher is denied, which is not slippery. -/
example : (newEnv (deny (.get (.rwi 3))) mntArgs St.empty).1 = false ∧
    ∀ t, slippery mntArgs t = true → needs mntArgs t = true → deny (.get (.rwi 3)) t = true := by
  refine ⟨by decide +kernel, fun t ht _ => ?_⟩
  simp only [deny, ne_eq, decide_not, Bool.not_eq_true', decide_eq_false_iff_not]
  rintro rfl
  exact absurd ht (by decide)

example : roomy cmdArgs := by unfold roomy cmdArgs; decide

example : calcMemSize 0 (2 ^ 34) (2 ^ 40) = some (2 ^ 32) := by decide

example : calcMemSize (2 ^ 30 + 5) (2 ^ 34) (2 ^ 40) = some (2 ^ 30) := by decide

end Silofs.Fi
