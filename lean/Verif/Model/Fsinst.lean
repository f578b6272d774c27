/-!
# Setting up and tearing down the environment of a file-system

`silofs_new_fsenv` builds everything a command needs before it touches a
file-system: the password, the memory allocator, the caches, the repository
object, the queues, the map of ids, the environment with its locks, ciphers
and hash, and for a mount the FUSE queue with its dispatchers.
`silofs_del_fsenv` takes it down.  Both are modelled function by function as
programs over a ledger of what is held at present.

Simplifications, all common to this file.  An attempt to get something either
succeeds or is denied; which, is given by a function `ok` over all steps, so
every pattern of denials is covered.  Releasing never fails (`munmap`, `close`
and the `pthread_*_destroy` functions return 0 for valid arguments).  A field
that holds a pointer is NULL exactly when what it points to is not held, which
is what zeroed memory and the assignments of NULL in the code make of it; the
ten pointers of the setup context are kept apart from the ledger (`ptr`).
Attributes of mutexes are not modelled.  An operation after a crash does
nothing.
-/
namespace Silofs.Fi

/-- The things that are acquired while an environment is set up. -/
inductive Obj where
  | inst | passwd
  | poolMutex | dataFd | dataMap | metaFd | metaMap | slab (i : Nat)
  | allocIf
  | uamapTbl | nilBlk | uniTbl | vniTbl
  | repoMd | repoTbl | repoMutex
  | smqMutex
  | uhtof | uftoh | ghtof | gftoh | uidEnt (i : Nat) | gidEnt (i : Nat)
  | pcacheTbl
  | envRw | envMutex | bootCipher | envMd | encCipher | decCipher | iconv
  | fqMem | fqSem | fqCh | fqOp | fqCtl
  | inb (i : Nat) | outb (i : Nat) | rwi (i : Nat)
  deriving DecidableEq, Repr

/-- Steps which may be denied: getting a thing, or one of the steps that get
nothing: the arguments of the command, the sizes of the machine's memory,
setting the size of the two memory files, enabling the algorithms of a hash,
the type of the boot reference and the derivation of the key. -/
inductive Step where
  | get (o : Obj)
  | args | memLimits | dataTrunc | metaTrunc | repoEnable | envEnable
  | brefType | derive
  deriving DecidableEq, Repr

/-- The ten pointers of `struct silofs_fs_ctx` (lib/execlib.c:51-64). -/
inductive Ptr where
  | password | alloc | lcache | repo | submitq | flusher | idsmap | bstore
  | fsenv | fuseq
  deriving DecidableEq, Repr

/-- The ledger.  `held` says what is held at present; `ptr` which pointers of
the context are set; `bad` whether something was released that was not held,
acquired while held, or given back to an allocator that no longer exists;
`dead` whether the program went through a NULL pointer. -/
structure St where
  held : Obj → Bool
  ptr : Ptr → Bool
  bad : Bool
  dead : Bool

/-- The start: nothing is held. -/
def St.empty : St := ⟨fun _ => false, fun _ => false, false, false⟩

/-- The things that are pieces of memory of the allocator
(`silofs_memalloc`, lib/infra/qalloc.c:153-161; `silofs_lista_new`,
lib/infra/list.c:224-234; `ume_new` and `gme_new` of lib/idsmap.c). -/
def Obj.heap : Obj → Bool
  | .uamapTbl | .nilBlk | .uniTbl | .vniTbl | .repoTbl => true
  | .uhtof | .uftoh | .ghtof | .gftoh | .pcacheTbl | .fqMem => true
  | .uidEnt _ | .gidEnt _ | .inb _ | .outb _ | .rwi _ => true
  | _ => false

/-- `f` with `x` set to `v`. -/
def upd {α : Type} [DecidableEq α] (f : α → Bool) (x : α) (v : Bool) : α → Bool :=
  fun y => if y = x then v else f y

variable (ok : Step → Bool)

/-- Get `o`: a call such as `pthread_mutex_init`, `gcry_cipher_open`,
`memfd_create` or an allocation. -/
def acq (o : Obj) (s : St) : Bool × St :=
  if s.dead then (false, s)
  else if ok (.get o) then
    (true, { s with held := upd s.held o true
                    bad := s.bad || s.held o || (o.heap && !s.held .allocIf) })
  else (false, s)

/-- Get `o` by a step that cannot fail. -/
def put (o : Obj) (s : St) : Bool × St :=
  if s.dead then (false, s)
  else (true, { s with held := upd s.held o true, bad := s.bad || s.held o })

/-- A step that gets nothing and may fail. -/
def chk (t : Step) (s : St) : Bool × St :=
  if s.dead then (false, s) else (ok t, s)

/-- Release `o`, held or not: a call such as `silofs_mutex_fini`
(lib/infra/thread.c:171-179), which does not look whether there is one. -/
def rel (o : Obj) (s : St) : St :=
  if s.dead then s
  else { s with held := upd s.held o false
                bad := s.bad || !s.held o || (o.heap && !s.held .allocIf) }

/-- Release `o` unless its pointer is NULL: `silofs_cipher_fini`
(lib/crypt/cipher.c:99-104), `silofs_mdigest_fini`
(lib/crypt/mdigest.c:48-54), `silofs_memfree` (lib/infra/qalloc.c:163-169) and
the like. -/
def relIf (o : Obj) (s : St) : St :=
  if s.held o then rel o s else s

/-- `f`, then `g` if `f` succeeded. -/
def andThen (f g : St → Bool × St) (s : St) : Bool × St :=
  match f s with
  | (true, s') => g s'
  | (false, s') => (false, s')

/-- `f`, and `u` if `f` failed: a label `out_err`. -/
def orUndo (f : St → Bool × St) (u : St → St) (s : St) : Bool × St :=
  match f s with
  | (true, s') => (true, s')
  | (false, s') => (false, u s')

/-- `f` for 0, 1, …, n-1 until one fails. -/
def upTo (f : Nat → St → Bool × St) : Nat → St → Bool × St
  | 0, s => (true, s)
  | n + 1, s => andThen (upTo f n) (f n) s

/-- `u` for 0, 1, …, n-1. -/
def each (u : Nat → St → St) : Nat → St → St
  | 0, s => s
  | n + 1, s => u n (each u n s)

/-! ## The memory to use -/

def MEGA : Nat := 2 ^ 20
def GIGA : Nat := 2 ^ 30

/-- `calc_mem_size` (lib/execlib.c:78-107) with `align_down` (68-71) and
`silofs_clamp_u64` (include/silofs/infra/utility.h:78-81), which takes the
smaller bound when the bounds cross.  `total` and `rlim` are what
`silofs_memory_limits` (lib/infra/qalloc.c:1786-1793) found. -/
def calcMemSize (want total rlim : Nat) : Option Nat :=
  if total < GIGA / 4 then none
  else if rlim < GIGA / 4 then none
  else
    some (min (max (if want = 0 then 4 * GIGA else want) (GIGA / 4))
      (min (min (64 * GIGA) rlim) (total / 4)) / (2 * MEGA) * (2 * MEGA))

/-- `check_memsize` (lib/infra/qalloc.c:1216-1225). -/
def checkMemSize (n : Nat) : Bool :=
  decide (8 * MEGA ≤ n) && decide (n ≤ 64 * GIGA)

/-! ## The allocator -/

/-- `memfd_setup` (lib/infra/qalloc.c:183-210) for the data file. -/
def dataSetup : St → Bool × St :=
  andThen (acq ok .dataFd)
    (orUndo (andThen (chk ok .dataTrunc) (acq ok .dataMap)) (rel .dataFd))

/-- `memfd_setup` (lib/infra/qalloc.c:183-210) for the meta file. -/
def metaSetup : St → Bool × St :=
  andThen (acq ok .metaFd)
    (orUndo (andThen (chk ok .metaTrunc) (acq ok .metaMap)) (rel .metaFd))

/-- `memfd_close` (lib/infra/qalloc.c:212-231) of the data file. -/
def dataClose (s : St) : St := rel .dataFd (rel .dataMap s)

/-- `memfd_close` (lib/infra/qalloc.c:212-231) of the meta file. -/
def metaClose (s : St) : St := rel .metaFd (rel .metaMap s)

/-- `qpool_init_memfds` (lib/infra/qalloc.c:380-404). -/
def poolMemfds : St → Bool × St :=
  andThen (dataSetup ok) (orUndo (metaSetup ok) dataClose)

/-- `qpool_init` (lib/infra/qalloc.c:461-483). -/
def poolInit : St → Bool × St :=
  andThen (acq ok .poolMutex) (orUndo (poolMemfds ok) (rel .poolMutex))

/-- `qpool_fini` (lib/infra/qalloc.c:485-496). -/
def poolFini (s : St) : St := metaClose (dataClose (rel .poolMutex s))

/-- Slabs of the allocator (include/silofs/infra/qalloc.h:83). -/
def NSLABS : Nat := 12

/-- `qalloc_init_slabs` (lib/infra/qalloc.c:1184-1207): on an error the slabs
initialised so far are finished. -/
def slabsInit : Nat → St → Bool × St
  | 0, s => (true, s)
  | n + 1, s =>
    andThen (slabsInit n)
      (orUndo (acq ok (.slab n)) (each (fun i => rel (.slab i)) n)) s

/-- `qalloc_fini_slabs` (lib/infra/qalloc.c:1209-1214). -/
def slabsFini : St → St := each (fun i => rel (.slab i)) NSLABS

/-- The memory of the allocator is gone with its two files: what was allocated
from it is no longer held by anybody (`qpool_fini`). -/
def dropHeap (s : St) : St :=
  if s.dead then s
  else { s with held := fun o => s.held o && !o.heap }

/-- `silofs_qalloc_init` (lib/infra/qalloc.c:1241-1267); the last step sets the
functions of the interface. -/
def qallocInit (memsize : Nat) (s : St) : Bool × St :=
  if checkMemSize memsize then
    andThen (andThen (poolInit ok) (orUndo (slabsInit ok NSLABS) poolFini))
      (put .allocIf) s
  else (false, s)

/-- `silofs_qalloc_fini` (lib/infra/qalloc.c:1269-1275). -/
def qallocFini (s : St) : St :=
  dropHeap (poolFini (slabsFini (rel .allocIf s)))

/-- `silofs_calloc_init` (lib/infra/qalloc.c:1758-1766). -/
def callocInit : St → Bool × St := put .allocIf

/-- `silofs_calloc_fini` (lib/infra/qalloc.c:1768-1772): what was allocated
stays allocated. -/
def callocFini : St → St := rel .allocIf

/-! ## The caches -/

/-- `lcache_fini_hmapqs` (lib/lcache.c:933-937) with `silofs_hmapq_fini`
(lib/hmdq/hmapq.c:539-550). -/
def hmapqsFini (s : St) : St := relIf .uniTbl (relIf .vniTbl s)

/-- `lcache_init_hmapqs` (lib/lcache.c:939-955). -/
def hmapqsInit : St → Bool × St :=
  orUndo (andThen (acq ok .uniTbl) (acq ok .vniTbl)) hmapqsFini

/-- `silofs_lcache_fini` (lib/lcache.c:1008-1016); `silofs_spamaps_fini` and
the dirty queues hold nothing yet. -/
def lcacheFini (s : St) : St :=
  relIf .uamapTbl (relIf .nilBlk (hmapqsFini s))

/-- `silofs_lcache_init` (lib/lcache.c:977-1006) with `silofs_uamap_init`
(lib/spxmap.c:755-769) and `lcache_init_nil_bk` (lib/lcache.c:911-921). -/
def lcacheInit : St → Bool × St :=
  orUndo (andThen (acq ok .uamapTbl) (andThen (acq ok .nilBlk) (hmapqsInit ok)))
    lcacheFini

/-! ## Repository, queues, ids, blobs -/

/-- `silofs_mdigest_init` (lib/crypt/mdigest.c:23-46): when an algorithm cannot
be enabled, the handle stays open. -/
def mdInit (o : Obj) (en : Step) : St → Bool × St :=
  andThen (acq ok o) (chk ok en)

/-- `silofs_repo_init` (lib/repo.c:1909-1938): an error of the hash returns at
once; the other errors go to the label that finishes the mutex and the hash,
but not the table. -/
def repoInit : St → Bool × St :=
  andThen (mdInit ok .repoMd .repoEnable)
    (orUndo (andThen (acq ok .repoTbl) (acq ok .repoMutex))
      (fun s => relIf .repoMd (rel .repoMutex s)))

/-- `silofs_repo_fini` (lib/repo.c:1940-1948); the directories of the
repository are closed and its files evicted before. -/
def repoFini (s : St) : St := rel .repoMutex (relIf .repoMd (relIf .repoTbl s))

/-- `silofs_submitq_init` (lib/task.c:247-254). -/
def submitqInit : St → Bool × St := acq ok .smqMutex

/-- `silofs_submitq_fini` (lib/task.c:256-261). -/
def submitqFini : St → St := rel .smqMutex

/-- `idsmap_init_uhmaps` (lib/idsmap.c:168-193). -/
def uhmapsInit : St → Bool × St :=
  andThen (acq ok .uhtof) (orUndo (acq ok .uftoh) (rel .uhtof))

/-- `idsmap_fini_uhmaps` (lib/idsmap.c:195-203). -/
def uhmapsFini (s : St) : St := relIf .uftoh (relIf .uhtof s)

/-- `idsmap_init_ghmaps` (lib/idsmap.c:205-230). -/
def ghmapsInit : St → Bool × St :=
  andThen (acq ok .ghtof) (orUndo (acq ok .gftoh) (rel .ghtof))

/-- `idsmap_fini_ghmaps` (lib/idsmap.c:232-240). -/
def ghmapsFini (s : St) : St := relIf .gftoh (relIf .ghtof s)

/-- `silofs_idsmap_init` (lib/idsmap.c:264-271) with `idsmap_init_hmaps`
(242-256). -/
def idsmapInit : St → Bool × St :=
  andThen (uhmapsInit ok) (orUndo (ghmapsInit ok) uhmapsFini)

/-- `silofs_idsmap_clear` (lib/idsmap.c:680-684): every entry that is there. -/
def idsmapClear (nu ng : Nat) (s : St) : St :=
  each (fun i => relIf (.gidEnt i)) ng (each (fun i => relIf (.uidEnt i)) nu s)

/-- `silofs_idsmap_fini` (lib/idsmap.c:273-278). -/
def idsmapFini (nu ng : Nat) (s : St) : St :=
  ghmapsFini (uhmapsFini (idsmapClear nu ng s))

/-- The map of ids in `fs_ctx_setup_idsmap` (lib/execlib.c:364-388). -/
def idsmapSetup (nu ng : Nat) : St → Bool × St :=
  andThen (idsmapInit ok)
    (orUndo
      (andThen (upTo (fun i => acq ok (.uidEnt i)) nu)
        (upTo (fun i => acq ok (.gidEnt i)) ng))
      (idsmapFini nu ng))

/-- `silofs_bstore_init` (lib/bstore.c:241-246) with `silofs_pcache_init`
(lib/pcache.c:70-84). -/
def bstoreInit : St → Bool × St := acq ok .pcacheTbl

/-- `silofs_bstore_fini` (lib/bstore.c:248-254) with `silofs_pcache_fini`
(lib/pcache.c:86-91). -/
def bstoreFini : St → St := relIf .pcacheTbl

/-! ## The environment -/

/-- `fsenv_init_locks` (lib/fsenv.c:206-220). -/
def envLocks : St → Bool × St :=
  andThen (acq ok .envRw) (orUndo (acq ok .envMutex) (rel .envRw))

/-- `fsenv_fini_locks` (lib/fsenv.c:222-226). -/
def envLocksFini (s : St) : St := rel .envRw (rel .envMutex s)

/-- `fsenv_fini_crypto` (lib/fsenv.c:268-273). -/
def envCryptoFini (s : St) : St :=
  relIf .envMd (relIf .encCipher (relIf .decCipher s))

/-- `fsenv_init_crypto` (lib/fsenv.c:244-266). -/
def envCrypto : St → Bool × St :=
  andThen (mdInit ok .envMd .envEnable)
    (orUndo (andThen (acq ok .encCipher) (acq ok .decCipher)) envCryptoFini)

/-- `silofs_fsenv_fini` (lib/fsenv.c:327-335) with `fsenv_fini_iconv`
(285-291) and `fsenv_fini_boot` (236-242). -/
def envFini (s : St) : St :=
  envLocksFini (relIf .bootCipher (envCryptoFini (relIf .iconv s)))

/-- `silofs_fsenv_init` (lib/fsenv.c:293-325): the type of the boot reference
(133-155) is looked at before anything is acquired. -/
def envInit : St → Bool × St :=
  andThen (chk ok .brefType)
    (andThen (envLocks ok)
      (orUndo
        (andThen (acq ok .bootCipher) (andThen (envCrypto ok) (acq ok .iconv)))
        envFini))

/-- The environment in `fs_ctx_setup_fsenv` (lib/execlib.c:421-447):
`silofs_fsenv_setup` (lib/fsenv.c:361-372) derives the key when there is a
password; when that fails, the function returns, and the pointer to the
environment has not been set. -/
def envSetup (pw : Bool) : St → Bool × St :=
  andThen (envInit ok) (if pw then chk ok .derive else fun s => (true, s))

/-! ## The queue of a mount -/

/-- `calc_ndisptch_lim` (lib/fuseq.c:5468-5471). -/
def ndispLim (nproc : Nat) : Nat := min (max nproc 2) 16

/-- `fuseq_init_locks` (lib/fuseq.c:4471-4501). -/
def fqLocks : St → Bool × St :=
  andThen (acq ok .fqSem)
    (orUndo
      (andThen (acq ok .fqCh)
        (orUndo
          (andThen (acq ok .fqOp) (orUndo (acq ok .fqCtl) (rel .fqOp)))
          (rel .fqCh)))
      (rel .fqSem))

/-- `fuseq_fini_locks` (lib/fuseq.c:4503-4511). -/
def fqLocksFini (s : St) : St :=
  rel .fqSem (rel .fqCh (rel .fqOp (rel .fqCtl s)))

/-- `fqd_init_bufs` (lib/fuseq.c:3871-3886). -/
def dispBufs (i : Nat) : St → Bool × St :=
  andThen (acq ok (.inb i)) (orUndo (acq ok (.outb i)) (rel (.inb i)))

/-- `fqd_fini_rwi` (lib/fuseq.c:3934-3940) and `fqd_fini_bufs` (3888-3900). -/
def dispFree (i : Nat) (s : St) : St :=
  relIf (.inb i) (relIf (.outb i) (relIf (.rwi i) s))

/-- `fqd_init` (lib/fuseq.c:3957-3992). -/
def dispInit (i : Nat) : St → Bool × St :=
  orUndo (andThen (dispBufs ok i) (acq ok (.rwi i))) (dispFree i)

/-- `fqd_fini` (lib/fuseq.c:3994-4002): `fqd_fini_bufs` looks for the allocator
through the back-pointer of the thread (`fqd_alloc`, 3863-3869), which is NULL
for a dispatcher that `fqd_init` has not seen (`seen = false`).  The pipe of
such a dispatcher is all zeros, and `silofs_sys_closefd`
(lib/sys/syscallx.c:235-246) and `silofs_pipe_close`
(lib/infra/pipe.c:194-204) leave descriptor 0 alone. -/
def dispFini (seen : Bool) (i : Nat) (s : St) : St :=
  if s.dead then s
  else if seen then dispFree i s
  else { s with dead := true }

/-- `fuseq_init_dispatchers` (lib/fuseq.c:4565-4578): how many succeeded
before the first failure, and the ledger. -/
def dispInits : Nat → St → Nat × St
  | 0, s => (0, s)
  | n + 1, s =>
    match dispInits n s with
    | (k, s') =>
      if k = n then
        match dispInit ok n s' with
        | (true, s'') => (n + 1, s'')
        | (false, s'') => (n, s'')
      else (k, s')

/-- `fuseq_fini_dispatchers` (lib/fuseq.c:4580-4588): all of them, of which
`fqd_init` saw those below `seen`. -/
def dispFinis (seen n : Nat) : St → St :=
  each (fun i => dispFini (decide (i < seen)) i) n

/-- `fuseq_init` (lib/fuseq.c:4712-4738); `fuseq_init_workers` cannot fail.
A dispatcher that failed was seen. -/
def fqInit (nd : Nat) : St → Bool × St :=
  andThen (fqLocks ok) fun s =>
    match dispInits ok nd s with
    | (k, s') =>
      if k = nd then (true, s')
      else (false, fqLocksFini (dispFinis (k + 1) nd s'))

/-- `fuseq_fini` (lib/fuseq.c:4748-4759) of a queue that is set up. -/
def fqFini (nd : Nat) (s : St) : St := fqLocksFini (dispFinis nd nd s)

/-- `silofs_fuseq_new` (lib/fuseq.c:5504-5537). -/
def fqNew (nd : Nat) : St → Bool × St :=
  andThen (acq ok .fqMem) (orUndo (fqInit ok nd) (rel .fqMem))

/-- `silofs_fuseq_del` (lib/fuseq.c:5539-5546). -/
def fqDel (nd : Nat) (s : St) : St := rel .fqMem (fqFini nd s)

/-! ## The whole -/

/-- What the command asks for. -/
structure Args where
  /-- allocate from the C library (`stdalloc`) -/
  std : Bool
  /-- set up a FUSE queue (`with_fuse`) -/
  fuse : Bool
  /-- a password was given -/
  pw : Bool
  /-- number of users and groups in the map of ids -/
  nu : Nat
  ng : Nat
  /-- processors on line -/
  nproc : Nat
  /-- memory wanted, memory of the machine and limit of the process -/
  want : Nat
  total : Nat
  rlim : Nat

/-- Set a pointer of the context. -/
def setPtr (p : Ptr) (v : Bool) (s : St) : St :=
  if s.dead then s else { s with ptr := upd s.ptr p v }

/-- `f`, and set the pointer `p` if it succeeded: the shape of
`fs_ctx_setup_lcache` (lib/execlib.c:263-275) and its siblings. -/
def setup1 (p : Ptr) (f : St → Bool × St) : St → Bool × St :=
  andThen f fun s => (true, setPtr p true s)

/-- If the pointer `p` is set, `u` and reset it: the shape of
`fs_ctx_destroy_lcache` (lib/execlib.c:277-283) and its siblings. -/
def destroy1 (p : Ptr) (u : St → St) (s : St) : St :=
  if s.ptr p then setPtr p false (u s) else s

/-- `fs_ctx_setup_alloc` (lib/execlib.c:242-252), with
`fs_ctx_setup_qalloc` (178-199) and `fs_ctx_setup_calloc` (212-229). -/
def setupAlloc (a : Args) : St → Bool × St :=
  setup1 .alloc <| andThen (chk ok .memLimits) fun s =>
    match calcMemSize a.want a.total a.rlim with
    | none => (false, s)
    | some n => if a.std then callocInit s else qallocInit ok n s

/-- `fs_ctx_destroy_alloc` (lib/execlib.c:254-261). -/
def destroyAlloc (a : Args) : St → St :=
  destroy1 .alloc (if a.std then callocFini else qallocFini)

/-- The components in the order of their setup, after password and allocator:
the pointer, how it is set up and how it is taken down
(lib/execlib.c:263-517).  The flusher acquires nothing
(lib/flush.c:901-922). -/
def comps (a : Args) : List (Ptr × (St → Bool × St) × (St → St)) :=
  [ (.lcache, lcacheInit ok, lcacheFini),
    (.repo, repoInit ok, repoFini),
    (.submitq, submitqInit ok, submitqFini),
    (.flusher, fun s => (true, s), id),
    (.idsmap, idsmapSetup ok a.nu a.ng,
      fun s => idsmapFini a.nu a.ng (idsmapClear a.nu a.ng s)),
    (.bstore, bstoreInit ok, bstoreFini),
    (.fsenv, envSetup ok a.pw, envFini) ]

/-- The components set up one after the other until one fails. -/
def setupAll : List (Ptr × (St → Bool × St) × (St → St)) → St → Bool × St
  | [], s => (true, s)
  | (p, f, _) :: cs, s => andThen (setup1 p f) (setupAll cs) s

/-- The components taken down, the last first. -/
def destroyAll : List (Ptr × (St → Bool × St) × (St → St)) → St → St
  | [], s => s
  | (p, _, u) :: cs, s => destroy1 p u (destroyAll cs s)

/-- `fs_ctx_setup_fuseq` (lib/execlib.c:494-508): only for a mount. -/
def setupFuseq (a : Args) (s : St) : Bool × St :=
  if a.fuse then setup1 .fuseq (fqNew ok (ndispLim a.nproc)) s else (true, s)

/-- `fs_ctx_destroy_fuseq` (lib/execlib.c:510-517). -/
def destroyFuseq (a : Args) : St → St :=
  destroy1 .fuseq (fqDel (ndispLim a.nproc))

/-- `fs_ctx_destroy` (lib/execlib.c:541-553). -/
def ctxDestroy (a : Args) (s : St) : St :=
  destroy1 .password (rel .passwd)
    (destroyAlloc a (destroyAll (comps ok a) (destroyFuseq a s)))

/-- `fs_ctx_setup` (lib/execlib.c:555-603); the password is copied first
(519-531). -/
def ctxSetup (a : Args) : St → Bool × St :=
  orUndo
    (andThen (setup1 .password (acq ok .passwd))
      (andThen (setupAlloc ok a)
        (andThen (setupAll (comps ok a)) (setupFuseq ok a))))
    (ctxDestroy ok a)

/-- `new_fs_inst` (lib/execlib.c:632-653). -/
def newInst (a : Args) : St → Bool × St :=
  andThen (acq ok .inst) (orUndo (ctxSetup ok a) (rel .inst))

/-- `silofs_new_fsenv` (lib/execlib.c:655-675): the arguments are checked
first (139-152). -/
def newEnv (a : Args) : St → Bool × St :=
  andThen (chk ok .args) (newInst ok a)

/-- `silofs_del_fsenv` (lib/execlib.c:688-695) with `del_fs_inst` (677-686);
`fs_ctx_init_from` (614-630) finds all pointers set, that of the queue only
for a mount. -/
def delEnv (a : Args) (s : St) : St :=
  rel .inst (ctxDestroy ok a s)

end Silofs.Fi
