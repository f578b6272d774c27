import Verif.Model.Flush
/-
Write-back by several threads at once: lib/task.c (submission queue), lib/flush.c (who fills it), lib/opers.c and
lib/fuseq.c (what a request does around it).

Each event is one step of one thread between two points where another may run.  What a lock protects is one step or
several, as in the code; taking a lock which is held is not possible (`none`).  Counters of references are atomic
(include/silofs/infra/atomic.h), so each change of them is a step on its own.  One call of pwritev is one step: nobody
reads from storage what is queued (`C68_reload`).  The shared lock of fuseq.c:3426-3439 `fqd_do_exec_request` excludes
nothing modelled here.  A failing write writes nothing here.  The fields `sent`, `log`, `held`
and `mine` are not in the code; they record what happened.
-/
namespace Silofs.Smq
open Silofs.Flush

/-- Where a thread is in lib/task.c:306-321 `submitq_apply_one` and 323-337 `submitq_apply`. -/
inductive Ph where
  | want
  | locked
  | took (q : Sqe)
  | wrote (q : Sqe) (bad : Bool)
  | left (q : Sqe) (bad : Bool)
  | empty
  deriving DecidableEq

/-- Where a thread is: no request; in a request; in lib/task.c:283-289 `silofs_submitq_enqueue`, before and after the
lock, and after the push; or in a submission up to an id (`none`: all, `SILOFS_CID_ALL`), which was called by a flush
inside of the request or at its end. -/
inductive Pc where
  | idle
  | run
  | enq (q : Sqe)
  | enqLocked (q : Sqe)
  | enqDone (q : Sqe)
  | sub (lim : Option Nat) (inside : Bool) (ph : Ph)
  deriving DecidableEq

/-- A thread: where it is, the entries its flush has made (`tx`), the greatest id it has queued (`t_apex_id`), the
result of its last submission, and what it has sent to the queue. -/
structure Thr where
  pc : Pc
  tx : List Sqe
  apex : Nat
  bad : Bool
  mine : List Sqe
  deriving DecidableEq

structure State where
  queue : List Sqe
  mutex : Option Nat
  fsl : Option Nat
  next : Nat
  disk : Disk
  refs : Id → Int
  thr : Nat → Thr
  held : Id → Nat
  sent : List Sqe
  log : List (Sqe × Bool)

/-- lib/task.c:247-254 `silofs_submitq_init`; nobody runs. -/
def init (d : Disk) : State where
  queue := []
  mutex := none
  fsl := none
  next := 1
  disk := d
  refs := fun _ => 0
  thr := fun _ => ⟨.idle, [], 0, false, []⟩
  held := fun _ => 0
  sent := []
  log := []

def setThr (s : State) (t : Nat) (x : Thr) : State := { s with thr := fun u => if u = t then x else s.thr u }

/-- lib/task.c:165-173 `silofs_sqe_increfs`, 175-183 `sqe_decrefs`: how often the object is in the entry. -/
def addRefs (r : Id → Int) (q : Sqe) (k : Int) : Id → Int := fun n => r n + k * (q.refs.count n : Int)

/-- lib/task.c:291-304 `submitq_get_sqe` -/
def getSqe (queue : List Sqe) (lim : Option Nat) : Option Sqe :=
  match queue with
  | [] => none
  | q :: _ =>
    match lim with
    | none => some q
    | some id => if q.id > id then none else some q

inductive Ev where
  | begin (t : Nat)
  | lockFs (t : Nat)
  | unlockFs (t : Nat)
  | ref (t : Nat) (n : Id)
  | unref (t : Nat) (n : Id)
  | make (t : Nat) (laddr : Laddr) (cls : Cls) (refs : List Id) (iov : List Bytes)
  | discard (t : Nat)
  | submitTx (t : Nat)
  | now (t : Nat)
  | finish (t : Nat) (all : Bool)
  | go (t : Nat) (bad : Bool)
  deriving DecidableEq

/-- One step of a thread in the middle of a call on the queue.  `bad`: the write which it does (if it does one) fails;
then nothing is written. -/
def goStep (s : State) (t : Nat) (bad : Bool) : Option State :=
  match (s.thr t).pc with
  | .idle => none
  | .run => none
  -- lib/task.c:283-289 `silofs_submitq_enqueue`
  | .enq q => if s.mutex = none then some { setThr s t { s.thr t with pc := .enqLocked q } with mutex := some t } else none
  | .enqLocked q => some { setThr s t { s.thr t with pc := .enqDone q } with queue := s.queue ++ [q] }
  -- ... the unlock, and lib/task.c:402-408 `silofs_task_update_by`
  | .enqDone q =>
    some { setThr s t { s.thr t with pc := .run, apex := if q.id > (s.thr t).apex then q.id else (s.thr t).apex } with
             mutex := none }
  -- lib/task.c:306-321 `submitq_apply_one`
  | .sub lim inside .want =>
    if s.mutex = none then some { setThr s t { s.thr t with pc := .sub lim inside .locked } with mutex := some t } else none
  | .sub lim inside .locked =>
    match getSqe s.queue lim with
    | none => some (setThr s t { s.thr t with pc := .sub lim inside .empty })
    | some q => some { setThr s t { s.thr t with pc := .sub lim inside (.took q) } with queue := s.queue.drop 1 }
  | .sub lim inside (.took q) =>
    some { setThr s t { s.thr t with pc := .sub lim inside (.wrote q bad) } with
             disk := if bad then s.disk else writev s.disk q.laddr.lsid q.laddr.pos q.iov
             log := s.log ++ [(q, bad)] }
  | .sub lim inside (.wrote q b) =>
    some { setThr s t { s.thr t with pc := .sub lim inside (.left q b) } with mutex := none }
  -- lib/task.c:323-337 `submitq_apply`: 346-352 `silofs_submitq_del_sqe`, then the next turn or the end
  | .sub lim inside (.left q b) =>
    some { setThr s t { s.thr t with
             pc := if b then (if inside then .run else .idle) else .sub lim inside .want
             bad := b } with refs := addRefs s.refs q (-1) }
  | .sub _ inside .empty =>
    some { setThr s t { s.thr t with pc := if inside then .run else .idle, bad := false } with mutex := none }

/-- One event; `none` when it cannot happen now. -/
def step (s : State) : Ev → Option State
  -- lib/task.c:447-462 `silofs_task_init`
  | .begin t => if (s.thr t).pc = .idle then some (setThr s t ⟨.run, [], 0, false, []⟩) else none
  -- lib/task.c:535-541 `silofs_task_lock_fs`
  | .lockFs t =>
    if (s.thr t).pc = .run ∧ s.fsl = none then some { s with fsl := some t } else none
  -- lib/task.c:543-549 `silofs_task_unlock_fs`, by lib/opers.c:105-113 `op_finish`: not in the middle of a flush
  | .unlockFs t =>
    if (s.thr t).pc = .run ∧ s.fsl = some t ∧ (s.thr t).tx = [] then some { s with fsl := none } else none
  -- references taken by the operation itself, and given back: lib/hmdq/hmapq.c:461-464 `hmqe_incref_atomic`, 466-469
  -- `hmqe_decref_atomic`
  | .ref t n =>
    if s.fsl = some t then
      some { s with
               refs := fun m => if m = n then s.refs m + 1 else s.refs m
               held := fun m => if m = n then s.held m + 1 else s.held m }
    else none
  | .unref t n =>
    if s.fsl = some t ∧ 0 < s.held n then
      some { s with
               refs := fun m => if m = n then s.refs m - 1 else s.refs m
               held := fun m => if m = n then s.held m - 1 else s.held m }
    else none
  -- lib/flush.c:760-781 `flusher_enqueue_dset`, one turn: lib/task.c:339-344 `silofs_submitq_new_sqe`, references,
  -- encrypted copies, queued in the flusher
  | .make t laddr cls refs iov =>
    if (s.thr t).pc = .run ∧ s.fsl = some t then
      some { setThr s t { s.thr t with tx := (s.thr t).tx ++ [⟨s.next, laddr, cls, refs, iov⟩] } with
               next := s.next + 1
               refs := addRefs s.refs ⟨s.next, laddr, cls, refs, iov⟩ 1 }
    else none
  -- lib/flush.c:732-741 `flusher_discard_txq`, one turn
  | .discard t =>
    match (s.thr t).tx with
    | [] => none
    | q :: r =>
      if (s.thr t).pc = .run ∧ s.fsl = some t then
        some { setThr s t { s.thr t with tx := r } with refs := addRefs s.refs q (-1) }
      else none
  -- lib/flush.c:718-730 `flusher_submit_txq`, one turn
  | .submitTx t =>
    match (s.thr t).tx with
    | [] => none
    | q :: r =>
      if (s.thr t).pc = .run ∧ s.fsl = some t then
        some { setThr s t { s.thr t with tx := r, pc := .enq q, mine := (s.thr t).mine ++ [q] } with
                 sent := s.sent ++ [q] }
      else none
  -- lib/flush.c:845-853 `flusher_complete_commits`: under the lock of the file-system
  | .now t =>
    if (s.thr t).pc = .run ∧ s.fsl = some t ∧ (s.thr t).tx = [] then
      some (setThr s t { s.thr t with pc := .sub none true .want })
    else none
  -- lib/task.c:572-579 `silofs_task_submit`, 410-420 `task_apply` at the end of the request; `all`: there are loose
  -- inodes
  | .finish t all =>
    if (s.thr t).pc = .run ∧ s.fsl ≠ some t then
      if all then some (setThr s t { s.thr t with pc := .sub none false .want })
      else if (s.thr t).apex = 0 then some (setThr s t { s.thr t with pc := .idle, bad := false })
      else some (setThr s t { s.thr t with pc := .sub (some (s.thr t).apex) false .want })
    else none
  | .go t bad => goStep s t bad

def run (s : State) : List Ev → Option State
  | [] => some s
  | e :: es =>
    match step s e with
    | none => none
    | some s' => run s' es

end Silofs.Smq
