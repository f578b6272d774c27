/-
The threads which serve a mounted file-system, from start to end: lib/fuseq.c, lib/execlib.c, cmd/mount.c,
cmd/signals.c.  One thread (`main`) starts the others, waits, joins them, and closes the file-system;
dispatchers receive and execute requests; workers store changes in the background.

A state is changed by events.  What the kernel answers, how a request ends, and when a thread runs are
part of the events, so that a theorem about all lists of events is about all of these.  The reads of
shared flags at the head of a dispatcher's round (`take`) are one step; a round which finds one of them
off goes to sleep and begins again.  Errors are positive numbers as in lib/errors: 1000 + errno for the
SILOFS_E… codes, 10000 and above for the internal ones.
-/
namespace Silofs.Srv

/-- A request: INIT, with a version of the protocol which is supported or not; DESTROY; any other, with a
number for what it changes. -/
inductive Req where
  | init (supported : Bool)
  | destroy
  | other (n : Nat)
  deriving DecidableEq

/-- Where a dispatcher is: not created; at the head of its loop (lib/fuseq.c:4196-4207 `fqd_exec_loop`);
waiting for a request, holding the lock of the channel (3705-3728 `fqd_recv_in_locked`); within an
operation, which is on the list of live ones (3402-3424 `fqd_call_oper`); storing what it has queued
(3433-3436); out of the loop. -/
inductive Disp where
  | none
  | loop
  | chan
  | exec (r : Req)
  | submit (e : Nat)
  | ended (e : Nat)
  deriving DecidableEq

/-- Where a worker is: lib/fuseq.c:4357-4366 `fqw_exec_loop` -/
inductive Work where
  | none
  | run
  | ended
  deriving DecidableEq

/-- Where the main thread is: creating threads (lib/fuseq.c:4951-4965 `fuseq_start_exec_threads`); waiting
(4979-4989 `fuseq_suspend_while_active`); joining dispatchers, then workers (4967-4972
`fuseq_finish_exec_threads`), with a count of rounds left and whether starting had failed; within
lib/execlib.c:1689-1697 `silofs_close_fs`, holding the lock: before the flush, before fsync, before the
shut-down; at the end of the command; ended by cmd/fsexec.c:134-139 `cmd_require_ok`; ended by a panic;
blocked for ever. -/
inductive Main where
  | startW (k : Nat)
  | startD (k : Nat)
  | wait
  | joinD (retry : Nat) (failed : Bool)
  | joinW (retry : Nat) (failed : Bool)
  | close0
  | flush
  | fsync
  | shut
  | done
  | died
  | panic
  | stuck
  deriving DecidableEq

/-- lib/fuseq.c: `struct silofs_fuseq` as far as it is used here; `made` are the changes which requests
have made, `saved` those which the last flush has stored. -/
structure S where
  nd : Nat
  nw : Nat
  active : Bool
  gotInit : Bool
  replyOk : Bool
  gotDestroy : Bool
  nopers : Nat
  drun : Nat
  wrun : Nat
  disp : Nat → Disp
  work : Nat → Work
  lock : Option Nat
  main : Main
  made : List Nat
  saved : List Nat

/-- lib/fuseq.c:4513-4537 `fuseq_init_common`, 4951-4955 -/
def init (nd nw : Nat) : S :=
  { nd := nd, nw := nw, active := true, gotInit := false, replyOk := false, gotDestroy := false
    nopers := 0, drun := 0, wrun := 0, disp := fun _ => .none, work := fun _ => .none, lock := none
    main := .startW 0, made := [], saved := [] }

/-- An operation is on the list. -/
def Disp.live : Disp → Bool
  | .exec _ => true
  | _ => false

/-- Out of the loop. -/
def Disp.over : Disp → Bool
  | .ended _ => true
  | _ => false

/-- lib/fuseq.c:4409-4412 `fuseq_has_live_opers` -/
def S.live (s : S) : Bool := (List.range s.nd).any (fun i => (s.disp i).live)

/-- lib/fuseq.c:3675-3680 `fqd_has_exec_mode`, 4350-4355 `fqw_has_exec_mode` -/
def S.execMode (s : S) : Bool := s.active || s.live

/-- lib/fuseq.c:1767-1771 `fuseq_is_normal` -/
def S.normal (s : S) : Bool := s.gotInit && s.replyOk && !s.gotDestroy && decide (s.nopers > 1)

/-- lib/fuseq.c:4104-4117 `fqd_allowed_exec`, with 1788-1791 `fuseq_has_nactive_disptch` -/
def S.allowed (s : S) (i : Nat) : Bool := decide (s.drun = s.nd) && (decide (i = 0) || s.normal)

def setD (s : S) (i : Nat) (d : Disp) : S := { s with disp := fun j => if j = i then d else s.disp j }

def setW (s : S) (i : Nat) (w : Work) : S := { s with work := fun j => if j = i then w else s.work j }

/-- lib/fuseq.c:4146-4172 `fqd_post_exec_once` and the loop around: the thread goes on, or it ends. -/
def post (s : S) (i : Nat) (e : Nat) : S :=
  if e = 0 then setD s i .loop
  else if e = 19 then setD { s with active := false } i (.ended e)           -- ENODEV
  else if e = 10009 ∨ e = 10010 then setD s i .loop                          -- ENORX, ENOTX
  else setD s i (.ended e)

/-- What receiving gives: nothing for a while; an error of poll(2), read(2) or splice(2); a request; one
which is unknown, or which the user is not allowed (lib/fuseq.c:3330-3346 `fqd_check_task`). -/
inductive Recv where
  | timeout
  | err (e : Nat)
  | req (r : Req)
  | refused
  deriving DecidableEq

/-- lib/fuseq.c:3225-3242 `fqd_check_opcode`, as far as INIT is concerned -/
def S.accepts (s : S) (r : Req) : Bool :=
  match r with
  | .init _ => !s.gotInit
  | _ => s.gotInit

/-- lib/fuseq.c:3705-3728 `fqd_recv_in_locked`, 3730-3760 `fqd_read_or_splice_request`, 4046-4071
`fqd_recv_exec_request`; `e` is the status of the answer to a refused request. -/
def recv (s : S) (i : Nat) (a : Recv) (e : Nat) : S :=
  if s.execMode then
    match a with
    | .timeout => setD { s with lock := none } i .loop
    | .err c =>
      if c = 19 then post { s with lock := none, active := false } i 19
      else if c = 1022 then post { s with lock := none, active := false } i 1022
      else if c = 2 ∨ c = 4 ∨ c = 11 then post { s with lock := none } i 10009
      else post { s with lock := none } i c
    | .req r =>
      if s.accepts r then setD { s with lock := none, nopers := s.nopers + 1 } i (.exec r)
      else post { s with lock := none } i (if e = 2 then 10010 else e)
    | .refused => post { s with lock := none } i (if e = 2 then 10010 else e)
  else post { s with lock := none } i 10009

/-- The end of an operation with status `e`: lib/fuseq.c:1718-1748 `do_init`, 1750-1758 `do_destroy`, and
all others. -/
def finish (s : S) (i : Nat) (r : Req) (e : Nat) : S :=
  match r with
  | .init true => setD { s with gotInit := true, replyOk := s.replyOk || decide (e = 0) } i (.submit e)
  | .init false => setD s i (.submit 71)                                     -- EPROTO
  | .destroy => setD { s with gotDestroy := true, active := false } i (.submit e)
  | .other n => setD { s with made := n :: s.made } i (.submit e)

/-- Events. -/
inductive Ev where
  /-- a step of a dispatcher: what it receives, if it receives; the status, if it does something else -/
  | disp (i : Nat) (a : Recv) (e : Nat)
  /-- a dispatcher fails before it receives (lib/fuseq.c:3762-3766 `fqd_prep_request`, 3509-3526
  `fqd_check_pipe_pre`) -/
  | prep (i : Nat) (e : Nat)
  /-- a round of a worker, with its status -/
  | work (i : Nat) (e : Nat)
  /-- a step of the main thread; whether what it calls succeeds -/
  | main (ok : Bool)
  /-- a signal which asks the daemon to stop -/
  | sig
  deriving DecidableEq

/-- All dispatchers which were created are out of their loops: lib/fuseq.c:4914-4929
`fuseq_join_dispatchers` -/
def S.allD (s : S) : Bool := (List.range s.drun).all (fun i => (s.disp i).over)

/-- lib/fuseq.c:4859-4874 `fuseq_join_workers` -/
def S.allW (s : S) : Bool := (List.range s.wrun).all (fun i => s.work i == .ended)

/-- A step of the main thread.  Creation of threads: lib/fuseq.c:4841-4857 `fuseq_start_workers`, 4896-4912
`fuseq_start_dispatchers`; joining: 4931-4949 `fuseq_finish_dispatchers`, 4876-4894
`fuseq_finish_workers`; then lib/execlib.c:1669-1687 `do_close_fs` as cmd/mount.c:613-656
`cmd_mount_exec_phase2` calls it. -/
def mainStep (s : S) (ok : Bool) : S :=
  match s.main with
  | .startW k =>
    if k < s.nw then
      if ok then { setW s k .run with main := .startW (k + 1), wrun := k + 1 }
      else { s with active := false, main := .joinD 30 true }
    else { s with main := .startD 0 }
  | .startD k =>
    if k < s.nd then
      if ok then { setD s k .loop with main := .startD (k + 1), drun := k + 1 }
      else { s with active := false, main := .joinD 30 true }
    else { s with main := .wait }
  | .wait => if s.execMode then s else { s with active := false, main := .joinD 30 false }
  | .joinD n f =>
    if n ≤ 1 then { s with main := .panic }
    else if s.allD then { s with main := .joinW 30 f }
    else { s with main := .joinD (n - 1) f }
  | .joinW n f =>
    if n ≤ 1 then { s with main := .panic }
    else if s.allW then (if f then { s with main := .died } else { s with main := .close0 })
    else { s with main := .joinW (n - 1) f }
  | .close0 => { s with main := .flush }
  | .flush => if ok then { s with saved := s.made, main := .fsync } else { s with main := .died }
  | .fsync => if ok then { s with main := .shut } else { s with main := .died }
  | .shut => if ok then { s with main := .done } else { s with main := .died }
  | m => { s with main := m }

/-- cmd/signals.c:36-47 `sigaction_halt_handler`, cmd/mount.c:274-283 `cmd_mount_halt_by_signal`,
lib/execlib.c:910-917 `silofs_halt_fs`.  The handler runs on the main thread, since the others block signals
(lib/fuseq.c:3069-3080 `fqt_block_thread_signals`), and takes the lock of the file-system; the main thread
holds it while it closes the file-system, and the lock is not recursive (lib/infra/thread.c:34). -/
def halt (s : S) : S :=
  match s.main with
  | .flush => { s with main := .stuck }
  | .fsync => { s with main := .stuck }
  | .shut => { s with main := .stuck }
  | .done => s
  | .died => s
  | .panic => s
  | .stuck => s
  | _ => { s with active := false }

/-- A dispatcher at the head of its loop: lib/fuseq.c:4196-4207 `fqd_exec_loop`, 4174-4194
`fqd_exec_once`. -/
def take (s : S) (i : Nat) : S :=
  if s.execMode then
    if s.allowed i ∧ s.lock = none then setD { s with lock := some i } i .chan else s
  else setD s i (.ended 0)

/-- A step of a dispatcher. -/
def dispStep (s : S) (i : Nat) (a : Recv) (e : Nat) : S :=
  match s.disp i with
  | .loop => take s i
  | .chan => recv s i a e
  | .exec r => finish s i r e
  | .submit c => post s i (if c ≠ 0 then (if c = 2 then 10010 else c) else (if e = 2 then 10010 else e))
  | .none => s
  | .ended _ => s

/-- One event. -/
def step (s : S) : Ev → S
  | .disp i a e => dispStep s i a e
  | .prep i e => if s.disp i = .loop ∧ s.execMode = true ∧ s.allowed i = true then post s i e else s
  | .work i e => if s.work i = .run then (if s.execMode = true ∧ e = 0 then s else setW s i .ended) else s
  | .main ok => mainStep s ok
  | .sig => halt s

/-- A run. -/
def run (s : S) (es : List Ev) : S := es.foldl step s

end Silofs.Srv
