import Verif.Model.Mntsvc
/-
The mount daemon as a server of many clients: lib/mntsvc.c (its loop, connections, messages with
descriptors), lib/infra/socket.c, mntd/mountd.c (signals).  What one request does is Verif.Model.Mntsvc.

One connection is served at a time.  The accepted socket blocks; it is not counted among the descriptors
kept here.  A turn is one run of `silofs_mse_exec_one`; its sleeps and time-outs only pass time.  The kernel
hands over no more descriptors than the buffer for control messages has room for, which is two: the size of
`struct silofs_cmsg_buf` (lib/mntsvc.c:55-58) is that of one with padding, and the padding is as large as one more.
-/
namespace Silofs.Md

open Silofs.Mnt (Ver Svc Env World Resp Sys)

/-- What is fixed while the daemon runs; `max`: how many descriptors it may have besides those it always
has. -/
structure Cfg where
  v : Ver
  page : Nat
  rules : Option (List Mnt.Rule)
  e : Env
  w : Nat → World
  max : Nat

/-- A client: its ids by the kernel, the bytes it has sent, whether it has ended its side after them, how
many descriptors it sent along, whether closing such a one fails, and whether it is gone before the answer. -/
structure Conn where
  id : Nat
  uid : Nat
  gid : Nat
  bytes : List Nat
  ends : Bool
  nfds : Nat
  badClose : Bool
  gone : Bool
  deriving Repr, DecidableEq

/-- What came of connections: a system call made for one, an answer, an answer which did not arrive,
a connection closed without answer. -/
inductive Ev
  | did (id : Nat) (x : Nat × Sys)
  | answered (id : Nat) (r : Resp)
  | lost (id : Nat) (r : Resp)
  | dropped (id : Nat)
  deriving Repr, DecidableEq

/-- The daemon: waiting connections, the one it waits for (with how often recvmsg is still tried),
descriptors in use, whether it lives and whether its loop goes on. -/
structure Srv where
  queue : List Conn
  busy : Option (Conn × Nat)
  fds : Nat
  up : Bool
  active : Bool
  t : Nat
  log : List Ev

/-- Whether recvmsg with MSG_WAITALL goes on waiting: the message is not complete, its sender has not ended,
and there are no descriptors, which end a message. -/
def waits (c : Conn) : Bool :=
  decide ((c.bytes.take 2048).length < 2048) && !c.ends && decide (c.nfds = 0)

/-- How many descriptors the kernel puts into the daemon: room in the buffer, and in the table beside the
accepted socket. -/
def handed (g : Cfg) (f : Nat) (c : Conn) : Nat := min (min c.nfds 2) (g.max - (f + 1))

/-- The ids of the caller are those of the kernel, lib/infra/socket.c:538-556 `silofs_socket_getpeercred`. -/
def svcOf (g : Cfg) (c : Conn) : Svc := ⟨c.uid, c.gid, g.page, g.rules⟩

/-- Opening /dev/fuse takes one more descriptor; 24 is EMFILE. -/
def envOf (g : Cfg) (f : Nat) : Env := { g.e with dev := if f + 2 ≤ g.max then g.e.dev else .error 24 }

/-- What the log gets for an answer: lib/mntsvc.c:1057-1072 `mntsvc_send_response`, whose error is not looked
at. -/
def reply (c : Conn) (r : Resp) : Ev := if c.gone then .lost c.id r else .answered c.id r

/-- lib/mntsvc.c:1074-1088 `mntsvc_serve_request` once recvmsg has returned, then 1251-1254 `mntsrv_fini_conn`:
621-640 `do_recvmsg` refuses a short message, before anybody looks at descriptors; 642-655 `do_unpack_fd` with
lib/infra/socket.c:275-288 `silofs_cmsg_unpack_fd` fails unless there is just one, which 690-699
`mntmsg_recv2` closes; 235-246 `close_fd` panics if that fails. -/
def finish (g : Cfg) (s : Srv) (c : Conn) : Srv :=
  if (c.bytes.take 2048).length < 56 then
    { s with fds := s.fds + handed g s.fds c, t := s.t + 1, log := s.log ++ [.dropped c.id] }
  else if 2 ≤ handed g s.fds c then
    { s with fds := s.fds + handed g s.fds c, t := s.t + 1, log := s.log ++ [.dropped c.id] }
  else if handed g s.fds c = 1 ∧ c.badClose = true then
    { s with up := false }
  else
    match Mnt.serve g.v (svcOf g c) (envOf g s.fds) g.w s.t c.bytes with
    | (x, none) => { s with t := s.t + 1, log := s.log ++ (x.toList.map (Ev.did c.id)) ++ [.dropped c.id] }
    | (x, some r) => { s with t := s.t + 1, log := s.log ++ (x.toList.map (Ev.did c.id)) ++ [reply c r] }

/-- lib/mntsvc.c:1350-1372 `silofs_mse_exec_one` within the loop of 1374-1393 `silofs_mse_exec`: nobody waiting
is a time-out; 750-767 `mntsvc_accept_from` fails without a descriptor, and the connection goes on waiting;
1256-1267 `mntsrv_serve_conn`. -/
def turn (g : Cfg) (s : Srv) : Srv :=
  if s.up = false ∨ s.active = false then s
  else match s.busy with
    | some _ => s
    | none =>
      match s.queue with
      | [] => s
      | c :: q =>
        if g.max < s.fds + 1 then s
        else if waits c then { s with queue := q, busy := some (c, 8) }
        else finish g { s with queue := q } c

/-- The client it waits for sends more, or ends. -/
def more (g : Cfg) (s : Srv) (b : List Nat) (e : Bool) : Srv :=
  if s.up = false then s
  else match s.busy with
    | none => s
    | some (c, n) =>
      if waits { c with bytes := c.bytes ++ b, ends := c.ends || e } then
        { s with busy := some ({ c with bytes := c.bytes ++ b, ends := c.ends || e }, n) }
      else finish g { s with busy := none } { c with bytes := c.bytes ++ b, ends := c.ends || e }

/-- A signal to stop, mntd/mountd.c:258-266 `mountd_sigaction_halt_handler`, 245-251 `mountd_halt_by_signal`;
lib/mntsvc.c:1416-1421 `silofs_mse_halt`.  It interrupts recvmsg, which then gives the bytes it has, or is
tried again, eight times in all (621-640 `do_recvmsg`). -/
def halt (g : Cfg) (s : Srv) : Srv :=
  if s.up = false then s
  else match s.busy with
    | none => { s with active := false }
    | some (c, n) =>
      if c.bytes ≠ [] then finish g { s with active := false, busy := none } c
      else if n ≤ 1 then
        { s with active := false, busy := none, t := s.t + 1, log := s.log ++ [.dropped c.id] }
      else { s with active := false, busy := some (c, n - 1) }

/-- What may happen. -/
inductive Happen
  | arrive (c : Conn)
  | turn
  | more (b : List Nat) (e : Bool)
  | halt

def step (g : Cfg) (s : Srv) : Happen → Srv
  | .arrive c => { s with queue := s.queue ++ [c] }
  | .turn => turn g s
  | .more b e => more g s b e
  | .halt => halt g s

def run (g : Cfg) : List Happen → Srv → Srv
  | [], s => s
  | h :: l, s => run g l (step g s h)

/-- mntd/mountd.c:165-177 `mountd_setup_env`: a daemon which just started. -/
def start : Srv := ⟨[], none, 0, true, true, 0, []⟩

end Silofs.Md
