import Verif.Model.Idsmap
/-
The operations of the file-system as programs (lib/opers.c).

Every request -- from the kernel or from a command -- enters through one function `silofs_fs_*`.  Each
of them is a straight line of calls, left at the first failing one: take the lock, authorize the
caller, map their identity, bring the inodes to memory, check names, make room by writing back dirty
data, carry out the operation itself, and collect the attributes for the reply.  Here a request is a
list of `Step`s and `exec` is its interpreter.

What the called functions answer is an adversary's choice (`Env`), except for the decisions which are
made here: authorization, mapping of identities, and the gate for changes at `silofs_stage_inode`.
Bringing an object to memory, writing back and carrying out an operation may all evict objects
which nobody refers to (C55); which ones is the adversary's choice too.
-/
namespace Silofs.Opers

/-- Error codes as the library passes them between its functions (positive here):
`SILOFS_EPERM`, `SILOFS_ENOENT`, `SILOFS_EROFS`. -/
def EPERM : Nat := 1001
def ENOENT : Nat := 1002
def EROFS : Nat := 1030

/-- The local variables of an operation which hold pointers to inodes in memory: first staged inode,
second staged inode, the inode which the operation itself returns (`ii`, `dir_ii`, ...). -/
inductive H where
  | a | b | n
  deriving DecidableEq

/-- How an inode is brought to memory (lib/opers.c 266-329). `opt` and `openable` carry the flag of the
request. -/
inductive Mode where
  | cached
  | cur
  | cow
  | opt (flag : Bool)
  | openable (wr : Bool)
  deriving DecidableEq

/-- The calls of which the operations are made. `act` is the operation itself, `silofs_do_*`: with the
inodes it is given (for `getattr` and `statx` the collection of attributes is the operation), and whether
its own checks include the one for a writable file-system while the
staging before it does not. -/
inductive Step where
  | authorize
  | mapCreds
  | mapIds
  | stage (h : H) (m : Mode)
  | stage2
  | name (h : H)
  | symval
  | flush (h : H)
  | flush2
  | act (uses : List H) (gated : Bool)
  | getattr (h : H)
  | rmap
  deriving DecidableEq

/-- The operations (lib/opers.c 331-1676), with those arguments on which their program depends. -/
inductive Oper where
  | forget | statfs | lookup | getattr | access | mkdir | rmdir | symlink | readlink | unlink | link
  | opendir | releasedir (sync : Bool) | readdir | readdirplus | fsyncdir (datasync : Bool)
  | chmod | chown | utimens | truncate | create | open_ (wr : Bool) | mknod
  | release (flush : Bool) | flush | fsync (datasync : Bool) | rename
  | read | readIter | write | writeIter | fallocate | lseek | copyFileRange
  | setxattr | getxattr | listxattr | removexattr | statx | fiemap | syncfs
  | query | clone | tune | maintain | inspect | unrefs
  deriving DecidableEq

/-- What follows authorization and mapping of the caller: an inode to be read, and the operation. -/
def onCur : List Step := [.authorize, .mapCreds, .stage .a .cur, .act [.a] false]

/-- An inode to be changed, room for the change, and the operation. -/
def onMut : List Step := [.authorize, .mapCreds, .stage .a .cow, .flush .a, .act [.a] false]

/-- A directory and a name in it, to be changed. -/
def onName : List Step :=
  [.authorize, .mapCreds, .stage .a .cow, .name .a, .flush .a, .act [.a] false]

/-- Attributes of an inode for the reply. -/
def reply (h : H) : List Step := [.getattr h, .rmap]

/-- The body of each operation, between `op_start` and `op_finish` (lib/opers.c, lines beside each). -/
def prog : Oper → List Step
  | .forget => [.authorize, .mapCreds, .stage .a .cached, .act [.a] false]              -- 331-354
  | .statfs => onCur                                                                    -- 356-378
  | .lookup => [.authorize, .mapCreds, .stage .a .cur, .name .a, .act [.a] false] ++ reply .n -- 380-413
  | .getattr => [.authorize, .mapCreds, .stage .a .cur, .act [.a] false, .rmap]           -- 415-440
  | .access => onCur                                                                    -- 442-463
  | .mkdir => onName ++ reply .n                                                        -- 465-501
  | .rmdir => onName                                                                    -- 503-531
  | .symlink =>                                                                         -- 533-573
    [.authorize, .mapCreds, .stage .a .cow, .name .a, .symval, .flush .a, .act [.a] false] ++ reply .n
  | .readlink => onCur                                                                  -- 575-597
  | .unlink => onName                                                                   -- 599-627
  | .link =>                                                                            -- 629-668
    [.authorize, .mapCreds, .stage .a .cow, .stage .b .cow, .name .a, .flush .a, .act [.a, .b] false]
      ++ reply .b
  | .opendir => onCur                                                                   -- 670-691
  | .releasedir s => [.authorize, .mapCreds, .stage .a (.opt s), .act [.a] false]       -- 693-715
  | .readdir => onCur                                                                   -- 717-739
  | .readdirplus => onCur                                                               -- 768-796
  | .fsyncdir d => [.authorize, .mapCreds, .stage .a (.opt d), .act [.a] false]         -- 798-819
  | .chmod => onMut ++ reply .a                                                         -- 821-854
  | .chown =>                                                                           -- 856-892
    [.authorize, .mapCreds, .mapIds, .stage .a .cow, .flush .a, .act [.a] false] ++ reply .a
  | .utimens => [.authorize, .mapCreds, .stage .a .cow, .act [.a] false] ++ reply .a    -- 894-924
  | .truncate => onMut ++ reply .a                                                      -- 926-957
  | .create => onName ++ reply .n                                                       -- 959-997
  | .open_ w => [.authorize, .mapCreds, .stage .a (.openable w), .act [.a] false]       -- 999-1020
  | .mknod => onName ++ reply .n                                                        -- 1022-1058
  | .release f => [.authorize, .mapCreds, .stage .a (.opt f), .act [.a] false]          -- 1060-1085
  | .flush => onCur                                                                     -- 1087-1108
  | .fsync d => [.authorize, .mapCreds, .stage .a (.opt d), .act [.a] false]            -- 1110-1131
  | .rename =>                                                                          -- 1133-1167
    [.authorize, .mapCreds, .stage2, .name .a, .name .b, .flush2, .act [.a, .b] false]
  | .read => onCur                                                                      -- 1169-1191
  | .readIter => onCur                                                                  -- 1193-1215
  | .write => onMut                                                                     -- 1217-1242
  | .writeIter => onMut                                                                 -- 1244-1269
  | .fallocate => onMut                                                                 -- 1271-1296
  | .lseek => onCur                                                                     -- 1298-1320
  | .copyFileRange => [.authorize, .mapCreds, .stage2, .flush2, .act [.a, .b] false]    -- 1322-1350
  | .setxattr =>                                                                        -- 1352-1383
    [.authorize, .mapCreds, .stage .a .cow, .flush .a, .name .a, .act [.a] false]
  | .getxattr => [.authorize, .mapCreds, .stage .a .cur, .name .a, .act [.a] false]     -- 1385-1411
  | .listxattr => onCur                                                                 -- 1413-1435
  | .removexattr => onName                                                              -- 1437-1466
  | .statx => [.authorize, .mapCreds, .stage .a .cur, .act [.a] false, .rmap]             -- 1468-1493
  | .fiemap => onCur                                                                    -- 1495-1516
  | .syncfs => [.authorize, .mapCreds, .stage .a .cow, .act [.a] false]                 -- 1518-1539
  | .query => onCur                                                                     -- 1541-1564
  | .clone => [.authorize, .mapCreds, .stage .a .cur, .act [.a] true]                   -- 1566-1588
  | .tune => [.authorize, .mapCreds, .stage .a .cow, .act [.a] false]                   -- 1590-1612
  | .maintain => [.act [] false]                                                        -- 1626-1637
  | .inspect => [.authorize, .mapCreds, .act [] false]                                  -- 1639-1657
  | .unrefs => [.authorize, .mapCreds, .act [] false]                                   -- 1659-1676

/-- Everything that is decided elsewhere. Error fields: 0 is success.
`uid`, `gid`: the new owner of a `chown`. `ro`: the mount is read-only; `fossil`: the superblock is
that of a snapshot's frozen side. `inoNull h`: the request names the null inode. `fetch h cow`: the
answer of the stores and checks behind `silofs_stage_inode`. `dirty h`: `silofs_ii_isdirty`.
`evict k h`: at the `k`-th step the object behind `h` is evicted if nothing protects it.
`loose`: the operation left inodes on the task's loose-queue; `purge`: the answer of
`silofs_flush_dirty_now`; `purgeSent`: that flush came as far as emptying the queue. -/
structure Env where
  mnt : Ids.Mnt
  req : Ids.Req
  uid : Option Nat
  gid : Option Nat
  ro : Bool
  fossil : Bool
  inoNull : H → Bool
  fetch : H → Bool → Nat
  dirty : H → Bool
  evict : Nat → H → Bool
  nameErr : H → Nat
  symErr : Nat
  flushErr : H → Nat
  actErr : Nat
  attrErr : Nat
  rmapErr : Nat
  loose : Bool
  purge : Nat
  purgeSent : Bool

/-- State of a request under way. `live h`: the pointer in `h` is to an object in memory; `refs h`:
references held on it by the request; `bad`: a pointer was used which is not `live`; `started`: the
operation itself was begun; `acted`: and completed; `k`: steps done; `trace`: them and their answers,
last first. -/
structure M where
  live : H → Bool
  refs : H → Nat
  bad : Bool
  started : Bool
  acted : Bool
  k : Nat
  trace : List (Step × Nat)

def M.init : M := ⟨fun _ => false, fun _ => 0, false, false, false, 0, []⟩

/-- Use of pointers. -/
def M.use (m : M) (hs : List H) : M := { m with bad := m.bad || !(hs.all m.live) }

/-- `ii_incref` -/
def M.incref (m : M) (hs : List H) : M := { m with refs := fun x => if x ∈ hs then m.refs x + 1 else m.refs x }

/-- `ii_decref` -/
def M.decref (m : M) (hs : List H) : M := { m with refs := fun x => if x ∈ hs then m.refs x - 1 else m.refs x }

/-- Objects without references may be evicted: `vstgc_try_evict_some` while staging,
`flusher_relax_cache_now` while flushing (C55). -/
def M.evict (m : M) (env : Env) : M :=
  { m with live := fun x => m.live x && (decide (0 < m.refs x) || !(env.evict m.k x)) }

/-- A pointer is set. -/
def M.setLive (m : M) (h : H) (v : Bool) : M := { m with live := fun x => if x = h then v else m.live x }

/-- super.c 686-698 `silof_sbi_check_mut_fs` and vstage.c 2594-2604 `check_stage_inode`, then the rest of
`silofs_stage_inode`. -/
def stageErr (env : Env) (h : H) (cow : Bool) : Nat :=
  if env.inoNull h then ENOENT
  else if cow && (env.ro || env.fossil) then EROFS
  else env.fetch h cow

/-- `op_stage_cur_inode`, `op_stage_mut_inode` (lib/opers.c 272-282): the object asked for is in memory
afterwards, others may have gone. -/
def stage1 (env : Env) (h : H) (cow : Bool) (m : M) : M × Nat :=
  ((m.evict env).setLive h (stageErr env h cow == 0), stageErr env h cow)

/-- `op_stage_opt_inode` (lib/opers.c 299-313) -/
def stageOpt (env : Env) (h : H) (flag : Bool) (m : M) : M × Nat :=
  if flag then stage1 env h true m
  else if stageErr env h false = 0 && env.dirty h then stage1 env h true (stage1 env h false m).1
  else stage1 env h false m

/-- `op_stage_mut_inode2` (lib/opers.c 284-297) -/
def stage2 (env : Env) (m : M) : M × Nat :=
  if stageErr env .a true ≠ 0 then stage1 env .a true m
  else
    ((stage1 env .b true ((stage1 env .a true m).1.incref [.a])).1.decref [.a], stageErr env .b true)

/-- What a step leaves: go on, or leave the program with this status (`ok_or_goto_out`,
`ok_or_goto_out_ok`, lib/opers.c 27-37). -/
inductive Out where
  | go
  | stop (err : Nat)
  deriving DecidableEq

def out (e : Nat) : Out := if e = 0 then .go else .stop e

/-- One step: state, the answer of the called function, and how the program goes on.
`silofs_fetch_cached_inode` failing ends `silofs_fs_forget` with success. The operations themselves hold
references on the inodes they are given (namei.c, file.c, xattr.c, symlink.c, dir.c: `ii_incref` first),
so does `silofs_do_getattr`, and the write-back on its inode (flush.c `flusher_flush_dirty`). -/
def one (env : Env) (s : Step) (m : M) : M × Nat × Out :=
  match s with
  | .authorize =>
    if Ids.authorize env.mnt env.req then (m, 0, .go) else (m, EPERM, .stop EPERM)
  | .mapCreds =>
    if (Ids.mapCreds env.mnt env.req).isSome then (m, 0, .go) else (m, EPERM, .stop EPERM)
  | .mapIds =>
    if (env.mnt.ids.both env.uid env.gid).isSome then (m, 0, .go) else (m, EPERM, .stop EPERM)
  | .stage h .cached =>
    (m.setLive h (env.fetch h false == 0), env.fetch h false,
      if env.fetch h false = 0 then .go else .stop 0)
  | .stage h .cur => ((stage1 env h false m).1, (stage1 env h false m).2, out (stage1 env h false m).2)
  | .stage h .cow => ((stage1 env h true m).1, (stage1 env h true m).2, out (stage1 env h true m).2)
  | .stage h (.opt f) => ((stageOpt env h f m).1, (stageOpt env h f m).2, out (stageOpt env h f m).2)
  | .stage h (.openable w) => ((stage1 env h w m).1, (stage1 env h w m).2, out (stage1 env h w m).2)
  | .stage2 => ((stage2 env m).1, (stage2 env m).2, out (stage2 env m).2)
  | .name h => (m.use [h], env.nameErr h, out (env.nameErr h))
  | .symval => (m, env.symErr, out env.symErr)
  | .flush h =>
    (((((m.use [h]).incref [h]).evict env).decref [h]), env.flushErr h, out (env.flushErr h))
  | .flush2 =>
    (((((m.use [.a, .b]).incref [.a, .b]).evict env).decref [.a, .b]),
      if env.flushErr .a = 0 then env.flushErr .b else env.flushErr .a,
      out (if env.flushErr .a = 0 then env.flushErr .b else env.flushErr .a))
  | .act uses gated =>
    if gated && (env.ro || env.fossil) then (m.use uses, EROFS, .stop EROFS)
    else
      ((({ (((m.use uses).incref uses).evict env) with
            started := true, acted := decide (env.actErr = 0) }).decref uses).setLive .n (env.actErr == 0),
        env.actErr, out env.actErr)
  | .getattr h =>
    (((((m.use [h]).incref [h]).evict env).decref [h]), env.attrErr, out env.attrErr)
  | .rmap => (m, env.rmapErr, out env.rmapErr)

/-- The step is counted and recorded. -/
def M.note (m : M) (s : Step) (e : Nat) : M := { m with k := m.k + 1, trace := (s, e) :: m.trace }

/-- The program, left at the first failing step. -/
def exec (env : Env) : List Step → M → M × Nat
  | [], m => (m, 0)
  | s :: r, m =>
    match (one env s m).2.2 with
    | .go => exec env r ((one env s m).1.note s (one env s m).2.1)
    | .stop e => ((one env s m).1.note s (one env s m).2.1, e)

/-- What is seen from outside while a request runs: the lock of the file-system, and the steps. -/
inductive Ev where
  | lock
  | unlock
  | ran (s : Step) (err : Nat)
  | purged (err : Nat)
  deriving DecidableEq

/-- The task of a request (lib/task.c 447-464): whether it already has the lock, and whether it is an
inner operation of one that has. -/
structure Task where
  fsLocked : Bool
  uber : Bool
  deriving DecidableEq

/-- lib/task.c 535-541 `silofs_task_lock_fs` -/
def lockEv (t : Task) : List Ev := if !t.fsLocked && !t.uber then [.lock] else []

/-- lib/task.c 543-549 `silofs_task_unlock_fs`, after `silofs_task_lock_fs` -/
def unlockEv (t : Task) : List Ev := if !t.uber then [.unlock] else []

/-- lib/opers.c 86-103 `op_unlooseq`: its answer. Only the operation itself can have filled the queue. -/
def purgeErr (env : Env) (m : M) : Nat := if m.started && env.loose then env.purge else 0

/-- Answer of a request to its caller, state and events. `leaked`: the loose-queue is not empty at the
end (`silofs_assert_null` in `op_unlooseq`, an abort in debug builds). -/
structure Res where
  err : Nat
  m : M
  evs : List Ev
  leaked : Bool

/-- lib/opers.c 41-49 `op_start`, the program, 105-113 `op_finish`. -/
def run (t : Task) (env : Env) (op : Oper) : Res where
  err :=
    if (exec env (prog op) M.init).2 ≠ 0 then (exec env (prog op) M.init).2
    else purgeErr env (exec env (prog op) M.init).1
  m := (exec env (prog op) M.init).1
  evs :=
    lockEv t ++ ((exec env (prog op) M.init).1.trace.reverse.map fun p => Ev.ran p.1 p.2)
      ++ (if (exec env (prog op) M.init).1.started && env.loose
          then [.purged (purgeErr env (exec env (prog op) M.init).1)] else [])
      ++ unlockEv t
  leaked := (exec env (prog op) M.init).1.started && env.loose && decide (env.purge ≠ 0) && !env.purgeSent

end Silofs.Opers
