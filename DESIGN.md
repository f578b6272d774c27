# Design of the Lean 4 model of silofs

Source: `/repo` (synarete/silofs, C).  The model lives in `lean/Verif/`.
The code is not run; the tie between code and model is reading.  Every
definition carries a comment `-- lib/x.c:a-b` naming the lines it models and
the simplifications made.

## Trusted base

* Lean 4.33.0 kernel (and the `lake` build that feeds it).
* Axioms: at most `propext`, `Classical.choice`, `Quot.sound` (checked with
  `#print axioms`; see section "Axioms" below).  No own axioms, no `sorry`,
  no `native_decide`, no `bv_decide`.
* The faithfulness of the definitions to the cited C code (by reading).
* What is assumed of things outside the model: hash functions (xxh32, sha,
  name hash) and ciphers are parameters (uninterpreted functions with the laws
  stated in the theorem); memory allocation and space allocation failures are
  nondeterministic inputs ("oracles") so theorems hold for every outcome; the
  OS (pread/pwrite on repository files) is a byte store.
* The file-system core is executed under one lock per file-system
  (`fs_lock` taken by every op in `lib/opers.c`), hence operations are modelled
  as atomic steps of a sequential state machine.

## Style

* Small total functions over `Nat`/`Int`/`List`/`BitVec`; C functions that
  mutate through pointers return the new value.
* C undefined behaviour, assertion failure and out-of-bounds accesses are
  distinct outcomes (`Res.ub`) rather than being assumed away.
* Properties are stated against a small separate specification (`Spec`
  sections: byte array, finite map, POSIX access rule, set of live ranges, ...).
* Where the code violates the property: the negation is proved with a concrete
  witness (theorem name ends in `_violated`) and the largest true part is
  proved as `_partial`.

## Layers and modules

| Layer | Module | Source | Properties |
|---|---|---|---|
| codecs | `Verif.Base64`, `Verif.Addr*`, `Verif.Meta`, `Verif.EncDec` | infra/base64.c, addr/*.c, encdec.c, crypt/ivkey.c | C26-C30 |
| space | `Verif.Space*` | spmaps.c, claim.c, spxmap.c, stats.c | C19-C23 |
| snapshots | `Verif.Snap*` | vstage.c, super.c, lcache.c | C24, C25 |
| directories | `Verif.Dir*` | dir.c | C08-C12 |
| namespace | `Verif.Namei*`, `Verif.Access` | namei.c, inode.c | C13-C18, C33 |
| file data | `Verif.File*` | file.c | C01-C07 |
| xattr/symlink/ids | `Verif.Xattr*`, `Verif.Symlink`, `Verif.Idsmap` | xattr.c, symlink.c, idsmap.c | C31, C32, C34 |

## Plan per property

* **C01** file = heads + radix-tree slots to blocks with `unwritten` flag and
  refcount; abstraction `read : off -> byte`; each operation proved to commute
  with the byte-array spec; histories by induction.
* **C02** same model with arbitrary (stale) content for fresh blocks; the
  refinement of C01 for arbitrary initial block content is the statement.
  Copy/unshare of unwritten blocks violates it: witness + partial.
* **C03** multi-file heap model; frame theorem per op.  The range copy violates
  it (write into a shared block): witness + partial.
* **C04** copy model; violated for holes and short sources: witness + partial.
* **C05** seek model over sparse maps; SEEK_DATA proved, SEEK_HOLE violated:
  witness + partial.
* **C06** arithmetic of slots/heights over all offsets, radix-tree get/set laws.
* **C07** range-check decision functions over `Int` with 64-bit bounds.
  `Props/FileAccess`: which file and handle a request is let through on, as an iff, and the errors otherwise.
* **C08** hash tree of nodes refining a finite map, arbitrary hash, allocation
  oracle.  **C09** readdir over the tree: violated for depth-4 nodes, partial
  for depth <= 3.  **C10** order of slots vs removal/insertion.
  **C11** byte-level node.  **C12** index arithmetic.
* **C13-C16, C18** state machine for namei.c (`Verif.Model.Namei`) with error
  injection.  `Props/NameiEff` reduces the 13 operations to 16 effects;
  `NameiInv`/`NameiStep`/`NameiBody` prove the invariant `Good` is kept;
  `NameiLinks` (C13, C17, C18), `NameiLife` (C14), `NameiFail` (C15, C16),
  `NameiTree` (C15: no loops), `NameiWit` (witnesses, examples).  Assumptions
  named in the theorems: `Vfs`, `NoLoop` (checks the kernel makes before it
  calls), `TearFree`/`Quiet` (which internal failures are excluded).
* **C17** decision table against POSIX spec.
* **C19-C22** bitmap allocator with ghost set of live ranges; invariants by
  induction over operation histories.
* **C23** free-range cache as set of ranges; popped ranges disjoint; OOM path of
  insert frees a linked node (UB): witness + partial.
* **C24/C25** block-level copy-on-write model with cache; immutability by
  invariant; C25 violated for uncached 64K blocks: witness + partial.
* **C26** header seal/verify with uninterpreted checksum; flag bypass: witness.
* **C27-C30** round-trip/partition laws over all values.
* **C31** xattr nodes with dirty bits and eviction; lost dirty: witness + partial.
* **C32** symlink split/concat; error swallowed: witness + partial.
* **C33** decision logic; **C34** table lookups.
* **C35** `Props/NameiChecks`: what a successful call implies about its arguments and the state before.
* **C35, C36** `Props/NameiLimits`: limits on names, links and open files, and
  the attributes of new objects, over the namespace state machine.

### File data (C01-C07)

`Model/FileMap` holds the offset arithmetic and the request checks,
`Model/File` the data path of file.c as programs of a state/error monad whose
failing calls and allocator choices come from an arbitrary answer list.
`Props/FileBase` gives weakest preconditions for that monad and the invariant
`Ok` (tree shape, ownership of blocks, shared implies written).  The content of a
file is `byteAt`, defined from the leaf table; the relation `Rel f a b g` says
that exactly the bytes `[a,b)` of file `f` changed, to `g`.

`Model/FileOps` gives the requests (read, write, truncate, fallocate, delete and
re-create) with their checks; `Spec/FileBytes` is the specification, a file as a
size and a byte function, independent of leaves and blocks.  `Props/FileOps`
proves each request a step of that specification (C01), by the invariant `Inv`
(`Ok`, zero bytes behind the end, size bounds), and C02 by induction over
histories.  Assumption `late = false`: a space-map access that has just
succeeded does not fail when repeated (the case where it does is
`C02_late_violated`).  A write without data is excluded
(`C01_empty_write_violated`: it extends the file).

`Model/FileSeek` is lseek (C05): SEEK_DATA is proved exact with respect to mapped
leaves, SEEK_HOLE returns a hole but not always the first one.

`Model/FileCopy` is copy_file_range (C03, C04): iteration over both files, block
sharing, copying, discarding.  `Props/FileCopy` proves one step (`copyAt_wp`), the
loop by induction on the bytes left, and the request a read followed by a write,
under the condition `Plain`.  `Props/FileCopyBad` shows by evaluated histories
from a new file system that each part of `Plain` is needed.

### Snapshots (C24, C25)

`Model/Snap` is one address space of a repository: volumes (super blocks), the
five levels of space maps, blocks, and the cache of objects of the mounted
volume.  A reference is a volume id, because the rest of an address follows from
its position.  Steps are the code's own steps (copy-on-write of one path, loading,
rebinding a block, write-back of one object, eviction, fork, mount), so that a
request failing half-way is a shorter history.  `Props/SnapOld` proves C24 by
the invariant that nodes refer to their own or closed volumes.  `Spec/Snap` says
that every volume is a separate map; `Props/Snap` proves C25 as refinement over all
histories, and the cases of 64K data blocks in which it is false.  Not
modelled: the cache of space-map nodes (taken as transparent), the encryption of
blocks, concurrent mounts of one volume.

### Extended attributes (C31)

`Model/Xattr` has the byte layout of a node of entries (8-byte header, name, value,
both padded to 8 bytes), search, insertion and removal in it, and the eight nodes
of an inode, each with a stored and perhaps a cached copy and a dirty mark.
`Props/XattrNode` relates the bytes of a node to a list of entries; `Props/Xattr`
relates the eight nodes to a map and proves each request against it, for all
failures of staging nodes.  Write-back and eviction are steps of a history.  Not
modelled: permission to access an attribute, POSIX ACL names, the listing into a
buffer that is too short.

### Symbolic links (C32)

`Model/Symlink` has the split of a target into head and parts, the inode part and the
nodes of all links, so that histories of making and removing links show that links do
not disturb each other and that nodes are given back.  Allocation is any choice of a
free address, or a failure.  The property is false for failures in the middle, because
the error is dropped; a witness shows it.

### Attributes and times (C33, C40)

`Model/Inode` has chmod, chown, utimens, the update of attributes after I/O and the
sequence of steps of one setattr request.  The access time is modelled twice (as
shown, and as stored in the inode) because reading changes only the former.  Mode
bits are specified one by one with `Nat.testBit`.  The checks of the parent
directory and of write access are inputs (their rule is C17).  Not modelled: `btime`,
the revision counter, statx.

### Ids and authorization (C34, C41)

`Model/Idsmap` has the two hash tables (509 bins, newest entry first) and the start
of a request (authorization, mapping of credentials).  The specification is the
configured table as a list: its last entry for an id counts.

### Ordered index and comparison of addresses (C37, C42)

`Model/Avl` is the balanced tree of infra/avl.c: a node with its ancestors is a
subtree with a path, rotations are functions that fail on missing nodes.
`Props/AvlBase` proves that insertion and deletion keep the balance fields exact (so
that rotations never fail) and change the in-order list as they should; `Props/Avl`
relates the container to a sorted list.  The tree is what the free-range cache (C23)
and the flusher keep their sets in.  `Model/Compare` has the comparison functions;
the subtraction of enumeration values is unsigned, which makes the order of virtual
addresses of different types inconsistent (witness), while trees keep all their
elements whatever the comparison answers (`C37_insert_any`).

### Write-back (C39)

`Model/Flush` has the dirty queues, the choice of what to flush, the three sets of
dirty objects (each the tree of C37), their packing into vectored writes, the
submission queue and the requests that wait for it.  Calls that may fail take their
outcome from a list of answers.  The specification is a map from objects to contents
that only modifications change; `crash` forgets everything but the storage.  The
invariant: a clean object in the cache equals storage with the queued writes applied.
Assumed of the environment (`Env.Ok`): objects do not overlap (C19, C30) and
decryption undoes encryption (C29).  Not modelled: addresses that move during a flush
(snapshots: C25), flushes nested in a flush when memory is short, and the fsync of the
files of the repository at the end of syncfs.

### Space reported by stat (C38)

`Model/File` counts KBs where the code does (`File.setLeaf`), apart from the leaf
table, and the invariant `Counted`, kept by every step of the file model, ties the
two.  `Usage` states the property in terms of the mapped leaves.

For directories `Model/DirSize.lean` runs the operations of C08 beside the counters of the inode and the nodes in
storage, with the recursive giving back of a tree node by node, each of which may fail. The invariant: blocks are
eight KB per node in storage, whatever failed; and as long as no giving back failed, the nodes in storage are those of
the tree and each knows its number of children, from which follows that the early exit of the loop over children leaves
none behind. `C38_dir_emptied_ok` justifies the failure `drop` of C08. `Model/SymBlocks.lean` does it for symbolic links.

### Verification of loaded objects (C43)

`Model/Verify` has the `verify_*` functions for directory nodes, xattr nodes, file
tree nodes, space-map leaves and inode heads, over the byte-level nodes of C11, C31,
C06 and C19.  *Accepted*: by induction over operations on a fresh object, using the
invariants of those properties (for inodes: link counts of the name-space model and
the mode under attribute changes).  *Safe*: for arbitrary contents, `none` being an
access outside of the object.  Both are false of the code in places; the witnesses are
the `_violated` theorems, of which `C43_dir_links_violated` is a history of 32766
`mkdir`s and one `rename`.  Not modelled: checksums and object types (C26), verification of
space-map nodes, super-blocks and B-tree nodes.

### Deleting a file-system (C44)

`Model/Delfs` is the post-order traversal of delfs.c and walk.c on the store of C24:
each removal is one action, and a budget of actions stands for a stop at any point.
*Nothing else*: `Only v` relates states that differ only in volume `v`; the removals
are guarded by the volume id.  *All of it*: `Good` says that everything stored in a volume
is reached from its super-block; it is an invariant of every step of C24.  The traversal
stops at the first missing child, so reaching everything also needs that
children are present in order (`InOrder`); the code creates them in order (claim.c:251-268),
which is a hypothesis on steps here (`C44_order`).  *Again*: the traversal removes children
before parents, so a partial result still satisfies the invariant of the traversal; with
all the segments of space maps in place a second run therefore removes the rest
(`C44_again_partial`).  Staging a space map whose segment was removed makes an empty segment
and fails, so otherwise no later run gets to its end (`C44_stuck`, with a witness in
`C44_again_violated`); that one run never meets a segment which it has removed itself is part of
`C44_complete` (`trav_calm`).
`C44_space_violated` is a history ending with storage that no request can remove.

### Archives (C45)

`Model/Pack` has segments as byte functions with a size, pack files by content address, the
index as bytes (header, checksums, descriptors), the traversal of inspect.c with its lists of
coalesced ranges, and export and import of one descriptor.  Hash, checksum, re-encoding of the
boot record and the slots of a node are parameters (`Env`), so theorems hold for all of them.
*Specification*: `at'` reads along a path of slots from the super-block.  *Round trip*: the
ranges visited cover every slot address (`lmap_spec`, `at_same`); each descriptor's pack
file holds the bytes of its range (`ExInv`); the bytes of every imported range are those of the
source whatever was there (`Copied`, kept by later imports since they write source bytes).
`Case.whole` shows the hypotheses are met.  The violations are general where possible:
`C45_tampered_violated` and `C45_order_violated` hold for every file-system.
Not modelled: encryption of the boot record inside a pack (the parameter `recode`), failures
of the file-system below.

### Mount service (C46) and its configuration (C47)

`Model/Mntsvc` has the 2048-byte message, its reception (short messages are completed by the
reset message), all checks in their order, the two system calls and the response.  The world
is a function of time (`Nat → World`): each stat, realpath and statfs is made at its own time,
so that theorems about all `w` cover every race.  *Specification*: `Authorized` (what must have
been seen before a mount), `Entitled` (what a user must have), neither by the functions of the
model.  `C46_history` is by induction over connections.  Violations are concrete requests,
evaluated by the kernel.  `Model/Mntconf` has the text of the configuration as bytes, down to
strtol(3) in base 0.  *Specification*: a grammar of lines with a renderer (`Line.text`) and a
meaning (`Line.rule`) for the forward direction; for any accepted text, relations `Words`,
`Stated`, `Means`.  Not modelled: sockets and their credentials (SO_PEERCRED is trusted),
capabilities, statx details, realpath(3) and reading of the file.

### Boot records (C48)

`Model/Boot` has the 1024-byte record byte by byte, its hash, its encryption (ciphers and
digests are parameters with stated sizes; for the violations a cipher that adds a key stream,
`Stream`, which is what a counter mode is), the object and reference files of the repository, and
saving as a list of system calls which a crash cuts off anywhere, within a write too
(`CrashOf`).  *Specification*: `Rec.Valid` (field ranges), `PlainName`.  Conclusions that depend
on SHA-256 name the colliding pair.

### A snapshot as a whole (C49)

`Model/Fork` puts together the server (flush, two clones of the super-block, mark as fossil,
flush, save two boot records) and the command (save the two names); each step may fail, each
failing flush stores any subset of volumes, the command may be killed after any save.  Volume
contents are an arbitrary type.  *Specification*: `Spec` (a map of names to contents and the
mount's current and synced contents), refined by induction over the operations.  The
violations are proved of every state that meets the invariant `Good`, not of an example only.

### Lock-files of the commands (C50)

`Model/Locks` is a machine with any number of processes; one step is one system call (stat,
open, rename without replacing, unlink) of one process, or its death.  *Specification*: `Holds`
(a process is between its rename and its last unlink).  `Inv` is kept by every step of every
process (`StepOf` says all a step can do); runs are lists of (process, action), so theorems are
for all interleavings.  Atomicity of `renameat2(RENAME_NOREPLACE)` is trusted.  The lock on the
repository's own lock file (`F_OFD_SETLK`) is the kernel's and not modelled.

### The boundary to the kernel (C51)

`Model/Fuse`: receiving (read(2) or splice through a pipe, with the header looked at before the
rest is fetched), the checks, decoding by byte offsets into a `Call`, and the bytes of answers.
*Specification* (`Spec/Fuse`): requests as values (`KReq`), their bytes as sequences of fields in
the order of the kernel's header (`wire`), their meaning (`KReq.means`); answers as the kernel
parses them, by byte offsets (`kparse`, `kread`) — each side thus built the other way round than
the model.  The file-system behind is an arbitrary function from user, group and call to result.
Trusted: the layouts of include/linux/fuse_kernel.h as written down in `Spec/Fuse`, little-endian
x86-64, and that one read gives one message.

### Lists as bytes (C52)

`Model/Emit`: the iterators that lay out directory entries and names of attributes in reply
buffers, driven by what `Model/Readdir` offers and by the nodes of `Model/Xattr`.
*Specification* (`Spec/Emit`): the loops of Linux's fs/fuse/readdir.c that take entries from a
reply, and the splitting of a listxattr(2) buffer at its NULs.  Proof: filling the buffer equals
the byte-less `feed` of C09 entry by entry (`fill_feed`), parsing inverts the layout
(`kdirents_of`, `kdirplus_of`), and whole listings follow from C09 and C10 by a simulation
(`run_match`).  The attributes of inodes are an arbitrary function at every request, assumed only to
have the number and type that the directory has for them.

### Whole reads and writes (C53)

`Model/Sysio`: the loops of lib/sys/syscallx.c against an adversarial kernel: a list of answers
(interrupted, error, at most n bytes); when it is exhausted calls complete.  Uses of array elements
never set or outside of the array are the outcome `undef`.  *Specification* (`Spec/Sysio`): `Wrote`
and `Holds`, on sizes and bytes of files alone.  Proof: induction over the answers.

### The repository (C54)

`Model/Repo`: lib/repo.c as a whole: open-file cache (entries on a heap, LRU queue, hash buckets,
reference counts, file descriptors as inode numbers), naming of files, and every operation on
segments and objects, against a small model of the host's file-system (`Disk`: directory, inodes with
current and stable content) and a kernel which may fail any call (`K`).  *Specification*
(`Spec/Repo`): `Allowed`, a relation on maps from names to contents; it knows nothing of caches and
files.  Proof: an invariant of cache and disk (`Inv`) is preserved by every step and the step's effect
is allowed (`C54_step`); induction over executions; a second invariant (`Dur`) says that what is
unstored is in the cache and marked.  Trusted: distinct SHA-256 digests of the names in use
(`C54_paths_distinct`), no one else changes the directory, st_blocks = 0 means zeros.  Not modelled:
permissions and creation of directories, durability of directory entries, close(2) and allocation failures.

### The in-memory cache (C55)

`Model/Lcache`: lib/lcache.c with lib/hmdq (hash table with promotion by hits, LRU queue, queues of
unsaved objects with counters), the rules of eviction of lib/lnodes.c and lib/inode.c, relaxing under
memory pressure, dropping, and the map of unode addresses of lib/spxmap.c.  Elements live on a heap of
numbered cells; failing assertions and use of freed cells set `crash`.  *Specification*
(`Spec/Lcache`): `Mem`, two maps (current and saved content by key) and what each request does to them
and may answer; `World.Legal` is what callers must observe.  Proof: invariant `Ok` (table, queues and
elements tell the same; `Props/LcacheInv`), a relation `Maint` of everything which only evicts and
reorders (`Props/LcacheMaint`), one simulation step per request (`Props/LcacheRun`), induction over
requests.  The address map is shown to hold entries newest first in every slot (`Props/Uamap`), so that
the oldest entry removed is never the one that hides an older.  Not modelled: the cache of free ranges
(C23), bytes of an object (one number stands for the content), failing loads.

## Requests as programs (C56)

`Model/Opers` has every request function of lib/opers.c as a list of steps (`prog`) and an interpreter
which leaves the list at the first failing step (`exec`), between `op_start` and `op_finish` (`run`).
Modelled exactly: the order of steps of each request, authorization and identity mapping (through the
model of C34/C41), the gate for changes (`silof_sbi_check_mut_fs` via `check_stage_inode`, and the one
of `check_clone`), staging modes, references taken and released, the lock, the loose-queue's flush.
Left to the adversary `Env`: the error of each called function, whether an inode is dirty, which
unreferenced objects each step evicts. Assumed, by reading: each `silofs_do_*` takes references on
the inodes it is given before it stages anything. Not modelled: `silofs_fs_rdwr_post` (no lock, no
inode), duration probes, counters, the argument copies between `struct stat` and the internal one.

Proof: the programs are finite data, so each property is a check of a program (`blocked`, `free`,
`safe`, `tail`) which is proved sound by induction over arbitrary programs and then evaluated for each
request. Found false: `link` may use an evicted directory inode (`C56_link_pointer_violated`, realised in
the cache model by `C56_link_evicts_violated`); errors after the effect (`C56_failure_undone_violated`);
durability requests on read-only mounts (`C56_readonly_sync_violated`); a failed flush leaves pending
removals (`C56_pending_removals_violated`).

## Memory allocator (C57)

`Model/Qalloc` has the page pool (runs of pages with back pointers, free list with its order, splitting and
merging), the twelve slabs (free lists of 16-byte segments, growth by a page, release of an unused page), the
memory itself (links written into free elements, wiping, masking, punching) and the entry points. Simplified:
free lists are lists, so what happens after the *same* element is on a list twice is not followed (the witness
stops before); the mapping of offsets to addresses and the second mapping are one array; the standard
allocator (`silofs_calloc`) is not modelled; the lock makes each call atomic.

Proof: `PInv` (QallocPool) says that run heads tile the region, back pointers are right, free runs are maximal
and the free list has exactly the free heads; `Inv` (QallocInv) ties runs and slabs to the list of what the
client holds. `take`/`release` preserve them through the relations `Taken`/`Freed`, which describe the resulting
pool by its heads alone. Separation of bytes (`Inv.owner`), refusal (`norun`) and absence of leaks
(`C57_no_leak`) are consequences. Found false: small objects released twice, at a wrong address, or with a wrong
length are accepted, and later requests are given memory still held (`C57_*_violated`).

## Bringing space maps and objects into memory, growth (C58)

`Model/Stage` has the five levels of space maps with their segment files: `requirePath` (make what is missing),
`stagePath` (find; in mode COW copy nodes of other volumes), `readObj`/`readLeaf` (an object by its block), and
what happens between: marking, rebinding, writing, flushing, eviction, loss of memory, fork, loss of a file. Every
call to the storage may fail (`io`). Simplified: one address space; the four levels of space nodes, which are
copies of the same functions in the code, are one function with the level as argument; memory is not exhausted
(C55 has that) and nodes do not leave memory within a request (C56).

Specification (`Spec/Stage`): the content of a node wherever it is, and the way down from the super block
(`loc`), with no mention of caches. Proof: `Inv` (StageInv) says that segment files of the mounted volume exist
exactly if their parent recorded them, its nodes are referred to, references lead to nodes, blocks of leaves are in
files which exist, clean nodes are as stored, and the newest address of a range is the one on the way down. Each
function is shown to keep it and all leaves (StageMake to StagePath), with `Does` as the outcome of a function;
StageRun has the remaining steps. StageStray shows that a file nobody recorded stays in the way for ever.

`half` marks leaves whose copy failed between being made and being filled; no function looks at it, and it is only
set when the storage fails (`C58_half`).

## Cutting text (C59)

`Model/Strview` models lib/str/strview.c over an object of bytes in memory with a view (place and length);
reading outside the object is `none`. `Spec/Text` says what the first occurrence, a cut and a stripped text are.
`Props/Strview` shows that for views inside the object each function reads only inside and equals the function on
lists of bytes with which `Model/Mntconf` and `Model/Idsconf` are written; `Props/Text` states C59 by the
specification. Not modelled: the writable variant strspan.c, and formatted output.

## File of user and group mappings (C60)

`Model/Idsconf` has cmd/idsconf.c function by function (texts as lists of bytes; `none`: the command exits). The
host's databases are a parameter `Db`; getgrouplist(3) is given room for 64 groups as in the code. `Spec/Idsconf`
has lines as a data type with their text and their meaning; `C60_parse` says that reading the text yields the
meaning. Writing is shown to produce the text of such lines, from which follows what is read back. `exDb` is
the host of the counter-examples.

## Large reads and writes through the pipe (C61)

`Model/Pipe` has lib/infra/pipe.c and the functions of lib/fuseq.c that use a thread's pipe. The kernel is modelled as
a list of filled slots (a page each at most), the messages waiting in the device, and a list of errors, one for each call:
any call may fail, and a failing transfer to the device may have emptied the pipe. The device takes a reply iff
its header's length is right. Waiting forever in vmsplice(2) is an outcome of its own (`hang`). What the file-system
does is a parameter: pieces of memory in order, and a result. `Spec/Pipe` says what may come of a request;
messages of the kernel are those of `Spec/Fuse`, and receiving is shown to be what C51 is about
(`recvIn_refines`). `Inv` (the pipe holds no more than is counted) holds through all rounds.
Simplifications: a short write to the pipe of the 16-byte header does not happen; splice(2) from the device moves a
message whole or not at all; a piece is memory, never a file (as in the code).

## Large writes in two phases (C62)

`Model/FileAsync` repeats the write path of `Model/File` with an actor that only collects (`gather…`), and adds the
second phase: `copyPiece` puts data into one collected block. `Sys` is a state of the files with the vectors whose data
did not arrive yet; `Act` is what a thread does in one go (a read, a write, the first phase of a large write, the arrival
of one vector, possibly cut short). `Spec/FileAsync` is the user's view: a byte is known or not. The refinement
(`Meets`) rests on two facts: collecting changes nothing outside its range (`gatherIter_wp`), and a written block with a
single reference stays the block of its leaf through all reads and writes (`Hold`). Not modelled: the reference counts that
keep a block in memory, and truncation of a file while its data are on their way, which the kernel's inode lock
excludes; range copies are not excluded by it, hence `C62_copy_violated`.

## Names and contents together (C63)

`Model/Whole` joins `Model/Namei` and `Model/FileOps`: a state is a pair, a request on names or handles also says what it
does to contents (data dropped with the last name and handle, truncation on open, a fresh file), and whether the
data part fails decides the name part's failure. `Spec/Whole` is the user's view: names, handles, kinds and bytes, one
event per request; nothing is said of objects that no program can get at. `Props/WholeNames` derives the name part of an
event from the case analysis of C13-C16 (`body_obs`); `Props/Whole` adds the data part (`data_part`) from C01 and C04 and
composes both over histories. Not modelled: a second attempt to drop data whose dropping failed, if it fails again (the inode has neither
name nor handle), extended attributes and symbolic links' contents (C09, C10).

## The physical store (C64)

`Model/Bstore` has lib/bstore.c with its cache and queue of dirty objects, the segments of lib/repo.c as files of
`Model/Sysio`, the byte layout of checkpoints and tree nodes, and what mkfs and mount do with them; in each call the
environment picks errors of every segment, answers of the kernel to every read and write, lack of memory and evictions. A use
of a cached object that may have been evicted is a distinct outcome (`undef`). The invariant (`Inv`) says that the segment holds the
checkpoint and root mkfs wrote, that no dirty object belongs to it, and that cached copies agree. Nodes and leaves of the tree are arrays
with a count, as in lib/pnodes.c; nothing in the code fills them yet. Not modelled: the tree across nodes (not
implemented), encryption of the objects (there is none), fsync (C54).

## Reports (C65)

`Model/Report.lean` models what the file-system says about itself: the query ioctl with its 2048-byte
answer written field by field at the offsets of `include/silofs/ioctls.h`, the client functions of
`cmd/show.c` that read it, statx with its masks and the FUSE_STATX answer, statfs over the allocator state
of `Model/Space.lean`, the printing of mount flags into its 128-byte buffer, and tuning.
A serving thread keeps the memory of its answers between requests; requests which report attributes
leave a struct stat there.  `Props/Report*.lean` prove that every field read by the client equals the
state, after any history, by a generic lemma on disjoint fields; and that the first 64 bytes do not
(they are never cleared).  Not modelled: digits and layout of printed numbers, the text of uuids, which
requests beyond those with attributes leave what in the answer's memory, uptime and memory
figures (taken from the environment), permission checks (their outcome is an input; see C17), the ioctls
`clone` and `syncfs` (C49, C39), and the kernel's part of ioctl.

## Mounts (C66)

`Model/Mntinfo.lean` has the reading of /proc/self/mountinfo into its buffer, its parsing by the text views of
`Model/Strview.lean` (a read outside the buffer is a distinct outcome), `silofs lsmnt` and the first check of
`silofs rmfs`. `Spec/Mntinfo.lean` is the format of the file after proc(5): lines of fields with blanks in paths written
as octal digits. The answers of open, ioctl and stat are parameters; `Behind` says that a directory's ioctl answers are
those of a silofs by C65. Not modelled: fields with the characters vertical tab, form feed and carriage return in paths
(the kernel does not escape them), the file changing between reads, file-systems that do not answer at all.

## Passwords (C67)

`Model/Passwd.lean` has the reading of a password from a terminal, a file or a pipe, its check, the asking twice, the
option -p, the sub-options of `silofs mount -o` (with getsubopt(3)), and how it is kept and handed to the derivation of
keys. `Spec/Passwd.lean` says what a legal password is, and what a list of sub-options means. A pipe gives at each read
what was written in one go; a terminal gives one line. Reading a null pointer is a distinct outcome. Not modelled: the
setting of the terminal failing, locales other than C, a file which changes its size between fstat and read.

## Write-back by several threads (C68)

`Model/Submitq.lean` is a transition system: any number of threads, each with its task (the entries its flush has made,
the greatest id it has queued), the lock of the file-system, the queue with its mutex, the counts of references, and
storage. Every point where another thread may come between is a step of its own: taking the mutex, linking an entry,
releasing it, taking an entry off, the write, the release, the freeing of the entry. What a flush puts into an entry is
any list of objects and bytes (C39 says what it is). `Spec/Submitq.lean` says what a list of writes leaves of an object.
Invariants: `Props/SubmitqInv.lean` (locks), `SubmitqOrd.lean` (order, attempts, what each thread has waited for),
`SubmitqRefs.lean` (references). A failing write writes nothing. Not modelled: a failing write which has written a part
(C57 has the repetition of short writes), and a thread which dies in the middle.

## Linked lists in memory, and the cache on top of them (C69)

`Model/Linklist.lean` is memory with two pointers at each address; the calls of `lib/infra/list.c` are assignments to them
in the order of the code. Following a null pointer is an outcome of its own. `Spec/Linklist.lean` has plain sequences, and
the contract: an object is put into one list at a time, heads are no members. `Props/LinklistInv.lean` has the invariant of
one ring, `LinklistForest.lean` that of many rings in one memory with single links which point to themselves.

`Model/Hmapq.lean` is the cache of C55 with links, heads and counts in place of sequences: hash chains, LRU queue, queues
of changed objects, those within inodes included; objects are found from their links (`container_of`), and a link which is
a head gives `wild`. Walks have a bound which is larger than any list can be; reaching it is a failure. `Props/HmapqRep.lean`,
`HmapqCalls.lean`, `HmapqFind.lean`, `Hmapq.lean` prove call by call that it simulates the model of C55, so that what is
proved there holds of the links too.

## Values on the command line (C70)

`Model/Cmdval.lean` has strtold(3) on texts of bytes (decimal and hexadecimal literals, "inf", "nan"; exact rationals, then
rounded to 64 bits of significand), and on top of it the parsing of sizes, numbers and switches, the bounds of a capacity, and
the splitting of paths. Conversions which C leaves undefined are an outcome. `Spec/Cmdval.lean` says what a written size
denotes. `Props/CmdvalRound.lean` shows that rounding to 64 bits does not move the integer part below 2^63.

## Options of mount (C71)

`Model/Optargs.lean` has getopt_long(3) with permutation of arguments, clusters of letters, abbreviated names and both ways of
giving values; the loop of `cmd/mount.c` over what it returns; the two masks the file-system derives from the settings; and the
checks which look at these masks. `Spec/Optargs.lean` is a grammar of command lines and the settings a user asks for, without
reference to letters or masks. `Props/Optargs.lean` goes through the layers. systemd-run, daemonising and log levels are kept as
flags or texts only.

## The threads of a mount (C72)

`Model/Serve.lean` is a transition system: any number of dispatchers and workers, the main thread, and signals. A dispatcher is at
the head of its loop, at the channel, in an operation, storing, or out; the main thread starts, waits, joins with limited patience,
and closes. Statuses, what the kernel delivers and who runs next are events, so that a theorem over all lists of events covers all
schedules. `Spec/Serve.lean` has the words of the claims (a quiet kernel, a round in which everybody runs). `Props/Serve.lean` has
one invariant of all reachable states, and for the ends a weight which no quiet event increases and each round decreases. Time is
not modelled: patience is counted in rounds.

## The answer to INIT (C73)

`Model/Conn.lean` computes sizes of pipes and buffers from page size and limits, opens the pipes of the dispatchers with any
outcome, and answers INIT. `Spec/Conn.lean` has the kernel's side: which requests follow from an answer, and when a read or a
splice of the device delivers them; this is trusted as a reading of fs/fuse of Linux. `Props/Conn.lean` first brings the sizes to
a closed form (the buffer is the limit of pipes or 2M, and one page of it is for headers), from which the rest is arithmetic.

## Setting up and taking down (C74)

`Model/Fsinst.lean` writes the functions from `silofs_new_fsenv` down to single acquisitions as programs over a ledger of what is
held, with an oracle that grants or denies every step. `Spec/Fsinst.lean` says what a command needs and wants, and what an empty
ledger is. `Props/Fsinst.lean` shows of each component that it adds its things or leaves the ledger as it was (where that is
true), that its end undoes its beginning, and composes these over the list of components; what is not undone is shown by
witnesses, and `C74_slippery_sharp` that no kind of step is excepted without need. Not modelled: errors of release functions,
attributes of mutexes, what the objects do once they exist.

## Commands at the same time (C75)

`Model/Cmdseq.lean` writes each command as a list of steps, and a system as any number of processes on one repository whose
steps interleave. A step is done, refuses, fails before its effect, after it or half-way, or is the one at which the process is
killed. `Spec/Cmdseq.lean` says what it is for a name to open, and what was removed. `Props/Cmdseq.lean` classifies the effects of
steps, and shows by an invariant over what anybody knows (names and the references processes hold) that what is known is
there; a second invariant separates what is behind names being removed from what is behind all others. `Props/CmdseqEnds.lean`
has the frames, the locks, what success means (by inverting the run of one command), and the witnesses of what is false. That
the name left behind by `rmfs` stays for ever is an invariant over all later runs of all commands. Contents are one number per
volume, identifiers never repeat, a lock is granted in one step (C50), snapshots are the offline ones (C49).

## What mount and umount tell (C76)

`Model/Mntcmd.lean` has the two commands as their caller sees them: the checks, the question to the mount service (the model of
C46), the looks at the directory once a second while the daemon waits for its lock, opens and mounts, and for umount the two
loops which wait. All answers of the system are functions of time. `Props/Mntcmd.lean` inverts the checks and does induction over
the loops; `C76_mount_iff` ties the looks of the command to the clock of the daemon. `Props/MntcmdWit.lean` has one family of
systems for which the hypotheses hold, and the timings for which the claim is false. That a server ends only after it has stored
everything is C72; here it is a hypothesis. Answers of the checks of one command are of one moment; a sleep never fails.

## The mount service among many clients (C77)

`Model/Mountd.lean` puts the request of C46 into the loop of the daemon: connections wait in a queue, one is served at a time,
its bytes may come in parts, descriptors come along and are closed or lost, signals interrupt the wait. `Props/Mountd.lean`
has one relation of what a step may do, and invariants by induction over all sequences of events (room, tameness, whose
request). `C77_authorized` carries C46 over to any crowd of clients. `Props/MountdWit.lean` has the attacks, each for every
configuration of the daemon. That the kernel ends a waiting recvmsg at a message with descriptors, and that it hands over
no more than two here, is assumed; the limit of the queue of connections (backlog) is left out, which only makes it worse.

## Making a repository (C78)

`Model/RepoFmt.lean` has the command `init` and the library's format and open, one host system call after the other. A host
directory is a map of the names which the code uses, with permissions of the owner and bytes, and a count of other names. At
each call the environment lets it go on, fail with any errno, or kills the program there; a write may be cut short. The proofs
in `Props/RepoFmt.lean` are about relations of the host before and after an operation which sequences keep, so that no
proof runs through the hundreds of calls: what only grows, what stays as it is, what holds after success, what only asks,
what can always go on, and that a run depends only on the faults of the calls it made. Groups, other users, access lists and
the loss of written data at a crash of the host are left out: a kill ends the program, not the machine.

### Checking and listing a file-system (C79)

`Model/Fsck` is the walk over the space maps that both commands do, with the callback as a
parameter, on the repository of `Model/Pack`.  A space map is staged as in ustage.c: a missing segment is made, then the block
has to verify.  The specification (`Spec/Fsck`) says which maps a walk meets (`Met`: no gap before them;
`Under`: any child) and which bytes belong to a file-system (`Belongs`).  `inspect_two` gives both outcomes of a
walk with a callback that never fails: all maps met load, and the callback has seen `listing`; or the walk ends
with an error, having made at most one segment.  `C79_fsck`, `C79_fsck_all`, `C79_fsck_keeps` and `C79_view` follow.
For `view`, merging of adjacent addresses is shown to keep the set of bytes (`has_lmap`).

### Inode number and generation (C80)

`Model/Ident` has the counter of generations in the statistics of the super block, through clones (with `collect` of C65), the
making of inodes, and the entry the kernel gets, as bytes (`entryBytes` of C51). Objects are numbered as they are made; the numbers are
not visible to the code. A world keeps what was told, what is stored, and which objects were synced before a crash.
`Inv` says that within one period between crashes generations grow with the objects, that those of synced objects are not above the
stored counter, and that every answer is that of an object made; all steps keep it (`step_inv`). The two `_violated` theorems are concrete lives.

## The super block (C81)

`Model/Super.lean` is the super block as memory: a function from offsets to bytes, written and read at
the offsets of `struct silofs_super_block`.  The three tables by kind of object (roots, vectors, main
segments) are separate functions, as the three switches of lib/super.c are.  Modelled: `sb_init`,
`silofs_sbi_setup_spawned`, the super block part of format, `silofs_sbi_bind_child`,
`silofs_sbi_bind_main_lseg`, the three counters' updates, capacity, generation, flags,
`silofs_sbi_clone_from` with `sbi_make_clone`, and every check of `silofs_verify_super_block`.

`Spec/Super.lean` is a volume with tables instead of bytes.  `C81_shows` is the refinement, by an
invariant in parts (one per region of the block) each kept by writes elsewhere; `C81_accepted` is that
the invariant implies acceptance; `C81_gate` speaks of any bytes; `C81_fork` of a fork of any volume
that had any life, and `C81_fork_apart` says that the two have no segment both may write to.  `C81_walk`
is that the list of roots export and deletion start from is that of the roots bound.

Not modelled: the header and checksum (C43), the software version and the name, dates of birth other
than as 64 bytes, the staging of the block (C58, C59), and a super block that names another place
than the one it was loaded from, which no code looks for.
