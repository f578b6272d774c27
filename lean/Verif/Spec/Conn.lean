import Verif.Model.Conn

/-!
# What the kernel does with the answer to INIT (C73)

The rules by which the FUSE driver of the kernel decides, from the answer to INIT and the mount options, how large its
requests are, and by which it hands them to a reader of the device. They are the kernel's (fs/fuse/inode.c
`process_init_reply`, fs/fuse/dev.c `fuse_dev_do_read`, `fuse_dev_splice_read`) and do not mention the daemon.
-/

namespace Silofs.Cn

/-- The kernel: size of its pages, largest number of pages a request may carry (256, or the sysctl
fs.fuse.max_pages_limit since Linux 6.13), the `max_read` mount option. -/
structure Kern where
  page : Nat
  limit : Nat
  mountRead : Nat
  deriving Repr, DecidableEq

/-- Pages in one request. -/
def Kern.pages (k : Kern) (o : InitOut) : Nat :=
  if o.flags.testBit 22 then min k.limit (max 1 o.maxPages) else 32

/-- The requests that carry data. A WRITE of `len` bytes occupies `pages` pages. -/
inductive Req where
  | read (len : Nat)
  | write (len pages : Nat)
  deriving Repr, DecidableEq

/-- The requests the kernel may send. -/
def Kern.Sends (k : Kern) (o : InitOut) : Req → Prop
  | .read len => 0 < len ∧ len ≤ max 4096 k.mountRead ∧ len ≤ k.pages o * k.page
  | .write len pages => 0 < len ∧ len ≤ max 4096 o.maxWrite ∧ pages ≤ k.pages o ∧ len ≤ pages * k.page

/-- Size of the message of a request: two headers of 40 bytes, and the data of a WRITE. -/
def Req.msg : Req → Nat
  | .read _ => 80
  | .write len _ => 80 + len

/-- Buffers of a pipe which a message needs: one page for the headers and one for each page of data. -/
def Req.slots : Req → Nat
  | .read _ => 1
  | .write _ pages => 1 + pages

def Req.len : Req → Nat
  | .read len => len
  | .write len _ => len

/-- What happens to a read of the device. -/
inductive Dev where
  | got (n : Nat)
  | einval
  | eio
  deriving Repr, DecidableEq

/-- read(2) of the device with a buffer of `n` bytes: refused if the buffer could not hold the largest WRITE; a message
which is too long for the buffer is lost. -/
def Kern.read (o : InitOut) (n : Nat) (r : Req) : Dev :=
  if n < max 8192 (80 + max 4096 o.maxWrite) then .einval
  else if n < r.msg then .eio
  else .got r.msg

/-- splice(2) of up to `n` bytes from the device into an empty pipe of `size` bytes: the same, and the pipe must have the
buffers. -/
def Kern.splice (k : Kern) (o : InitOut) (n size : Nat) (r : Req) : Dev :=
  match Kern.read o n r with
  | .got m => if r.slots > size / k.page then .eio else .got m
  | x => x

/-- The system as the kernel lets it be: the limit of pipes is a page at least and fits 32 bits. -/
structure Sys.Ok (s : Sys) : Prop where
  page : checkPage s.page = none
  lim : ∀ l, s.lim = some l → s.page ≤ l ∧ l < 2 ^ 32

/-- A kernel on the system, on which the daemon was mounted. -/
structure Kern.On (k : Kern) (s : Sys) (u : Up) : Prop where
  page : k.page = s.page
  read : k.mountRead = u.conn.maxRead

/-- Names "." and "..". -/
def dot : Ns.Name := [46]
def dotdot : Ns.Name := [46, 46]

end Silofs.Cn
