import Verif.Model.Pipe
import Verif.Spec.Fuse
/-
What large reads and writes through the pipe are for, without reference to how the pipe is used.
-/
namespace Silofs.Pp
open Silofs.Fuse (Buf)

/-- Pieces of memory hold `data`, one after the other. -/
def Holds (m : Nat → Nat) : List Iov → Buf → Prop
  | [], data => data = []
  | v :: l, data => (∀ i, i < v.len → data[i]? = some (m (v.base + i))) ∧ Holds m l (data.drop v.len)

/-- An address inside one of the pieces. -/
def Inside (l : List Iov) (a : Nat) : Prop := ∃ v ∈ l, v.base ≤ a ∧ a < v.base + v.len

/-- No two pieces share an address. -/
def Apart (l : List Iov) : Prop :=
  l.Pairwise fun v w => ∀ a, v.base ≤ a → a < v.base + v.len → ¬ (w.base ≤ a ∧ a < w.base + w.len)

/-- Number of bytes of the pieces. -/
def total (l : List Iov) : Nat := (l.map Iov.len).sum

/-- Pages touched by `len` bytes from address `base` on. -/
def pages (v : Iov) : Nat := if v.len = 0 then 0 else (v.base + v.len - 1) / 4096 - v.base / 4096 + 1

/-- Slots of a pipe needed for a reply that carries the pieces: one for the header and one per page. -/
def slotsNeeded (l : List Iov) : Nat := 1 + (l.map pages).sum

/-- What may come of a request to write `data`: nothing outside the pieces of the file is touched; the kernel gets no answer,
an error, or the number of bytes that the pieces now hold, which are the first of `data`. -/
def WriteAns (unique : Nat) (data : Buf) (sc : Script) (s s' : St) : Prop :=
  (∀ a, ¬ Inside sc.pieces a → s'.mem a = s.mem a) ∧
  (s'.outq = s.outq ∨ (∃ e, s'.outq = s.outq ++ [Fuse.replyErr unique e]) ∨
    (sc.res = 0 ∧ s'.outq = s.outq ++ [writeReply unique (total sc.pieces)] ∧
      Holds s'.mem sc.pieces (data.take (total sc.pieces))))

/-- What may come of a request to read: the memory stays; the kernel gets no answer, an error, or what the pieces hold. -/
def ReadAns (unique size : Nat) (sc : Script) (s s' : St) : Prop :=
  s'.mem = s.mem ∧
  (s'.outq = s.outq ∨ (∃ e, s'.outq = s.outq ++ [Fuse.replyErr unique e]) ∨
    (sc.res = 0 ∧ ∃ d, d.length = total sc.pieces ∧ d.length ≤ size ∧ Holds s.mem sc.pieces d ∧
      s'.outq = s.outq ++ [Fuse.replyOk unique d]))

/-- What may come of any other request: its finished reply is sent, or not. -/
def PlainAns (reply : Buf) (s s' : St) : Prop :=
  s'.mem = s.mem ∧ (s'.outq = s.outq ∨ s'.outq = s.outq ++ [reply])

/-- What may come of a request, by what the file-system answers to it. -/
def Answer (h : Fuse.KHdr) (r : Fuse.KReq) (fs : Fs) (s s' : St) : Prop :=
  match r with
  | .write _ off data _ _ _ =>
    if Fuse.isLargeIo (Fuse.offOf off) data.length then
      Apart fs.script.pieces → total fs.script.pieces ≤ data.length → WriteAns h.unique.toNat data fs.script s s'
    else PlainAns fs.reply s s'
  | .read _ off size _ _ _ =>
    if Fuse.isLargeIo (Fuse.offOf off) size.toNat then ReadAns h.unique.toNat size.toNat fs.script s s'
    else PlainAns fs.reply s s'
  | _ => PlainAns fs.reply s s'

/-- One round of a thread: no request is answered and no memory changes, or the first request waiting is taken. -/
def Step (fs : Fs) (s s' : St) : Prop :=
  (s'.outq = s.outq ∧ s'.mem = s.mem ∧ ∃ k, s'.inq = s.inq.drop k) ∨
  ∃ m q h r, s.inq = m :: q ∧ s'.inq = q ∧ m.flatten = Fuse.wire true h r ∧ Answer h r fs s s'

/-- Rounds one after the other; a thread may stop after any of them. -/
def Trace : List (Fs × Buf) → St → St → Prop
  | [], s, s' => s' = s
  | x :: l, s, s' => ∃ s1, Step x.1 s s1 ∧ (s' = s1 ∨ Trace l s1 s')

/-- A message of the kernel that obeys what the daemon told it: lengths of reads and writes, and of the message. -/
def Obeys (fq : Fuse.Fq) (m : List Buf) : Prop :=
  ∃ h r, m.flatten = Fuse.wire true h r ∧ r.Fine fq.maxRead fq.maxWrite ∧ (Fuse.wire true h r).length ≤ fq.buffsize

end Silofs.Pp
