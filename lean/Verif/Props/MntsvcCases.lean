import Verif.Props.MntsvcMsg
/-
C46: concrete requests, and what the service does that it should not.
-/
set_option maxRecDepth 20000
namespace Silofs.Mnt.Case

def ver : Ver := ⟨0, 3⟩
/-- "/h/m". -/
def hm : Path := [47, 104, 47, 109]
/-- "/d". -/
def dd : Path := [47, 100]
def env : Env := ⟨.ok 7, none, none⟩

/-- A directory of user 1000. -/
def home : Stat := ⟨5, 1, 0x41C0, 2, 1000⟩
/-- A directory of root. -/
def rootDir : Stat := ⟨9, 1, 0x41ED, 2, 0⟩
/-- Root of some mounted file-system. -/
def top1 : Stat := ⟨1, 3, 0x41FF, 2, 0⟩

def world (st : Path → Except Nat Stat) (canon : Path → Except Nat Path) (top : Path → Option Top) : World :=
  ⟨st, canon, fun _ => .ok 0xEF53, top⟩

/-- "/h/m" is a directory of user 1000, nothing mounted. -/
def plain : World := world (fun p => if p = hm then .ok home else .error 2) .ok (fun _ => none)

def svc (uid : Nat) (rules : Option (List Rule)) : Svc := ⟨uid, uid, 4096, rules⟩
def rule1 : Rule := ⟨hm, 1000, false⟩
def ruleAny : Rule := ⟨hm, uidNone, false⟩

def mnt (p : Path) (flags uid mode : Nat) : Params := ⟨some p, flags, uid, uid, mode, 65536, false, false⟩
def msg (cmd : Nat) (m : Params) : List Nat := (clientMsg ver cmd m).getD []

def noMount : Sys → Bool
  | .mount .. => false
  | .umount .. => true

/-- A request that is granted: the theorems above speak of something. -/
theorem C46_case : (serve ver (svc 1000 (some [rule1])) env (fun _ => plain) 0 (msg 2 (mnt hm 6 1000 0x41C0))).1 =
    some (5, .mount hm 6 ⟨65536, 7, 0x41C0, 1000, 1000, false⟩) := by decide +kernel

/-- Another user is refused the same. -/
example : (serve ver (svc 2000 (some [rule1])) env (fun _ => plain) 0 (msg 2 (mnt hm 6 2000 0x41C0))).1 = none := by
  decide +kernel

/-- And a user pretending to be another. -/
example : (serve ver (svc 2000 (some [ruleAny])) env (fun _ => plain) 0 (msg 2 (mnt hm 6 1000 0x41C0))).1 = none := by
  decide +kernel

example : (mnt hm 6 1000 0x41C0).Fits := ⟨by decide, by decide, by decide, by decide, by decide, by
  intro p hp; simp only [mnt, Option.some.injEq] at hp; subst hp; decide⟩

/-- False: "a mount made for a user without privileges has nosuid and nodev".
The flags are the client's; none are required (lib/mntsvc.c:878-883). -/
theorem C46_nosuid_violated : ∃ (s : Svc) (e : Env) (w : World) (rx : List Nat) (tm : Nat) (p : Path) (fl : Nat)
    (d : MountData), s.peerUid ≠ 0 ∧ (serve ver s e (fun _ => w) 0 rx).1 = some (tm, .mount p fl d) ∧
      fl.testBit 1 = false ∧ fl.testBit 2 = false :=
  ⟨svc 1000 (some [rule1]), env, plain, msg 2 (mnt hm 0 1000 0x41C0), 5, hm, 0,
    ⟨65536, 7, 0x41C0, 1000, 1000, false⟩, by decide, by decide +kernel, by decide, by decide⟩

/-- False: "the root of a mount is declared to be a directory": only one bit of
the type is looked at (lib/mntsvc.c:888-890), so a block device passes. -/
theorem C46_rootmode_violated : ∃ (s : Svc) (e : Env) (w : World) (rx : List Nat) (tm : Nat) (p : Path) (fl : Nat)
    (d : MountData), (serve ver s e (fun _ => w) 0 rx).1 = some (tm, .mount p fl d) ∧ d.rootMode &&& 0xF000 = 0x6000 :=
  ⟨svc 1000 (some [rule1]), env, plain, msg 2 (mnt hm 6 1000 0x61C0), 5, hm, 6,
    ⟨65536, 7, 0x61C0, 1000, 1000, false⟩, by decide +kernel, by decide⟩

/-- After time 4 the user has put a link to root's directory in place. -/
def swapped : World := world (fun p => if p = hm then .ok rootDir else .error 2) (fun _ => .ok dd) (fun _ => none)
def racing (t : Nat) : World := if t < 5 then plain else swapped

/-- False: "what is mounted over is a directory of the user's own": checks and
mount go by path, one after the other (lib/mntsvc.c:817-840, 306-319, 400-423). -/
theorem C46_race_violated : ∃ (s : Svc) (e : Env) (w : Nat → World) (rx : List Nat) (tm : Nat) (p : Path) (fl : Nat)
    (d : MountData) (st : Stat), (serve ver s e w 0 rx).1 = some (tm, .mount p fl d) ∧
      (w tm).stat p = .ok st ∧ st.uid ≠ s.peerUid ∧ (w tm).canon p ≠ .ok p :=
  ⟨svc 1000 (some [rule1]), env, racing, msg 2 (mnt hm 6 1000 0x41C0), 5, hm, 6,
    ⟨65536, 7, 0x41C0, 1000, 1000, false⟩, rootDir, by decide +kernel, rfl, by decide, by
      intro h; exact absurd (Except.ok.inj h) (by decide)⟩

/-- The mount of user 1000 at "/h/m" whose server has died. -/
def dead : World := world (fun p => if p = hm then .error 107 else .error 2) .ok
  (fun p => if p = hm then some ⟨0x65735546, 1000⟩ else none)

/-- False: "a user whom no rule lets cannot unmount": if stat says ENOTCONN the
rules are not looked at (lib/mntsvc.c:992-1000). -/
theorem C46_umount_dead_violated : ∃ (s : Svc) (e : Env) (w : World) (rx : List Nat) (tm : Nat) (p : Path) (fl : Nat)
    (rs : List Rule) (o : Top), s.rules = some rs ∧ rs ≠ [] ∧ (∀ r ∈ rs, ¬ r.Lets s.peerUid) ∧
      (serve ver s e (fun _ => w) 0 rx).1 = some (tm, .umount p fl) ∧ w.top p = some o ∧ o.owner ≠ s.peerUid :=
  ⟨svc 2000 (some [rule1]), env, dead, msg 3 (mnt hm 0 2000 0), 1, hm, 0, [rule1], ⟨0x65735546, 1000⟩, rfl,
    by simp, by
      intro r hr
      simp only [List.mem_singleton] at hr
      subst hr
      unfold Rule.Lets
      decide, by decide +kernel, rfl, by decide⟩

/-- A tmpfs at "/d" mounted by root, reached also by a link "/h/m". -/
def tmpfs : World := world (fun p => if p = hm ∨ p = dd then .ok top1 else .error 2)
  (fun p => if p = hm then .ok dd else .ok p) (fun p => if p = hm ∨ p = dd then some ⟨0x01021994, 0⟩ else none)

/-- False: "without rules nobody can unmount": an empty set of rules lets
everyone unmount whatever has a root with inode 1 (lib/mntsvc.c:851-854). -/
theorem C46_umount_norules_violated : ∃ (s : Svc) (e : Env) (w : World) (rx : List Nat) (tm : Nat) (p : Path)
    (fl : Nat) (o : Top), s.rules = some [] ∧ s.peerUid ≠ 0 ∧
      (serve ver s e (fun _ => w) 0 rx).1 = some (tm, .umount p fl) ∧ w.top p = some o ∧ o.owner = 0 ∧
      o.fstype ≠ 0x65735546 :=
  ⟨svc 2000 (some []), env, tmpfs, msg 3 (mnt dd 0 2000 0), 1, dd, 0, ⟨0x01021994, 0⟩, rfl, by decide,
    by decide +kernel, rfl, rfl, by decide⟩

/-- False: "only file-systems of this kind are unmounted": the path of an unmount
need not be canonical, and any root with inode 1 passes (lib/mntsvc.c:225-229).
The user's mount point is a link to a tmpfs of root. -/
theorem C46_umount_link_violated : ∃ (s : Svc) (e : Env) (w : World) (rx : List Nat) (tm : Nat) (p : Path)
    (fl : Nat) (o : Top), s.rules = some [⟨p, s.peerUid, false⟩] ∧ s.peerUid ≠ 0 ∧ w.canon p ≠ .ok p ∧
      (serve ver s e (fun _ => w) 0 rx).1 = some (tm, .umount p fl) ∧ w.top p = some o ∧ o.owner = 0 ∧
      o.fstype ≠ 0x65735546 :=
  ⟨svc 1000 (some [rule1]), env, tmpfs, msg 3 (mnt hm 0 1000 0), 1, hm, 0, ⟨0x01021994, 0⟩, rfl, by decide, by
      intro h; exact absurd (Except.ok.inj h) (by decide), by decide +kernel, rfl, rfl, by decide⟩

/-- A live mount of user 1000 at "/h/m". -/
def live : World := world (fun p => if p = hm then .ok top1 else .error 2) .ok
  (fun p => if p = hm then some ⟨0x65735546, 1000⟩ else none)

/-- False: "a user unmounts only what was mounted for that user": where a rule
is for all users, any of them may unmount the mount of another. -/
theorem C46_umount_other_violated : ∃ (s : Svc) (e : Env) (w : World) (rx : List Nat) (tm : Nat) (p : Path)
    (fl : Nat) (o : Top), (serve ver s e (fun _ => w) 0 rx).1 = some (tm, .umount p fl) ∧ w.top p = some o ∧
      o.owner ≠ s.peerUid ∧ s.peerUid ≠ 0 ∧ s.rules = some [⟨p, 4294967295, false⟩] :=
  ⟨svc 2000 (some [ruleAny]), env, live, msg 3 (mnt hm 0 2000 0), 1, hm, 0, ⟨0x65735546, 1000⟩, by decide +kernel,
    rfl, by decide, by decide, rfl⟩

/-- The hypotheses of `C46_umount_partial` are met by a request that is granted. -/
example : (serve ver (svc 1000 (some [rule1])) env (fun _ => live) 0 (msg 3 (mnt hm 2 1000 0))).1 =
    some (1, .umount hm 2) := by decide +kernel

/-- And refused to others. -/
example : (serve ver (svc 2000 (some [rule1])) env (fun _ => live) 0 (msg 3 (mnt hm 2 2000 0))).1 = none := by
  decide +kernel

/-- `C46_descriptor` is about real environments. -/
example : env.Fine := ⟨fun _ h => (nomatch h), fun _ h => (nomatch h), fun _ h => (nomatch h), fun f h => by
  have h' : (Except.ok 7 : Except Nat Nat) = .ok f := h
  injection h' with h'; subst h'; decide⟩

end Silofs.Mnt.Case
