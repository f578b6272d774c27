import Verif.Model.Opers
/-
What a user is told about the requests (C56), without reference to how they are carried out: which of
them change a file-system, and which of them must not be refused because it is mounted read-only.
-/
namespace Silofs.Opers

/-- The requests which change the names, attributes or contents of a file-system (or make a new one out
of it). Opening counts when it is for writing (it may truncate). -/
def Oper.changes : Oper → Bool
  | .mkdir | .rmdir | .symlink | .unlink | .link | .chmod | .chown | .utimens | .truncate | .create
  | .mknod | .rename | .write | .writeIter | .fallocate | .copyFileRange | .setxattr | .removexattr
  | .clone | .tune => true
  | .open_ wr => wr
  | _ => false

/-- The requests to have all changes on storage, now. -/
def Oper.syncs : Oper → Bool
  | .releasedir s => s
  | .fsyncdir d => d
  | .release f => f
  | .fsync d => d
  | .syncfs => true
  | _ => false

/-- All other requests only read, or tell the file-system that something is no longer in use. -/
def Oper.reads (op : Oper) : Bool := !op.changes && !op.syncs

/-- The caller may use this mount at all (C41), and has an identity in the file-system (C34). -/
def Admitted (env : Env) : Prop :=
  Ids.authorize env.mnt env.req = true ∧ (Ids.mapCreds env.mnt env.req).isSome = true

/-- Nothing may be changed on this mount. -/
def Env.frozen (env : Env) : Bool := env.ro || env.fossil

/-- Steps which look at the content of the file-system or change it. -/
def Step.touches : Step → Bool
  | .stage _ _ | .stage2 | .flush _ | .flush2 | .act _ _ | .getattr _ => true
  | _ => false

/-- The requests whose reply carries the attributes of an inode. -/
def Oper.replies : Oper → Bool
  | .lookup | .getattr | .mkdir | .symlink | .link | .chmod | .chown | .utimens | .truncate | .create
  | .mknod | .statx => true
  | _ => false

/-- Requests which are only sent by the file-system's own housekeeping. -/
def Oper.internal : Oper → Bool
  | .maintain => true
  | _ => false

end Silofs.Opers
