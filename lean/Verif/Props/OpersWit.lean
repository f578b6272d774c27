import Verif.Props.OpersRun
/-
Concrete requests: the hypotheses of the theorems of C56 are met, and where the property fails.
-/
namespace Silofs.Opers

/-- No identity is mapped to another one, all are allowed. -/
def ids0 : Ids.Map := ⟨Ids.Tab.empty, Ids.Tab.empty, true⟩

/-- The owner of a writable file-system sends a request, and all goes well. -/
def env0 : Env where
  mnt := ⟨1000, false, false, ids0⟩
  req := ⟨1000, 1000, 77, false⟩
  uid := some 5
  gid := some 6
  ro := false
  fossil := false
  inoNull _ := false
  fetch _ _ := 0
  dirty _ := false
  evict _ _ := false
  nameErr _ := 0
  symErr := 0
  flushErr _ := 0
  actErr := 0
  attrErr := 0
  rmapErr := 0
  loose := false
  purge := 0
  purgeSent := true

def t0 : Task := ⟨false, false⟩

example : Admitted env0 := by
  refine ⟨by decide +kernel, by decide +kernel⟩

example : ¬Admitted { env0 with req := ⟨1001, 1001, 78, false⟩ } := fun h => by
  exact absurd h.1 (by decide +kernel)

/-- All operations are carried out, with success, under the lock. -/
example : (run t0 env0 .mkdir).err = 0 ∧ (run t0 env0 .mkdir).m.acted = true ∧
    (run t0 env0 .mkdir).evs = [.lock, .ran .authorize 0, .ran .mapCreds 0, .ran (.stage .a .cow) 0,
      .ran (.name .a) 0, .ran (.flush .a) 0, .ran (.act [.a] false) 0, .ran (.getattr .n) 0, .ran .rmap 0,
      .unlock] := by
  refine ⟨by decide +kernel, by decide +kernel, by decide +kernel⟩

example : (run t0 env0 .link).err = 0 ∧ (run t0 env0 .rename).err = 0 ∧ (run t0 env0 .chown).err = 0 := by
  refine ⟨by decide +kernel, by decide +kernel, by decide +kernel⟩

example : (run t0 (env0.at_ true false) .write).err = EROFS ∧ (run t0 (env0.at_ true false) .read).err = 0 ∧
    (run t0 (env0.at_ false true) .clone).err = EROFS := by
  refine ⟨by decide +kernel, by decide +kernel, by decide +kernel⟩

/-- The mount cannot be written. -/
example : (env0.at_ true false).frozen = true ∧ (env0.at_ false true).frozen = true := ⟨rfl, rfl⟩

/-- C56. Requests which only ask for durability are refused too: on a read-only mount, where there is
nothing to be written, `fdatasync`, `syncfs` and closing a file with the flush
flag are refused with `EROFS`, and for the latter the file stays open for the file-system. -/
theorem C56_readonly_sync_violated :
    ∃ env : Env, Admitted env ∧ env.frozen = true ∧ (∀ h, env.dirty h = false) ∧
      (run t0 env (.fsync false)).err = 0 ∧ (run t0 env (.fsync true)).err = EROFS ∧
      (run t0 env (.fsyncdir true)).err = EROFS ∧ (run t0 env .syncfs).err = EROFS ∧
      (run t0 env (.release false)).m.acted = true ∧
      (run t0 env (.release true)).err = EROFS ∧ (run t0 env (.release true)).m.started = false ∧
      (run t0 env (.releasedir true)).err = EROFS ∧ (run t0 env (.releasedir true)).m.started = false := by
  refine ⟨env0.at_ true false, ⟨by decide +kernel, by decide +kernel⟩, rfl, fun _ => rfl, ?_⟩
  refine ⟨?_, ?_, ?_, ?_, ?_, ?_, ?_, ?_, ?_⟩ <;> decide +kernel

/-- C56. An error does not mean that nothing was done: `chmod` of a directory is carried out, then the
attributes for the reply need its parent directory, which cannot be read (e.g. `EIO`); and `unlink` is
carried out and then fails because pending removals of other inodes could not be flushed. -/
theorem C56_failure_undone_violated :
    (∃ env : Env, Admitted env ∧ env.loose = false ∧ (run t0 env .chmod).err = 1005 ∧
      (run t0 env .chmod).m.acted = true) ∧
    (∃ env : Env, Admitted env ∧ (run t0 env .unlink).err = 1028 ∧ (run t0 env .unlink).m.acted = true) := by
  refine ⟨⟨{ env0 with attrErr := 1005 }, ⟨by decide +kernel, by decide +kernel⟩, rfl, ?_, ?_⟩,
    ⟨{ env0 with loose := true, purge := 1028 }, ⟨by decide +kernel, by decide +kernel⟩, ?_, ?_⟩⟩ <;>
    decide +kernel

/-- C56. In the same place: when that flush fails before it has written anything, inodes stay on the
queue of removals although the request ends (an assertion of debug builds fails; without it the
inodes are never removed, and keep their memory). -/
theorem C56_pending_removals_violated :
    ∃ env : Env, Admitted env ∧ (run t0 env .unlink).leaked = true := by
  exact ⟨{ env0 with loose := true, purge := 1012, purgeSent := false },
    ⟨by decide +kernel, by decide +kernel⟩, by decide +kernel⟩

/-- And otherwise never. -/
theorem C56_pending_removals_partial (t : Task) (env : Env) (op : Oper)
    (h : env.purge = 0 ∨ env.purgeSent = true) : (run t env op).leaked = false := by
  show (_ && _ && decide (env.purge ≠ 0) && !env.purgeSent) = false
  rcases h with h | h
  · simp [h]
  · simp [h]

/-- C56. `link` uses an evicted directory: it takes no reference on it while it brings the inode to
memory (step 3), nor on the inode while it writes back (step 5). -/
theorem C56_link_pointer_violated :
    (∃ env : Env, Admitted env ∧ (run t0 env .link).m.bad = true ∧ (run t0 env .link).err = 0 ∧
      ∀ k x, env.evict k x = true → k = 3 ∧ x = .a) ∧
    (∃ env : Env, Admitted env ∧ (run t0 env .link).m.bad = true ∧ (run t0 env .link).err = 0 ∧
      ∀ k x, env.evict k x = true → k = 5 ∧ x = .b) := by
  refine ⟨⟨{ env0 with evict := fun k x => decide (k = 3 ∧ x = .a) },
      ⟨by decide +kernel, by decide +kernel⟩, by decide +kernel, by decide +kernel, ?_⟩,
    ⟨{ env0 with evict := fun k x => decide (k = 5 ∧ x = .b) },
      ⟨by decide +kernel, by decide +kernel⟩, by decide +kernel, by decide +kernel, ?_⟩⟩
  · intro k x h
    exact of_decide_eq_true h
  · intro k x h
    exact of_decide_eq_true h

/-- The cache (C55) does behave like that: an inode (key 1, the directory) is brought to memory, a second
one (key 2) when memory is short for one attempt; the first one has gone, although its user did nothing
in between -- unless they hold a reference, as `rename` does. -/
theorem C56_link_evicts_violated :
    Lcache.w0.LegalAll [.stage true 1 1024 true 0, .stage true 2 1024 true 1] ∧
    ((Lcache.w0.run [.stage true 1 1024 true 0, .stage true 2 1024 true 1]).2.hq true).live 0 = false ∧
    ((Lcache.w0.run [.stage true 1 1024 true 0, .incref true 0, .stage true 2 1024 true 1]).2.hq true).live 0
      = true := by
  refine ⟨by decide +kernel, by decide +kernel, by decide +kernel⟩

end Silofs.Opers
