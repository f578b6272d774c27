import Verif.Props.RepoRun
/-
What is stored safely: as long as the host reports no failure to store (fsync), a file with
writes waiting is held open by the cache, and evicting it stores it.
-/
set_option linter.unusedSimpArgs false
namespace Silofs.Repo
open Silofs Silofs.Addr Silofs.Sysio

/-- What stable storage has for each name. -/
def stored (c : Cfg) (d : Disk) : Store := fun nm => (d.dir (pathOf c nm)).map (fun n => (d.node n).stable)

/-- fsync(2) reports no error. -/
def NoErr (k : K) : Prop := ∀ n, k.sync n = 0

/-- A file without waiting writes is on stable storage; a segment of a volume with waiting writes
is one of `H`. -/
structure DurD (c : Cfg) (U : Name → Prop) (d : Disk) (H : Lsid → Prop) : Prop where
  clean : ∀ n, (d.node n).dirty = false → (d.node n).stable = (d.node n).cur
  held : ∀ l n, U (.lseg l) → d.dir (pathOf c (.lseg l)) = some n → (d.node n).dirty = true → H l

/-- Segments of volumes open for writing. -/
def Held (r : Repo) (l : Lsid) : Prop := ∃ id, id ∈ r.lruq ∧ (r.heap id).key = .lseg l ∧ (r.heap id).rdonly = false

def Dur (c : Cfg) (U : Name → Prop) (r : Repo) : Prop := DurD c U r.disk (Held r)

theorem DurD.mono {c : Cfg} {U : Name → Prop} {d : Disk} {H H' : Lsid → Prop} (h : DurD c U d H) (hh : ∀ l, H l → H' l) : DurD c U d H' :=
  ⟨h.clean, fun l n a b e => hh l (h.held l n a b e)⟩

theorem fsync_node (d : Disk) (n m : Nat) : ((d.fsync n 0).node m) = (if m = n ∧ (d.node n).dirty = true then { d.node n with stable := (d.node n).cur, dirty := false } else d.node m) := by
  unfold Disk.fsync Disk.set
  rw [if_neg (by simp)]
  by_cases h : (d.node n).dirty = true
  · rw [if_pos h]
    dsimp only
    by_cases hm : m = n
    · rw [if_pos hm, if_pos ⟨hm, h⟩]
    · rw [if_neg hm, if_neg (fun x => hm x.1)]
  · rw [if_neg h, if_neg (fun x => h x.2)]

theorem fsync_clean (d : Disk) (n : Nat) : ((d.fsync n 0).node n).dirty = false := by
  rw [fsync_node]
  split
  · rfl
  · rename_i h
    simpa using h

theorem fsync_dirty (d : Disk) (n m : Nat) (h : ((d.fsync n 0).node m).dirty = true) : (d.node m).dirty = true := by
  rw [fsync_node] at h
  split at h
  · cases h
  · exact h

theorem fsync_dir (d : Disk) (n e : Nat) : (d.fsync n e).dir = d.dir := (same_fsync d n e).dir

theorem DurD.fsync {c : Cfg} {U : Name → Prop} {d : Disk} {H : Lsid → Prop} (h : DurD c U d H) (n : Nat) : DurD c U (d.fsync n 0) H := by
  refine ⟨?_, ?_⟩
  · intro m hm
    rw [fsync_node] at hm ⊢
    by_cases hc : m = n ∧ (d.node n).dirty = true
    · rw [if_pos hc]
    · rw [if_neg hc] at hm ⊢; exact h.clean m hm
  · intro l m hU hd hm
    rw [fsync_dir] at hd
    exact h.held l m hU hd (fsync_dirty _ _ _ hm)

theorem DurD.close {c : Cfg} {U : Name → Prop} {d : Disk} {H : Lsid → Prop} (h : DurD c U d H) {k : K} (hk : NoErr k) (e : Ent) : DurD c U (closeEnt k d e) H := by
  unfold closeEnt
  split
  · split
    · exact h
    · rw [hk]; exact h.fsync _
  · exact h

theorem modify_node (d : Disk) (n m : Nat) (f : File) (b : Bool) :
    ((d.modify n f b).node m) = (if m = n then { d.node n with cur := f, dirty := true, blocks := b } else d.node m) := rfl

theorem DurD.modify {c : Cfg} {U : Name → Prop} {d : Disk} {H : Lsid → Prop} (h : DurD c U d H) (n : Nat) (f : File) (b : Bool)
    (hn : ∀ l, U (.lseg l) → d.dir (pathOf c (.lseg l)) = some n → H l) : DurD c U (d.modify n f b) H := by
  refine ⟨?_, ?_⟩
  · intro m hm
    rw [modify_node] at hm ⊢
    by_cases hc : m = n
    · rw [if_pos hc] at hm; cases hm
    · rw [if_neg hc] at hm ⊢; exact h.clean m hm
  · intro l m hU hd hm
    have hd' : d.dir (pathOf c (.lseg l)) = some m := hd
    by_cases hc : m = n
    · subst hc; exact hn l hU hd'
    · rw [modify_node, if_neg hc] at hm; exact h.held l m hU hd' hm

/-- Changing the file of a name. -/
theorem DurD.modify_name {c : Cfg} {U : Name → Prop} (hi : PathInj c U) {d : Disk} (hd : DOk d) {H : Lsid → Prop} (h : DurD c U d H) {nm : Name} (hU : U nm) {n : Nat}
    (hn : d.dir (pathOf c nm) = some n) (hl : ∀ l, nm = .lseg l → H l) (f : File) (b : Bool) : DurD c U (d.modify n f b) H := by
  refine h.modify n f b ?_
  intro l hUl hdl
  exact hl l (hi _ _ hU hUl (hd.inj _ _ _ hn hdl))

theorem DurD.made {c : Cfg} {U : Name → Prop} {d : Disk} {H : Lsid → Prop} (h : DurD c U d H) (p : Path) : DurD c U (made d p) H := by
  have hnode : ∀ m, (Repo.made d p).node m = if m = d.next then ⟨noBytes, noBytes, false, false⟩ else d.node m := fun _ => rfl
  refine ⟨?_, ?_⟩
  · intro m hm
    rw [hnode] at hm ⊢
    by_cases hc : m = d.next
    · rw [if_pos hc]
    · rw [if_neg hc] at hm ⊢; exact h.clean m hm
  · intro l m hU hd hm
    have hdd : (if pathOf c (.lseg l) = p then some d.next else d.dir (pathOf c (.lseg l))) = some m := hd
    rw [hnode] at hm
    by_cases hc : m = d.next
    · rw [if_pos hc] at hm; cases hm
    · rw [if_neg hc] at hm
      by_cases hp : pathOf c (.lseg l) = p
      · rw [if_pos hp] at hdd; injection hdd with hdd; exact absurd hdd.symm hc
      · rw [if_neg hp] at hdd; exact h.held l m hU hdd hm

theorem DurD.unlink {c : Cfg} {U : Name → Prop} {d : Disk} {H : Lsid → Prop} (h : DurD c U d H) (p : Path) : DurD c U (d.unlink p) H := by
  refine ⟨h.clean, ?_⟩
  intro l m hU hd hm
  have hdd : (if pathOf c (.lseg l) = p then none else d.dir (pathOf c (.lseg l))) = some m := hd
  split at hdd
  · cases hdd
  · exact h.held l m hU hdd hm

/-! ### The cache -/

theorem dur_evict_disk {c : Cfg} {U : Name → Prop} {r : Repo} (h : Struct c U r) {d : Disk} (hb : Bind c d r) (hd : DurD c U d (Held r)) {k : K} (hk : NoErr k) {id : Nat} (hid : id ∈ r.lruq) :
    DurD c U (closeEnt k d (r.heap id)) (Held (evict c k r id)) := by
  have hcl := hd.close hk (r.heap id)
  refine ⟨hcl.clean, ?_⟩
  intro l n hU hdir hdt
  obtain ⟨x, x1, x2, x3⟩ := hcl.held l n hU hdir hdt
  refine ⟨x, ?_, x2, x3⟩
  show x ∈ r.lruq.erase id
  rw [h.nodup.mem_erase_iff]
  refine ⟨?_, x1⟩
  intro e
  subst e
  obtain ⟨m, m1, m2, _⟩ := hb x hid
  unfold closeEnt at hdir hdt
  rw [x2, m1] at hdir hdt
  dsimp only at hdir hdt
  rw [if_neg (by rw [x3]; simp), hk] at hdir hdt
  rw [fsync_dir] at hdir
  rw [x2] at m2
  rw [m2] at hdir
  cases hdir
  rw [fsync_clean] at hdt
  cases hdt

theorem dur_evict {c : Cfg} {U : Name → Prop} {r : Repo} (h : Inv c U r) (hd : Dur c U r) {k : K} (hk : NoErr k) {id : Nat} (hid : id ∈ r.lruq) : Dur c U (evict c k r id) :=
  dur_evict_disk h.st h.bd hd hk hid

theorem dur_evictLast {c : Cfg} {U : Name → Prop} {k : K} (hk : NoErr k) : ∀ n (r : Repo), Inv c U r → Dur c U r → Dur c U (evictLast c k n r) := by
  intro n
  induction n with
  | zero => intro r _ h; exact h
  | succ n ih =>
    intro r hi h
    unfold evictLast
    cases hg : r.lruq.getLast? with
    | none => exact h
    | some id => exact ih _ (evict_less hi k id).inv (dur_evict hi h hk (List.mem_of_getLast? hg))

theorem dur_overpop {c : Cfg} {U : Name → Prop} {k : K} (hk : NoErr k) {r : Repo} (h : Inv c U r) (hd : Dur c U r) : Dur c U (overpop c k r) := by
  unfold overpop
  split
  · exact dur_evictLast hk _ _ h hd
  · exact hd

theorem dur_requeue {c : Cfg} {U : Name → Prop} {r : Repo} (h : Inv c U r) (hd : Dur c U r) {id : Nat} (hid : id ∈ r.lruq) : Dur c U (requeue r id) := by
  obtain ⟨a1, a2, a3, a4, _⟩ := requeue_inv h id hid
  unfold Dur
  rw [a3]
  refine hd.mono ?_
  rintro l ⟨x, x1, x2, x3⟩
  exact ⟨x, (a2 x).mpr x1, by rw [a4]; exact x2, by rw [a4]; exact x3⟩

theorem held_insert {c : Cfg} {U : Name → Prop} {r : Repo} (h : Struct c U r) (e : Ent) (d : Disk) (l : Lsid) (hl : Held r l) : Held (insert c r e d) l := by
  obtain ⟨x, x1, x2, x3⟩ := hl
  have hx : (insert c r e d).heap x = r.heap x := by
    rw [insert_heap, if_neg (fun e' => Nat.lt_irrefl _ (e' ▸ h.lt x x1))]
  exact ⟨x, List.mem_cons_of_mem _ x1, by rw [hx]; exact x2, by rw [hx]; exact x3⟩

theorem dur_insert {c : Cfg} {U : Name → Prop} {r : Repo} (h : Struct c U r) (e : Ent) {d : Disk} (hd : DurD c U d (Held r)) : Dur c U (insert c r e d) :=
  DurD.mono (d := d) hd (held_insert h e d)

theorem dur_fail {c : Cfg} {U : Name → Prop} {r : Repo} (h : Struct c U r) {k : K} (hk : NoErr k) (e : Ent) {d : Disk} (hd : DurD c U d (Held r)) :
    Dur c U (evict c k (insert c r e d) r.nent) := by
  obtain ⟨h1, h2, h3⟩ := insert_evict h k e d
  unfold Dur
  rw [h3]
  refine (hd.close hk e).mono ?_
  rintro l ⟨x, x1, x2, x3⟩
  have hx : (evict c k (insert c r e d) r.nent).heap x = r.heap x := by
    show (insert c r e d).heap x = _
    rw [insert_heap, if_neg (fun e' => Nat.lt_irrefl _ (e' ▸ h.lt x x1))]
  exact ⟨x, by rw [h2]; exact x1, by rw [hx]; exact x2, by rw [hx]; exact x3⟩

theorem dur_stageOf {c : Cfg} {U : Name → Prop} {r : Repo} (h : Inv c U r) (hd : Dur c U r) {k : K} (hk : NoErr k) (rw : Bool) (l : Lsid) (hU : U (.lseg l)) :
    Dur c U (stageOf c k r rw l).2.1 := by
  unfold stageOf
  cases e : lookup c r (.lseg l) with
  | some id => exact dur_requeue h hd (lookup_some h.st e).1
  | none =>
    dsimp only
    unfold openLseg
    have hl := overpop_less k r h
    have hkk : ∀ id, id ∈ (overpop c k r).lruq → ((overpop c k r).heap id).key ≠ .lseg l := by
      intro id hid
      rw [hl.heap]
      exact lookup_none h.st e id (hl.sub id hid)
    rcases openLsegOf_spec hl.inv k rw l hU hkk with ⟨en, q1, q2, _, q3⟩ | ⟨x, en, q1⟩
    · rw [q1]; exact dur_insert hl.inv.st _ (dur_overpop hk h hd)
    · rw [q1]; exact dur_fail hl.inv.st hk _ (dur_overpop hk h hd)

theorem dur_pstageOf {c : Cfg} {U : Name → Prop} {r : Repo} (h : Inv c U r) (hd : Dur c U r) {k : K} (hk : NoErr k) (p : Psid) :
    Dur c U (pstageOf c k r p).2.1 := by
  unfold pstageOf
  cases e : lookup c r (.pseg p) with
  | some id => exact dur_requeue h hd (lookup_some h.st e).1
  | none =>
    dsimp only
    have hl := overpop_less k r h
    have hf : Dur c U (evict c k (newEnt c (overpop c k r) (.pseg p)) (overpop c k r).nent) := by
      rw [newEnt_insert]; exact dur_fail hl.inv.st hk _ (dur_overpop hk h hd)
    cases hdd : (overpop c k r).disk.dir (pathOf c (.pseg p)) with
    | none => exact hf
    | some n =>
      dsimp only
      by_cases h1 : k.openf ≠ 0
      · rw [if_pos h1]; exact hf
      · rw [if_neg h1]
        dsimp only
        rw [setEnt_insert c (overpop c k r) (.pseg p) ⟨.pseg p, 0, some n, false⟩ rfl]
        exact dur_insert hl.inv.st _ (dur_overpop hk h hd)

theorem dur_stage {c : Cfg} {U : Name → Prop} {r : Repo} (h : Inv c U r) (hd : Dur c U r) {k : K} (hk : NoErr k) (rw : Bool) (l : Lsid) (hU : U (.lseg l)) :
    Dur c U (stage c k r rw l).2 := by
  unfold stage
  split
  · exact dur_stageOf h hd hk rw l hU
  · exact hd

theorem dur_spawn {c : Cfg} {U : Name → Prop} {r : Repo} (h : Inv c U r) (hd : Dur c U r) {k : K} (hk : NoErr k) (l : Lsid) (hU : U (.lseg l)) (hi : PathInj c U) :
    Dur c U (spawn c k r l).2 := by
  unfold spawn
  rcases checkOpen_cases r true with e | ⟨x, e⟩
  · rw [e]
    dsimp only
    cases hlk : lookup c r (.lseg l) with
    | some id => exact dur_requeue h hd (lookup_some h.st hlk).1
    | none =>
      dsimp only
      have hl := overpop_less k r h
      have ho := dur_overpop hk h hd
      unfold createLsegOf
      cases hdir : (overpop c k r).disk.dir (pathOf c (.lseg l)) with
      | some n =>
        have hdd : (newEnt c (overpop c k r) (.lseg l)).disk.dir (pathOf c (.lseg l)) = some n := hdir
        rw [hdd]
        dsimp only
        rw [newEnt_insert]; exact dur_fail hl.inv.st hk _ ho
      | none =>
        have hdd : (newEnt c (overpop c k r) (.lseg l)).disk.dir (pathOf c (.lseg l)) = none := hdir
        rw [hdd]
        dsimp only
        by_cases h1 : k.stat ≠ 0 ∧ k.stat ≠ ENOENT
        · rw [if_pos h1]; dsimp only; rw [newEnt_insert]; exact dur_fail hl.inv.st hk _ ho
        · rw [if_neg h1]
          by_cases h2 : k.openf ≠ 0
          · rw [if_pos h2]; dsimp only; rw [newEnt_insert]; exact dur_fail hl.inv.st hk _ ho
          · rw [if_neg h2]
            rw [creat_none hdd]
            dsimp only
            by_cases h3 : k.trunc ≠ 0
            · rw [if_pos h3]
              dsimp only
              exact dur_fail (r := overpop c k r) hl.inv.st hk ⟨.lseg l, 0, some (overpop c k r).disk.next, false⟩
                (d := (made (overpop c k r).disk (pathOf c (.lseg l))).unlink (pathOf c (.lseg l))) ((DurD.made ho _).unlink _)
            · rw [if_neg h3]
              dsimp only
              have hm : DurD c U (made (overpop c k r).disk (pathOf c (.lseg l))) (Held (insert c (overpop c k r) ⟨.lseg l, alignUp l.lsize, some (overpop c k r).disk.next, false⟩ (overpop c k r).disk)) :=
                (DurD.made ho _).mono (held_insert hl.inv.st _ _)
              refine DurD.modify_name (nm := .lseg l) hi (hl.inv.dk.made _) hm hU (made_dir _ _) ?_ _ false
              intro l' e'
              cases e'
              refine ⟨(overpop c k r).nent, List.mem_cons_self, ?_, ?_⟩ <;> rw [insert_heap, if_pos rfl]
  · rw [e]; exact hd

theorem dur_requireSize {c : Cfg} {U : Name → Prop} (hi : PathInj c U) {r : Repo} (h : Inv c U r) (hd : Dur c U r) (k : K) (l : Lsid) (hU : U (.lseg l)) {id : Nat}
    (hid : id ∈ r.lruq) (hkey : (r.heap id).key = .lseg l) (off len : Nat) : Dur c U (requireSize k r id l off len).2 := by
  unfold requireSize
  split
  · exact hd
  · split
    · by_cases h1 : (r.heap id).rdonly = true
      · rw [if_pos h1]; exact hd
      · rw [if_neg h1]
        obtain ⟨n, b1, b2, _⟩ := h.bd id hid
        rw [b1]
        dsimp only
        by_cases h2 : k.trunc ≠ 0
        · rw [if_pos h2]; exact hd
        · rw [if_neg h2]
          rw [hkey] at b2
          have hm := DurD.modify_name (nm := .lseg l) hi h.dk hd hU b2 (fun l' e => by cases e; exact ⟨id, hid, hkey, by simpa using h1⟩)
            (truncFile (r.disk.node n).cur (alignUp (max (off + len) (nextLbk off)))) (r.disk.node n).blocks
          refine DurD.mono (d := r.disk.modify n (truncFile (r.disk.node n).cur (alignUp (max (off + len) (nextLbk off)))) (r.disk.node n).blocks) hm ?_
          rintro l' ⟨x, x1, x2, x3⟩
          refine ⟨x, x1, ?_, ?_⟩
          · show (if x = id then _ else r.heap x).key = _
            split
            · rename_i hx; subst hx; exact x2
            · exact x2
          · show (if x = id then _ else r.heap x).rdonly = _
            split
            · rename_i hx; subst hx; exact x3
            · exact x3
    · exact hd

theorem dur_write {c : Cfg} {U : Name → Prop} (hi : PathInj c U) {r : Repo} (h : Inv c U r) (hd : Dur c U r) {k : K} (hk : NoErr k) (l : Lsid) (hU : U (.lseg l)) (pos : Nat)
    (bufs : List (List Nat)) : Dur c U (write c k r l pos bufs).2 := by
  unfold write
  split
  · have s := stageOf_spec h k true l hU
    have ds := dur_stageOf h hd hk true l hU
    cases hst : stageOf c k r true l with
    | mk res rest =>
    obtain ⟨r1, id⟩ := rest
    rw [hst] at s ds
    dsimp only at s ds ⊢
    cases res with
    | undef => exact ds
    | err x => exact ds
    | ok =>
      dsimp only
      obtain ⟨f1, f2⟩ := s.found rfl
      obtain ⟨n, b1, b2, b3, b4⟩ := s.file
      unfold writeEnt
      have dq := dur_requireSize hi s.mild.inv ds k l hU f1 f2 pos bufs.flatten.length
      have q := requireSize_spec hi s.mild.inv k l hU id n f1 f2 b1 b2 (b4 l rfl) pos bufs.flatten.length
      cases hrq : requireSize k r1 id l pos bufs.flatten.length with
      | mk res r2 =>
      rw [hrq] at dq q
      dsimp only at dq q ⊢
      cases res with
      | undef => exact dq
      | err x => exact dq
      | ok =>
        dsimp only
        rcases q with ⟨q0, qe⟩ | ⟨_, qe, ro⟩
        · cases qe
        · cases qe
          split
          · rw [ro.fd]
            dsimp only
            by_cases h1 : (r2.heap id).rdonly = true
            · rw [if_pos h1]; exact dq
            · rw [if_neg h1]
              have hH : ∀ l', Name.lseg l = .lseg l' → Held r2 l' := fun l' e => by
                cases e; exact ⟨id, ro.mem, ro.key, by simpa using h1⟩
              split
              · exact DurD.modify_name (nm := .lseg l) hi ro.inv.dk dq hU ro.dir hH _ true
              · exact DurD.modify_name (nm := .lseg l) hi ro.inv.dk dq hU ro.dir hH _ true
          · exact dq
  · exact hd

theorem dur_requireLaddr {c : Cfg} {U : Name → Prop} (hi : PathInj c U) {r : Repo} (h : Inv c U r) (hd : Dur c U r) {k : K} (hk : NoErr k) (l : Lsid) (hU : U (.lseg l)) (pos len : Nat) :
    Dur c U (requireLaddr c k r l pos len).2 := by
  unfold requireLaddr
  split
  · have s := stageOf_spec h k true l hU
    have ds := dur_stageOf h hd hk true l hU
    cases hst : stageOf c k r true l with
    | mk res rest =>
    obtain ⟨r1, id⟩ := rest
    rw [hst] at s ds
    dsimp only at s ds ⊢
    cases res with
    | undef => exact ds
    | err x => exact ds
    | ok =>
      obtain ⟨f1, f2⟩ := s.found rfl
      exact dur_requireSize hi s.mild.inv ds k l hU f1 f2 pos len
  · exact hd

theorem dur_require {c : Cfg} {U : Name → Prop} (hi : PathInj c U) {r : Repo} (h : Inv c U r) (hd : Dur c U r) {k : K} (hk : NoErr k) (l : Lsid) (hU : U (.lseg l)) :
    Dur c U (requireLseg c k r l).2 := by
  unfold requireLseg
  split
  · exact dur_stage h hd hk true l hU
  · split
    · have ds := dur_spawn h hd hk l hU hi
      have si : Inv c U (spawn c k r l).2 := by
        rcases spawn_spec hi h k l hU with ⟨q, _⟩ | ⟨_, q, _⟩ | ⟨_, _, q, _⟩
        · exact q.inv
        · exact q.inv
        · exact q
      cases hsp : spawn c k r l with
      | mk res r1 =>
      rw [hsp] at ds si
      cases res with
      | ok => exact dur_stage si ds hk true l hU
      | err x => exact ds
      | undef => exact ds
    · exact hd
  · exact hd

theorem dur_remove {c : Cfg} {U : Name → Prop} (hi : PathInj c U) {r : Repo} (h : Inv c U r) (hd : Dur c U r) {k : K} (hk : NoErr k) (l : Lsid) (hU : U (.lseg l)) :
    Dur c U (remove c k r l).2 := by
  unfold remove
  split
  · cases hdir : r.disk.dir (pathOf c (.lseg l)) with
    | none => exact hd
    | some n =>
      dsimp only
      split
      · exact hd
      · split
        · exact hd
        · cases hlk : lookup c r (.lseg l) with
          | none => exact DurD.unlink hd _
          | some id =>
            dsimp only
            obtain ⟨a1, a2⟩ := lookup_some h.st hlk
            -- the name is gone: what was held for it no longer matters
            have hu : DurD c U (r.disk.unlink (pathOf c (.lseg l))) (Held r) := DurD.unlink hd _
            have hcl := hu.close hk (r.heap id)
            refine ⟨hcl.clean, ?_⟩
            intro l' m hU' hd' hm
            have hd2 : (closeEnt k (r.disk.unlink (pathOf c (.lseg l))) (r.heap id)).dir (pathOf c (.lseg l')) = some m := hd'
            obtain ⟨x, x1, x2, x3⟩ := hcl.held l' m hU' hd' hm
            refine ⟨x, ?_, x2, x3⟩
            show x ∈ r.lruq.erase id
            rw [h.st.nodup.mem_erase_iff]
            refine ⟨?_, x1⟩
            intro e
            subst e
            rw [(same_close k _ _).dir] at hd2
            have e2 : Name.lseg l' = .lseg l := x2.symm.trans a2
            rw [e2] at hd2
            have : (if pathOf c (.lseg l) = pathOf c (.lseg l) then none else r.disk.dir (pathOf c (.lseg l))) = some m := hd2
            rw [if_pos rfl] at this
            cases this
  · exact hd

theorem dur_punch {c : Cfg} {U : Name → Prop} (hi : PathInj c U) {r : Repo} (h : Inv c U r) (hd : Dur c U r) {k : K} (hk : NoErr k) (l : Lsid) (hU : U (.lseg l)) :
    Dur c U (punch c k r l).2 := by
  unfold punch
  split
  · have s := stageOf_spec h k true l hU
    have ds := dur_stageOf h hd hk true l hU
    cases hst : stageOf c k r true l with
    | mk res rest =>
    obtain ⟨r1, id⟩ := rest
    rw [hst] at s ds
    dsimp only at s ds ⊢
    cases res with
    | undef => exact ds
    | err x => exact ds
    | ok =>
      dsimp only
      obtain ⟨f1, f2⟩ := s.found rfl
      obtain ⟨n, b1, b2, b3, _⟩ := s.file
      rw [b1]
      dsimp only
      unfold punchEnt
      split
      · exact ds
      · split
        · exact ds
        · by_cases h1 : (r1.heap id).rdonly = true
          · rw [if_pos h1]; exact ds
          · rw [if_neg h1]
            have hm : ∀ f b, Dur c U { r1 with disk := r1.disk.modify n f b } := fun f b =>
              DurD.modify_name (nm := .lseg l) hi s.mild.inv.dk ds hU b2 (fun l' e => by cases e; exact ⟨id, f1, f2, by simpa using h1⟩) f b
            split
            · exact hm _ _
            · split
              · exact ds
              · split
                · exact ds
                · split
                  · exact hm _ _
                  · exact hm _ _
  · exact hd

theorem dur_save {c : Cfg} {U : Name → Prop} (hi : PathInj c U) {r : Repo} (h : Inv c U r) (hd : Dur c U r) {k : K} (hk : NoErr k) (nm : Name) (hU : U nm)
    (hn1 : ∀ l, nm ≠ .lseg l) (l : List Nat) : Dur c U (saveObj c k r nm l).2 := by
  unfold saveObj
  by_cases h1 : k.openf ≠ 0
  · rw [if_pos h1]; exact hd
  · rw [if_neg h1]
    obtain ⟨d1, n, hoc, hdk, hdir, hdur⟩ : ∃ d1 n, r.disk.openCreat (pathOf c nm) = (d1, n) ∧ DOk d1 ∧ d1.dir (pathOf c nm) = some n ∧ DurD c U d1 (Held r) := by
      cases hdd : r.disk.dir (pathOf c nm) with
      | some n => exact ⟨r.disk, n, openCreat_some hdd, h.dk, hdd, hd⟩
      | none => exact ⟨_, _, openCreat_none hdd, h.dk.made _, made_dir _ _, DurD.made hd _⟩
    rw [hoc]
    dsimp only
    by_cases h2 : l = []
    · rw [if_pos h2]; exact hdur
    · rw [if_neg h2]
      have hm : ∀ f b, DurD c U (d1.modify n f b) (Held r) := fun f b => DurD.modify_name hi hdk hdur hU hdir (fun l' e => absurd e (hn1 l')) f b
      cases hp : pwriten (d1.node n).cur l 0 k.data with
      | mk res f =>
      cases res with
      | ok => dsimp only; rw [hk]; exact (hm _ _).fsync _
      | err x => exact hm _ _
      | undef => exact hm _ _

/-- Operations on a segment of the physical store once it is there. -/
theorem dur_pseg {c : Cfg} {U : Name → Prop} {r : Repo} (h : Inv c U r) (hd : Dur c U r) {k : K} (hk : NoErr k) (p : Psid) (hU : U (.pseg p))
    (F : Repo → Nat → Nat → Res × Repo) (G : Res × Repo → Repo)
    (hF : ∀ r1 id n, Inv c U r1 → Dur c U r1 → id ∈ r1.lruq → (r1.heap id).key = .pseg p → r1.disk.dir (pathOf c (.pseg p)) = some n → Dur c U (G (F r1 id n)))
    (hG : ∀ e r1, Dur c U r1 → Dur c U (G (e, r1))) :
    Dur c U (G (match pstageOf c k r p with
      | (.ok, r1, id) =>
        match (r1.heap id).fd with
        | none => (.err EBADF, r1)
        | some n => F r1 id n
      | (e, r1, _) => (e, r1))) := by
  have s := pstageOf_spec h k p hU
  have ds := dur_pstageOf h hd hk p
  cases hst : pstageOf c k r p with
  | mk res rest =>
  obtain ⟨r1, id⟩ := rest
  rw [hst] at s ds
  dsimp only at s ds ⊢
  cases res with
  | undef => exact hG _ _ ds
  | err x => exact hG _ _ ds
  | ok =>
    dsimp only
    obtain ⟨f1, f2⟩ := s.found rfl
    obtain ⟨n, b1, b2, b3, _⟩ := s.file
    rw [b1]
    exact hF r1 id n s.mild.inv ds f1 f2 b2

theorem dur_psave {c : Cfg} {U : Name → Prop} (hi : PathInj c U) {r : Repo} (h : Inv c U r) (hd : Dur c U r) {k : K} (hk : NoErr k) (p : Psid) (hU : U (.pseg p)) (off : Nat) (l : List Nat) :
    Dur c U (psave c k r p off l).2 := by
  unfold psave
  split
  · split
    · refine dur_pseg h hd hk p hU (fun r1 id n => ((pwriten (r1.disk.node n).cur l off k.data).1,
        { r1 with disk := r1.disk.modify n (pwriten (r1.disk.node n).cur l off k.data).2 true })) (·.2) ?_ (fun _ _ h => h)
      intro r1 id n i1 d1 _ _ b2
      exact DurD.modify_name hi i1.dk d1 hU b2 (fun l' e => by cases e) _ _
    · exact hd
  · exact hd

theorem dur_pflush {c : Cfg} {U : Name → Prop} {r : Repo} (h : Inv c U r) (hd : Dur c U r) {k : K} (hk : NoErr k) (p : Psid) (hU : U (.pseg p)) :
    Dur c U (pflush c k r p).2 := by
  unfold pflush
  split
  · split
    · refine dur_pseg h hd hk p hU (fun r1 id n => (if k.sync n ≠ 0 then .err (k.sync n) else .ok, { r1 with disk := r1.disk.fsync n (k.sync n) })) (·.2) ?_ (fun _ _ h => h)
      intro r1 id n i1 d1 _ _ b2
      show DurD c U (r1.disk.fsync n (k.sync n)) (Held r1)
      rw [hk]; exact DurD.fsync d1 _
    · exact hd
  · exact hd

theorem dur_premove {c : Cfg} {U : Name → Prop} (hi : PathInj c U) {r : Repo} (h : Inv c U r) (hd : Dur c U r) {k : K} (hk : NoErr k) (p : Psid) (hU : U (.pseg p)) :
    Dur c U (premove c k r p).2 := by
  unfold premove
  split
  · split
    · refine dur_pseg h hd hk p hU (fun r1 id n =>
          if k.trunc ≠ 0 then (.err k.trunc, r1)
          else if k.unlink ≠ 0 then (.err k.unlink, { r1 with disk := r1.disk.modify n (truncFile (r1.disk.node n).cur 0) false })
          else (.ok, evict c k { r1 with disk := (r1.disk.modify n (truncFile (r1.disk.node n).cur 0) false).unlink (pathOf c (.pseg p)) } id)) (·.2) ?_ (fun _ _ h => h)
      intro r1 id n i1 d1 m1 m2 b2
      have hm : DurD c U (r1.disk.modify n (truncFile (r1.disk.node n).cur 0) false) (Held r1) :=
        DurD.modify_name hi i1.dk d1 hU b2 (fun l' e => by cases e) _ _
      split
      · exact d1
      · split
        · exact hm
        · have hcl := (hm.unlink (pathOf c (.pseg p))).close hk (r1.heap id)
          refine hcl.mono ?_
          rintro l' ⟨x, x1, x2, x3⟩
          refine ⟨x, ?_, x2, x3⟩
          show x ∈ r1.lruq.erase id
          rw [i1.st.nodup.mem_erase_iff]
          refine ⟨?_, x1⟩
          intro e
          subst e
          rw [m2] at x2
          cases x2
    · exact hd
  · exact hd

theorem dur_pload {c : Cfg} {U : Name → Prop} {r : Repo} (h : Inv c U r) (hd : Dur c U r) {k : K} (hk : NoErr k) (p : Psid) (off len : Nat) :
    Dur c U (pload c k r p off len).2.2 := by
  unfold pload
  split
  · split
    · have ds := dur_pstageOf h hd hk p
      cases hst : pstageOf c k r p with
      | mk res rest =>
      obtain ⟨r1, id⟩ := rest
      rw [hst] at ds
      cases res with
      | ok => dsimp only; split <;> exact ds
      | err x => exact ds
      | undef => exact ds
    · exact hd
  · exact hd

theorem dur_read {c : Cfg} {U : Name → Prop} {r : Repo} (h : Inv c U r) (hd : Dur c U r) {k : K} (hk : NoErr k) (l : Lsid) (hU : U (.lseg l)) (pos len : Nat) :
    Dur c U (read c k r l pos len).2.2 := by
  unfold read
  split
  · have ds := dur_stageOf h hd hk false l hU
    cases hst : stageOf c k r false l with
    | mk res rest =>
    obtain ⟨r1, id⟩ := rest
    rw [hst] at ds
    cases res with
    | ok => exact ds
    | err x => exact ds
    | undef => exact ds
  · exact hd

theorem dur_pcreate {c : Cfg} {U : Name → Prop} (hi : PathInj c U) {r : Repo} (h : Inv c U r) (hd : Dur c U r) {k : K} (hk : NoErr k) (p : Psid) (hU : U (.pseg p)) :
    Dur c U (pcreate c k r p).2 := by
  unfold pcreate
  have hl := overpop_less k r h
  have ho := dur_overpop hk h hd
  split
  · split
    · exact hd
    · split
      · exact hd
      · split
        · rw [newEnt_insert]; exact dur_fail hl.inv.st hk _ ho
        · have hcr : DurD c U ((overpop c k r).disk.creat (pathOf c (.pseg p))).1 (Held (overpop c k r)) := by
            cases hdir : (overpop c k r).disk.dir (pathOf c (.pseg p)) with
            | none => rw [creat_none hdir]; exact DurD.made ho _
            | some n =>
              unfold Disk.creat
              rw [hdir]
              exact DurD.modify_name hi hl.inv.dk ho hU hdir (fun l' e => by cases e) _ _
          exact dur_insert (r := overpop c k r) hl.inv.st ⟨.pseg p, 0, some ((overpop c k r).disk.creat (pathOf c (.pseg p))).2, false⟩ hcr
    · exact hd
  · exact hd

/-! ### Storing everything -/

theorem fsyncEnt_dur {c : Cfg} {U : Name → Prop} {H : Lsid → Prop} {d : Disk} (h : DurD c U d H) {k : K} {e : Ent} (h0 : (fsyncEnt k d e).1 = 0) :
    DurD c U (fsyncEnt k d e).2 H := by
  unfold fsyncEnt at h0 ⊢
  split
  · split
    · exact h
    · rename_i l n e1 e2 hr
      rw [e1, e2] at h0
      dsimp only at h0 ⊢
      rw [if_neg hr] at h0
      dsimp only at h0
      rw [h0]; exact h.fsync _
  · rename_i l n e1 e2
    rw [e1, e2] at h0
    dsimp only at h0 ⊢
    rw [h0]; exact h.fsync _
  · exact h

theorem fsyncList_ret (k : K) (heap : Nat → Ent) : ∀ ids ret d, ret ≠ 0 → (fsyncList k heap ids ret d).1 ≠ 0 := by
  intro ids
  induction ids with
  | nil => intro ret d h; exact h
  | cons id ids ih =>
    intro ret d h
    unfold fsyncList
    apply ih
    rw [if_pos (Or.inr h)]
    simp

theorem fsyncList_cons0 {k : K} {heap : Nat → Ent} {id : Nat} {ids : List Nat} {d : Disk} (h : (fsyncList k heap (id :: ids) 0 d).1 = 0) :
    (fsyncEnt k d (heap id)).1 = 0 ∧ (fsyncList k heap (id :: ids) 0 d) = (fsyncList k heap ids 0 (fsyncEnt k d (heap id)).2) := by
  have e : fsyncList k heap (id :: ids) 0 d = fsyncList k heap ids (if (fsyncEnt k d (heap id)).1 ≠ 0 ∨ 0 ≠ 0 then 1 else 0) (fsyncEnt k d (heap id)).2 := rfl
  by_cases h0 : (fsyncEnt k d (heap id)).1 = 0
  · rw [if_neg (by simp [h0])] at e
    exact ⟨h0, e⟩
  · rw [if_pos (Or.inl h0)] at e
    rw [e] at h
    exact absurd h (fsyncList_ret _ _ _ _ _ (by simp))

theorem fsyncList_dur {c : Cfg} {U : Name → Prop} {H : Lsid → Prop} {k : K} {heap : Nat → Ent} : ∀ ids d, DurD c U d H → (fsyncList k heap ids 0 d).1 = 0 →
    DurD c U (fsyncList k heap ids 0 d).2 H := by
  intro ids
  induction ids with
  | nil => intro d h _; exact h
  | cons id ids ih =>
    intro d h h0
    obtain ⟨a, b⟩ := fsyncList_cons0 h0
    rw [b] at h0 ⊢
    exact ih _ (fsyncEnt_dur h a) h0

theorem fsyncEnt_dirty {k : K} {d : Disk} {e : Ent} (h0 : (fsyncEnt k d e).1 = 0) (n : Nat) (h : ((fsyncEnt k d e).2.node n).dirty = true) : (d.node n).dirty = true := by
  unfold fsyncEnt at h0 h
  split at h
  · split at h
    · exact h
    · rename_i l m e1 e2 hr
      rw [e1, e2] at h0
      dsimp only at h0 h
      rw [if_neg hr] at h0
      dsimp only at h0
      rw [h0] at h; exact fsync_dirty _ _ _ h
  · rename_i l m e1 e2
    rw [e1, e2] at h0
    dsimp only at h0 h
    rw [h0] at h; exact fsync_dirty _ _ _ h
  · exact h

theorem fsyncList_dirty {k : K} {heap : Nat → Ent} (n : Nat) : ∀ ids d, (fsyncList k heap ids 0 d).1 = 0 →
    ((fsyncList k heap ids 0 d).2.node n).dirty = true → (d.node n).dirty = true := by
  intro ids
  induction ids with
  | nil => intro d _ h; exact h
  | cons id ids ih =>
    intro d h0 h
    obtain ⟨a, b⟩ := fsyncList_cons0 h0
    rw [b] at h0 h
    exact fsyncEnt_dirty a n (ih _ h0 h)

/-- Everything open for writing is stored. -/
theorem fsyncList_stores {k : K} {heap : Nat → Ent} {id : Nat} {l : Lsid} {n : Nat} (hk : (heap id).key = .lseg l) (hf : (heap id).fd = some n)
    (hr : (heap id).rdonly = false) : ∀ ids d, id ∈ ids → (fsyncList k heap ids 0 d).1 = 0 → ((fsyncList k heap ids 0 d).2.node n).dirty = false := by
  intro ids
  induction ids with
  | nil => intro d hm; cases hm
  | cons x ids ih =>
    intro d hm h0
    obtain ⟨a, b⟩ := fsyncList_cons0 h0
    rw [b] at h0 ⊢
    rcases List.mem_cons.mp hm with rfl | hm
    · cases hd : ((fsyncList k heap ids 0 (fsyncEnt k d (heap id)).2).2.node n).dirty with
      | false => rfl
      | true =>
        have := fsyncList_dirty n ids _ h0 hd
        unfold fsyncEnt at this a
        rw [hk, hf] at this a
        dsimp only at this a
        rw [if_neg (by rw [hr]; simp)] at this a
        dsimp only at this a
        rw [a, fsync_clean] at this
        cases this
    · exact ih _ hm h0

/-! ### Executions -/

theorem noErr_list {k : K} (hk : NoErr k) (heap : Nat → Ent) : ∀ ids d, (fsyncList k heap ids 0 d).1 = 0 := by
  intro ids
  induction ids with
  | nil => intro d; rfl
  | cons id ids ih =>
    intro d
    have h0 : (fsyncEnt k d (heap id)).1 = 0 := by
      unfold fsyncEnt
      split
      · split
        · rfl
        · exact hk _
      · exact hk _
      · rfl
    unfold fsyncList
    rw [if_neg (by simp [h0])]
    exact ih _

theorem dur_sync {c : Cfg} {U : Name → Prop} {r : Repo} (hd : Dur c U r) {k : K} (h0 : (fsyncAll k r).1 = 0) : Dur c U (fsyncAll k r).2 :=
  fsyncList_dur _ _ hd h0

theorem dur_step {c : Cfg} {U : Name → Prop} (hi : PathInj c U) {r : Repo} (h : Inv c U r) (hd : Dur c U r) {k : K} (hk : NoErr k) (op : Op) (hw : WellFormed U k op) :
    Dur c U (step c r k op).2 := by
  obtain ⟨hU, _, _, hw⟩ := hw
  cases op with
  | spawn l => exact dur_spawn h hd hk l (hU _ rfl) hi
  | stage rw l => exact dur_stage h hd hk rw l (hU _ rfl)
  | stat cache l => exact hd
  | remove l => exact dur_remove hi h hd hk l (hU _ rfl)
  | punch l => exact dur_punch hi h hd hk l (hU _ rfl)
  | require l => exact dur_require hi h hd hk l (hU _ rfl)
  | requireAt l pos len => exact dur_requireLaddr hi h hd hk l (hU _ rfl) pos len
  | write l pos bufs => exact dur_write hi h hd hk l (hU _ rfl) pos bufs
  | read l pos len => exact dur_read h hd hk l (hU _ rfl) pos len
  | save nm l => exact dur_save hi h hd hk nm (hU _ rfl) hw.1 l
  | load nm len => exact hd
  | unlink nm =>
    show Dur c U (unlinkObj c k r nm).2
    unfold unlinkObj
    split
    · exact hd
    · split
      · exact hd
      · exact DurD.unlink hd _
  | size nm => exact hd
  | pcreate p => exact dur_pcreate hi h hd hk p (hU _ rfl)
  | pstage p =>
    show Dur c U (pstage c k r p).2
    unfold pstage
    split
    · split
      · exact dur_pstageOf h hd hk p
      · exact hd
    · exact hd
  | psave p off l => exact dur_psave hi h hd hk p (hU _ rfl) off l
  | pload p off len => exact dur_pload h hd hk p off len
  | premove p => exact dur_premove hi h hd hk p (hU _ rfl)
  | pflush p => exact dur_pflush h hd hk p (hU _ rfl)
  | relax => exact dur_evictLast hk _ _ h hd
  | drop => exact dur_evictLast hk _ _ (fsyncAll_mild h k).inv (dur_sync hd (noErr_list hk _ _ _))
  | sync => exact dur_sync hd (noErr_list hk _ _ _)

theorem dur_run {c : Cfg} {U : Name → Prop} (hi : PathInj c U) : ∀ (xs : List (K × Op)) {r : Repo}, Inv c U r → Dur c U r → AllWF U xs → (∀ x, x ∈ xs → NoErr x.1) →
    Dur c U (run c r xs).2 := by
  intro xs
  induction xs with
  | nil => intro r _ h _ _; exact h
  | cons x xs ih =>
    obtain ⟨k, op⟩ := x
    intro r h hd hw hk
    have hw0 := hw _ (List.mem_cons_self ..)
    exact ih (C54_step hi h k op hw0).1 (dur_step hi h hd (hk _ (List.mem_cons_self ..)) op hw0)
      (fun y hy => hw y (List.mem_cons_of_mem _ hy)) (fun y hy => hk y (List.mem_cons_of_mem _ hy))

/-- Everything in the host's file-system is on stable storage. -/
def Stable (d : Disk) : Prop := ∀ n, (d.node n).dirty = false ∧ (d.node n).stable = (d.node n).cur

theorem dur_fresh {c : Cfg} {U : Name → Prop} {d : Disk} {ro : Bool} (hs : Stable d) : Dur c U (fresh d ro) := by
  refine ⟨fun n _ => (hs n).2, ?_⟩
  intro l n _ _ hdt
  have : ((d.node n).dirty) = true := hdt
  rw [(hs n).1] at this
  cases this

/-- C54: when storing everything (`sync`) answers success, each segment of the volumes is on stable
storage as it is, wherever and whenever it was written and whether it is still cached or not.
Partial: provided that no earlier attempt to store failed (`C54_sync_violated`); segments of the
physical store need an explicit flush (`C54_sync_pseg_violated`). -/
theorem C54_sync_partial {c : Cfg} {U : Name → Prop} (hi : PathInj c U) {d : Disk} (hd : DOk d) (hs : Stable d) (ro : Bool) (xs : List (K × Op)) (hw : AllWF U xs)
    (hn : ∀ x, x ∈ xs → NoErr x.1) (k : K) (hok : (step c (run c (fresh d ro) xs).2 k .sync).1.res = .ok) (l : Lsid) (hU : U (.lseg l)) :
    stored c (step c (run c (fresh d ro) xs).2 k .sync).2.disk (.lseg l) = content c (run c (fresh d ro) xs).2.disk (.lseg l) := by
  have hinv := run_inv hi xs (fresh_inv U hd ro) hw
  have hdur : Dur c U (run c (fresh d ro) xs).2 := by
    exact dur_run hi xs (fresh_inv U hd ro) (dur_fresh hs) hw hn
  have hm := fsyncAll_mild hinv k
  generalize (run c (fresh d ro) xs).2 = r at *
  have h0 : (fsyncAll k r).1 = 0 := by
    by_cases h0 : (fsyncAll k r).1 = 0
    · exact h0
    · have e : (step c r k .sync).1.res = if (fsyncAll k r).1 = 0 then .ok else .err (fsyncAll k r).1 := rfl
      rw [e, if_neg h0] at hok
      cases hok
  have hds := dur_sync hdur h0
  show stored c (fsyncAll k r).2.disk (.lseg l) = _
  rw [← content_same hm.same]
  unfold stored content
  cases hdir : (fsyncAll k r).2.disk.dir (pathOf c (.lseg l)) with
  | none => rfl
  | some n =>
    show some _ = some _
    congr 1
    refine hds.clean n ?_
    cases hdt : ((fsyncAll k r).2.disk.node n).dirty with
    | false => rfl
    | true =>
      obtain ⟨id, i1, i2, i3⟩ := hds.held l n hU hdir hdt
      obtain ⟨m, m1, m2, _⟩ := hm.inv.bd id i1
      rw [i2] at m2
      rw [m2] at hdir
      cases hdir
      have := fsyncList_stores (k := k) (heap := r.heap) i2 m1 i3 r.lruq.reverse r.disk (List.mem_reverse.mpr i1) h0
      exact absurd (this.symm.trans hdt) (by simp)

/-- C54: an object saved as a whole is on stable storage when saving it answers success. -/
theorem C54_save_durable {c : Cfg} {r : Repo} (k : K) (nm : Name) (l : List Nat) (hl : l ≠ [])
    (hok : (step c r k (.save nm l)).1.res = .ok) :
    stored c (step c r k (.save nm l)).2.disk nm = content c (step c r k (.save nm l)).2.disk nm := by
  revert hok
  show (saveObj c k r nm l).1 = .ok → stored c (saveObj c k r nm l).2.disk nm = content c (saveObj c k r nm l).2.disk nm
  unfold saveObj
  by_cases h1 : k.openf ≠ 0
  · rw [if_pos h1]; intro e; cases e
  · rw [if_neg h1, if_neg hl]
    obtain ⟨d1, n, hoc, hdir⟩ : ∃ d1 n, r.disk.openCreat (pathOf c nm) = (d1, n) ∧ d1.dir (pathOf c nm) = some n := by
      cases hdd : r.disk.dir (pathOf c nm) with
      | some n => exact ⟨r.disk, n, openCreat_some hdd, hdd⟩
      | none => exact ⟨_, _, openCreat_none hdd, made_dir _ _⟩
    rw [hoc]
    dsimp only
    cases hp : pwriten (d1.node n).cur l 0 k.data with
    | mk res f =>
    cases res with
    | err x => intro e; cases e
    | undef => intro e; cases e
    | ok =>
      dsimp only
      by_cases h2 : k.sync n ≠ 0
      · rw [if_pos h2]; intro e; cases e
      · intro _
        have h2' : k.sync n = 0 := by omega
        rw [h2']
        unfold stored content
        rw [fsync_dir]
        have hdd : (d1.modify n f true).dir (pathOf c nm) = some n := hdir
        rw [hdd]
        show some _ = some _
        dsimp only
        rw [fsync_node]
        have hn : ((d1.modify n f true).node n).dirty = true := by rw [modify_node, if_pos rfl]
        rw [if_pos ⟨rfl, hn⟩]

theorem pflush_stores {c : Cfg} {U : Name → Prop} {r : Repo} (h : Inv c U r) (hd : Dur c U r) (k : K) (hk : NoErr k) (p : Psid) (hU : U (.pseg p))
    (hok : (step c r k (.pflush p)).1.res = .ok) :
    stored c (step c r k (.pflush p)).2.disk (.pseg p) = content c r.disk (.pseg p) := by
  revert hok
  show (pflush c k r p).1 = .ok → stored c (pflush c k r p).2.disk (.pseg p) = content c r.disk (.pseg p)
  unfold pflush
  rcases checkOpen_cases r true with e | ⟨x, e⟩
  · rw [e]
    dsimp only
    rcases hasPseg_cases h k p with ⟨e1, e2⟩ | ⟨e0, e1, _⟩
    · rw [e1]
      dsimp only
      have s := pstageOf_spec h k p hU
      have ds := dur_pstageOf h hd hk p
      cases hst : pstageOf c k r p with
      | mk res rest =>
      obtain ⟨r1, id⟩ := rest
      rw [hst] at s ds
      dsimp only at s ds ⊢
      cases res with
      | undef => intro e; cases e
      | err x => intro e; cases e
      | ok =>
        dsimp only
        obtain ⟨n, b1, b2, b3, _⟩ := s.file
        rw [b1]
        dsimp only
        rw [hk]
        intro _
        rw [b3]
        unfold stored
        rw [fsync_dir, b2]
        show some _ = some _
        congr 1
        refine ((DurD.fsync ds n).clean n (fsync_clean _ _)).trans ((same_fsync _ _ _).cur n)
    · rw [e1]; intro e; cases e
  · rw [e]; intro e; cases e

/-- C54: a segment of the physical store is on stable storage when flushing it answers success.
Partial: provided that no earlier attempt to store failed. -/
theorem C54_pflush_partial {c : Cfg} {U : Name → Prop} (hi : PathInj c U) {d : Disk} (hd : DOk d) (hs : Stable d) (ro : Bool) (xs : List (K × Op)) (hw : AllWF U xs)
    (hn : ∀ x, x ∈ xs → NoErr x.1) (k : K) (hk : NoErr k) (p : Psid) (hU : U (.pseg p)) (hok : (step c (run c (fresh d ro) xs).2 k (.pflush p)).1.res = .ok) :
    stored c (step c (run c (fresh d ro) xs).2 k (.pflush p)).2.disk (.pseg p) = content c (run c (fresh d ro) xs).2.disk (.pseg p) :=
  pflush_stores (run_inv hi xs (fresh_inv U hd ro) hw) (dur_run hi xs (fresh_inv U hd ro) (dur_fresh hs) hw hn) k hk p hU hok

end Silofs.Repo
