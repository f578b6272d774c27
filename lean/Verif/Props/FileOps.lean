/-
C01-C03: regular files behave as byte arrays, show no stale data, and are
independent of each other although they may share blocks.
-/
import Verif.Model.FileOps
import Verif.Props.FileDiscard
import Verif.Spec.FileBytes

set_option linter.unusedSimpArgs false
set_option linter.unusedVariables false

namespace Silofs.File
open FileSpec (AFile FS)

/-- What the user sees of a state. -/
def abs (s : St) : FS := fun f => ⟨(s.file f).size, byteAt s f⟩

/-- Invariant between requests: `Ok`, nothing but zeros beyond the file size, sizes
and mapped spans within the limit. -/
structure Inv (s : St) : Prop where
  ok : Ok s
  tail : ∀ f p, (s.file f).size ≤ p → byteAt s f p = 0
  size : ∀ f, (s.file f).size ≤ sizeMax
  span : ∀ f, (s.file f).span ≤ sizeMax

/-! ### Single operations -/

/-- Changing size and span only. -/
theorem Ok.setMeta {s : St} (h : Ok s) (f : Nat) (sz sp : Nat) :
    Ok (s.setFile f { s.file f with size := sz, span := sp }) := by
  have hleaf : ∀ f' k, ((s.setFile f { s.file f with size := sz, span := sp }).file f').leaf k =
      (s.file f').leaf k := by
    intro f' k
    by_cases hf : f' = f
    · subst hf; rw [setFile_same]
    · rw [setFile_other _ _ hf]
  refine ⟨h.late, fun f' => ?_, fun b => ?_, h.shw, fun f' k b hk ht => ?_,
    h.cnt_set rfl (h.cnt f)⟩
  · by_cases hf : f' = f
    · subst hf; rw [setFile_same]
      exact ⟨(h.wf f').root, (h.wf f').node, (h.wf f').leaf⟩
    · rw [setFile_other _ _ hf]; exact h.wf f'
  · obtain ⟨L, ⟨h1, h2⟩, h3⟩ := h.own b
    exact ⟨L, ⟨h1, fun f' k => by rw [hleaf]; exact h2 f' k⟩, h3⟩
  · rw [hleaf] at hk; exact h.head f' k b hk ht

theorem byteAt_setMeta (s : St) (f sz sp f' p : Nat) :
    byteAt (s.setFile f { s.file f with size := sz, span := sp }) f' p = byteAt s f' p := by
  unfold byteAt
  by_cases hf : f' = f
  · subst hf; rw [setFile_same, setFile_blk]; rfl
  · rw [setFile_other _ _ hf, setFile_blk]

theorem writeIter_wp {s : St} (h : Ok s) (f beg end_ : Nat) (dat : Nat → Nat) (sync : Bool)
    (hbe : beg ≤ end_) (hmax : end_ ≤ sizeMax + 1) :
    wp (writeIter f beg end_ dat sync)
      (fun _ s' => ∃ t, Rel f beg end_ dat s t ∧
        s' = t.setFile f { t.file f with size := max end_ (s.file f).size, span := max end_ (s.file f).span })
      (fun s' => ∃ q t, beg ≤ q ∧ q ≤ end_ ∧ Rel f beg q dat s t ∧
        s' = t.setFile f { t.file f with size := max q (s.file f).size, span := max q (s.file f).span }) s := by
  have hx : ∀ t, Prog f end_ dat { s with pos := beg } t → beg ≤ t.pos ∧ t.pos ≤ end_ ∧ Rel f beg t.pos dat s t ∧
      postWrite f t = t.setFile f { t.file f with
        size := max t.pos (s.file f).size, span := max t.pos (s.file f).span } := by
    intro t hp
    have hle : beg ≤ t.pos := hp.le
    have hhi : t.pos ≤ max beg end_ := hp.hi
    have hr : Rel f beg t.pos dat s t :=
      ⟨hp.rel.ok, hp.rel.upd, hp.rel.ft2, hp.rel.size, hp.rel.span⟩
    refine ⟨hle, by omega, hr, ?_⟩
    unfold postWrite
    rw [hr.size f, hr.span f]
  unfold writeIter
  refine wp_bind (wp_modS (wp_andThen (wp_bind ?_)))
  refine wp_mono (writeData_wp (s := { s with pos := beg }) hmax (h.setPos beg)) ?_ ?_
  · rintro _ t ⟨hp, hge⟩
    obtain ⟨q1, q2, q3, q4⟩ := hx t hp
    have hend : t.pos = end_ := by omega
    have hok : ∃ t', Rel f beg end_ dat s t' ∧ postWrite f t = t'.setFile f { t'.file f with
        size := max end_ (s.file f).size, span := max end_ (s.file f).span } :=
      ⟨t, hend ▸ q3, by rw [q4, hend]⟩
    have herr : ∃ q t', beg ≤ q ∧ q ≤ end_ ∧ Rel f beg q dat s t' ∧
        postWrite f t = t'.setFile f { t'.file f with
          size := max q (s.file f).size, span := max q (s.file f).span } :=
      ⟨t.pos, t, q1, q2, q3, q4⟩
    split
    · exact wp_chk hok herr
    · exact wp_pure hok
  · intro t hp
    obtain ⟨q1, q2, q3, q4⟩ := hx t hp
    exact ⟨t.pos, t, q1, q2, q3, q4⟩

/-- No leaf is mapped at or beyond the end that truncate computes. -/
theorem headsEnd_le {x : File} {p : Nat} (hx : x.ft2 = false) (hp : p < 65536)
    (hl : (x.leaf (keyOf false p)).isSome = true) : p < headsEnd x := by
  have top : ∀ (P : Nat → Bool) (n s : Nat), s < n → P s = true →
      ∃ m, (List.range n).reverse.find? P = some m ∧ s ≤ m := by
    intro P n
    induction n with
    | zero => intro s hs; omega
    | succ n ih =>
      intro s hs hP
      rw [List.range_succ, List.reverse_append]
      simp only [List.reverse_cons, List.reverse_nil, List.nil_append, List.singleton_append, List.find?_cons]
      by_cases hn : P n = true
      · exact ⟨n, by rw [hn], by omega⟩
      · have : P n = false := by simpa using hn
        rw [this]
        have hne : s ≠ n := by rintro rfl; exact hn hP
        exact ih s (by omega) hP
  unfold headsEnd
  rw [hx]
  simp only [Bool.false_eq_true, if_false]
  rcases keyOf_cases false p with ⟨hf, h1, hk⟩ | ⟨hf, h0, h1, hk⟩ | ⟨hf, hk⟩
  · rw [hk] at hl
    obtain ⟨m, hm, hle⟩ := top (fun s => (x.leaf (.h1 s)).isSome) 4 (p / 1024) (by omega) hl
    rw [hm]
    split
    · omega
    · simp only; omega
  · rw [hk] at hl
    obtain ⟨m, hm, hle⟩ := top (fun s => (x.leaf (.h2 s)).isSome) 15 ((p - 4096) / 4096) (by omega) hl
    rw [hm]
    simp only
    omega
  · rcases hf with hf | hf
    · cases hf
    · omega

theorem beyond_end_zero {s : St} (h : Ok s) {f p : Nat} (h1 : headsEnd (s.file f) ≤ p)
    (h2 : (s.file f).root ≠ 0 → spanOf (s.file f).root ≤ p) : byteAt s f p = 0 := by
  apply byteAt_none
  rcases hl : (s.file f).leaf (keyOf (s.file f).ft2 p) with _ | b
  · rfl
  · exfalso
    by_cases ht : (s.file f).ft2 = true ∨ 65536 ≤ p
    · rw [keyOf_tree ht] at hl
      obtain ⟨q1, q2, q3⟩ := (h.wf f).below ((h.wf f).leaf_node hl)
      have := h2 (by omega)
      rw [spanOf_cover (by omega) q2] at this
      omega
    · have hft : (s.file f).ft2 = false := by
        cases hh : (s.file f).ft2
        · rfl
        · exact absurd (.inl hh) ht
      rw [hft] at hl
      have := headsEnd_le hft (p := p) (by omega) (by rw [hl]; rfl)
      omega

/-- What is beyond `off` of file `f` may have become zero, no more. -/
structure Cut (f off : Nat) (s s' : St) : Prop where
  ok : Ok s'
  other : ∀ f', f' ≠ f → ∀ p, byteAt s' f' p = byteAt s f' p
  mine : ∀ p, byteAt s' f p = byteAt s f p ∨ (off ≤ p ∧ byteAt s' f p = 0)
  size : ∀ f', (s'.file f').size = (s.file f').size
  span : ∀ f', (s'.file f').span = (s.file f').span

theorem ZeroPart.cut {f end_ : Nat} {s s' : St} (h : ZeroPart f end_ s s') : Cut f s.pos s s' := by
  obtain ⟨q, q1, q2, q3⟩ := h
  refine ⟨q3.ok, fun f' hf p => ?_, fun p => ?_, q3.size, q3.span⟩
  · rw [q3.upd, if_neg (fun h => hf h.1)]
  · rw [q3.upd]
    split
    · rename_i hc; exact .inr ⟨hc.2.1, rfl⟩
    · exact .inl rfl

theorem Zap.cut {f : Nat} {s s' : St} (h : Zap f s s') : Cut f 0 s s' := by
  refine ⟨h.ok, fun f' hf p => (h.other f' hf).2 p, fun p => ?_, fun f' => ?_, fun f' => ?_⟩
  · rcases h.mine p with hh | hh
    · exact .inl hh
    · exact .inr ⟨Nat.zero_le _, hh⟩
  · by_cases hf : f' = f
    · subst hf; exact h.size
    · rw [(h.other f' hf).1]
  · by_cases hf : f' = f
    · subst hf; exact h.span
    · rw [(h.other f' hf).1]

theorem truncate_wp {s : St} (h : Ok s) (f off : Nat) :
    wp (truncate f off)
      (fun _ s' => ∃ t, Ok t ∧ (∀ f' p, byteAt t f' p = if f' = f ∧ off ≤ p then 0 else byteAt s f' p) ∧
        (∀ f', (t.file f').size = (s.file f').size) ∧ (∀ f', (t.file f').span = (s.file f').span) ∧
        s' = t.setFile f { t.file f with size := off, span := off })
      (fun s' => Cut f off s s') s := by
  unfold truncate
  refine wp_bind (wp_modS (wp_bind (wp_getS ?_)))
  have h0 := h.setPos off
  have hsame : Cut f off s { s with pos := off } :=
    ⟨h0, fun _ _ _ => rfl, fun _ => .inl rfl, fun _ => rfl, fun _ => rfl⟩
  have htree : wp (treeEnd f) (fun e s' => s' = { s with pos := off } ∧
      ((s.file f).root ≠ 0 → spanOf (s.file f).root ≤ e)) (fun s' => s' = { s with pos := off })
      { s with pos := off } := by
    unfold treeEnd
    refine wp_bind (wp_getS ?_)
    split
    · rename_i hr
      exact wp_pure ⟨rfl, fun hh => absurd hr hh⟩
    · exact wp_bind (wp_chk (wp_pure ⟨rfl, fun _ => Nat.le_refl _⟩) rfl)
  refine wp_bind (wp_mono htree ?_ (fun s' e => e ▸ hsame))
  rintro tend s0 ⟨e, hte⟩
  subst e
  refine wp_bind (wp_mono (discardData_wp h0) ?_ ?_)
  · intro _ t1 hr
    generalize hE : max (max off (headsEnd ((⟨s.blk, s.file, off, s.pos2, s.late⟩ : St).file f))) tend = E at hr
    have hE' : off ≤ E ∧ headsEnd (s.file f) ≤ E ∧ tend ≤ E := by
      rw [← hE]
      refine ⟨?_, ?_, ?_⟩
      · exact Nat.le_trans (Nat.le_max_left _ _) (Nat.le_max_left _ _)
      · exact Nat.le_trans (Nat.le_max_right _ _) (Nat.le_max_left _ _)
      · exact Nat.le_max_right _ _
    have hupd : ∀ f' p, byteAt t1 f' p = if f' = f ∧ off ≤ p then 0 else byteAt s f' p := by
      intro f' p
      rw [hr.upd]
      show (if f' = f ∧ off ≤ p ∧ p < max off E then zeroB p else byteAt s f' p) = _
      by_cases hc : f' = f ∧ off ≤ p
      · rw [if_pos hc]
        by_cases hp : p < max off E
        · rw [if_pos ⟨hc.1, hc.2, hp⟩]; rfl
        · rw [if_neg (fun h => hp h.2.2), hc.1]
          exact beyond_end_zero h (by omega) (fun hne => Nat.le_trans (hte hne) (by omega))
      · rw [if_neg hc, if_neg (fun h => hc ⟨h.1, h.2.1⟩)]
    have hsz : ∀ f', (t1.file f').size = (s.file f').size := hr.size
    have hsp : ∀ f', (t1.file f').span = (s.file f').span := hr.span
    split
    · rename_i hoff
      subst hoff
      refine wp_bind (wp_mono (dropAll_wp hr.ok f) ?_ ?_)
      · rintro _ t2 ⟨z, nt, hl⟩
        refine wp_modS ⟨t2, z.ok, fun f' p => ?_, fun f' => ?_, fun f' => ?_, rfl⟩
        · by_cases hf : f' = f
          · subst hf
            rw [if_pos ⟨rfl, Nat.zero_le _⟩]
            exact byteAt_none (hl p)
          · rw [if_neg (fun h => hf h.1), (z.other f' hf).2 p, hupd, if_neg (fun h => hf h.1)]
        · rw [z.cut.size]; exact hsz f'
        · rw [z.cut.span]; exact hsp f'
      · intro t2 z
        refine ⟨z.ok, fun f' hf p => ?_, fun p => ?_, fun f' => ?_, fun f' => ?_⟩
        · rw [(z.other f' hf).2 p, hupd, if_neg (fun h => hf h.1)]
        · refine .inr ⟨Nat.zero_le _, ?_⟩
          rcases z.mine p with hm | hm
          · rw [hm, hupd, if_pos ⟨rfl, Nat.zero_le _⟩]
          · exact hm
        · rw [z.cut.size]; exact hsz f'
        · rw [z.cut.span]; exact hsp f'
    · exact wp_bind (wp_pure (wp_modS ⟨t1, hr.ok, hupd, hsz, hsp, rfl⟩))
  · intro t1 hz
    have hc := hz.cut
    exact ⟨hc.ok, hc.other, hc.mine, hc.size, hc.span⟩

theorem fallocate_wp {s : St} (h : Ok s) (f off end_ : Nat) (op : FlOp) (keep : Bool)
    (hmax : end_ ≤ sizeMax + 1) :
    wp (fallocate f off end_ op keep)
      (fun _ s' => ∃ t, Rel f off (if op = .reserve then off else max off end_) zeroB s t ∧
        s' = t.setFile f { t.file f with
          size := if keep then (s.file f).size else max end_ (s.file f).size
          span := max end_ (s.file f).span })
      (fun s' => ∃ q, off ≤ q ∧ q ≤ (if op = .reserve then off else max off end_) ∧ Rel f off q zeroB s s') s := by
  have h0 := h.setPos off
  have lift : ∀ {q : Nat} {t : St}, Rel f off q zeroB { s with pos := off } t → Rel f off q zeroB s t :=
    fun hr => ⟨hr.ok, hr.upd, hr.ft2, hr.size, hr.span⟩
  have hdisc : ∀ z, wp (discardData f end_ z)
      (fun _ s' => Rel f off (max off end_) zeroB s s')
      (fun s' => ∃ q, off ≤ q ∧ q ≤ max off end_ ∧ Rel f off q zeroB s s') { s with pos := off } := by
    intro z
    refine wp_mono (discardData_wp h0) (fun _ t hr => lift hr) ?_
    rintro t ⟨q, q1, q2, q3⟩
    exact ⟨q, q1, q2, lift q3⟩
  have fin : ∀ {q : Nat} {t : St}, Rel f off q zeroB s t →
      (∃ t', Rel f off q zeroB s t' ∧
        t.setFile f { t.file f with
          span := max end_ (t.file f).span
          size := if keep then (t.file f).size else max end_ (t.file f).size } =
        t'.setFile f { t'.file f with
          size := if keep then (s.file f).size else max end_ (s.file f).size
          span := max end_ (s.file f).span }) := by
    intro q t hr
    refine ⟨t, hr, ?_⟩
    rw [hr.size f, hr.span f]
  unfold fallocate
  refine wp_bind (wp_modS ?_)
  cases op with
  | reserve =>
    simp only [if_true]
    refine wp_bind (wp_mono (reserveHeads_wp (end_ + 1) { s with pos := off } h0 (by show end_ - off < _; omega)) ?_ ?_)
    · rintro _ t1 ⟨r1, l1, p1⟩
      refine wp_bind (wp_mono (reserveTree_wp hmax (end_ + 1) t1 r1.ok (by omega)
        (fun hlt => by rw [r1.ft2]; exact p1 hlt)) ?_ ?_)
      · intro _ t2 r2
        have : Rel f off off zeroB s t2 := lift (Rel.comp_same r1 (r2.of_same) (Nat.le_refl _))
        exact wp_modS (fin this)
      · intro t2 r2
        exact ⟨off, Nat.le_refl _, Nat.le_refl _, lift (Rel.comp_same r1 (r2.of_same) (Nat.le_refl _))⟩
    · intro t1 r1
      exact ⟨off, Nat.le_refl _, Nat.le_refl _, lift r1.of_same⟩
  | punch =>
    simp only [reduceCtorEq, if_false]
    exact wp_bind (wp_mono (hdisc false) (fun _ t hr => wp_modS (fin hr)) (fun _ h => h))
  | zero =>
    simp only [reduceCtorEq, if_false]
    exact wp_bind (wp_mono (hdisc true) (fun _ t hr => wp_modS (fin hr)) (fun _ h => h))

/-- A file is replaced by an empty one. -/
theorem Ok.emptyFile {s : St} (h : Ok s) (f : Nat) (ft2 : Bool) : Ok (s.setFile f { ft2 := ft2 }) := by
  have hleaf : ∀ f' k b, ((s.setFile f { ft2 := ft2 }).file f').leaf k = some b ↔
      f' ≠ f ∧ (s.file f').leaf k = some b := by
    intro f' k b
    by_cases hf : f' = f
    · subst hf; rw [setFile_same]; simp
    · rw [setFile_other _ _ hf]; simp [hf]
  refine ⟨h.late, fun f' => ?_, fun b => ?_, h.shw, fun f' k b hk ht => ?_,
    h.cnt_set rfl ⟨[], List.nodup_nil, by simp, rfl⟩⟩
  · by_cases hf : f' = f
    · subst hf; rw [setFile_same]
      exact ⟨.inl rfl, fun _ _ hn => by simp at hn, fun _ _ hl => by simp at hl⟩
    · rw [setFile_other _ _ hf]; exact h.wf f'
  · obtain ⟨L, ⟨h1, h2⟩, h3⟩ := h.own b
    refine ⟨L.filter (fun e => e.1 ≠ f), ⟨h1.filter _, fun f' k => ?_⟩,
      Nat.le_trans (List.length_filter_le _ _) h3⟩
    rw [hleaf, h2, List.mem_filter]
    simp [and_comm]
  · exact h.head f' k b ((hleaf f' k b).1 hk).2 ht

theorem byteAt_emptyFile (s : St) (f : Nat) (ft2 : Bool) (f' p : Nat) :
    byteAt (s.setFile f { ft2 := ft2 }) f' p = if f' = f then 0 else byteAt s f' p := by
  by_cases hf : f' = f
  · subst hf
    rw [if_pos rfl]
    apply byteAt_none
    rw [setFile_same]
  · rw [if_neg hf]
    unfold byteAt
    rw [setFile_other _ _ hf, setFile_blk]

/-! ### Requests -/

/-- The request as its user states it. -/
def FOp.spec : FOp → FileSpec.Op
  | .write off dat _ => .write off.toNat dat
  | .read off len => .read off.toNat len
  | .truncate off => .truncate off.toNat
  | .fallocate mode off len =>
    if mode.op = .reserve then .reserve off.toNat (off + len).toNat mode.keepSize
    else .zero off.toNat (off + len).toNat mode.keepSize
  | .recreate _ => .recreate

/-- The outcome as the user sees it. -/
def FRes.spec : FRes → FileSpec.Res
  | .ok d => .ok d
  | .failed _ => .failed
  | .rejected _ => .rejected

/-- Arguments a caller can pass: 64-bit offsets and lengths; a write has data. -/
def FOp.Arg : FOp → Prop
  | .write off dat _ => Off64 off ∧ dat.length < 2 ^ 64 ∧ dat ≠ []
  | .read off len => Off64 off ∧ len < 2 ^ 64
  | .truncate off => Off64 off
  | .fallocate _ off len => Off64 off ∧ Off64 len
  | .recreate _ => True

theorem Inv.init (raw : Nat → Nat → Nat) : Inv (St.init raw) := by
  refine ⟨⟨rfl, fun f => ⟨.inl rfl, fun _ _ hn => by simp [St.init] at hn, fun _ _ hl => by simp [St.init] at hl⟩,
    fun b => ⟨[], ⟨List.nodup_nil, fun f k => by simp [St.init]⟩, Nat.zero_le _⟩, fun b hb => by simp [St.init] at hb,
    fun f k b hk => by simp [St.init] at hk, fun f => ⟨[], List.nodup_nil, by simp [St.init], rfl⟩⟩, fun f p _ => rfl, fun f => Nat.zero_le _, fun f => Nat.zero_le _⟩

theorem afile_ext {a b : AFile} (h1 : a.size = b.size) (h2 : ∀ p, a.byte p = b.byte p) : a = b := by
  cases a; cases b
  simp only at h1 h2
  rw [h1, funext h2]

/-- Rebuild the invariant after an operation on `f`. -/
theorem Inv.after {s t : St} (h : Inv s) {f sz sp : Nat} (hok : Ok t)
    (ho : ∀ f', f' ≠ f → ∀ p, byteAt t f' p = byteAt s f' p)
    (hsz : ∀ f', (t.file f').size = (s.file f').size) (hsp : ∀ f', (t.file f').span = (s.file f').span)
    (ht : ∀ p, sz ≤ p → byteAt t f p = 0) (h1 : sz ≤ sizeMax) (h2 : sp ≤ sizeMax) :
    Inv (t.setFile f { t.file f with size := sz, span := sp }) ∧
    (∀ f', f' ≠ f → abs (t.setFile f { t.file f with size := sz, span := sp }) f' = abs s f') ∧
    (abs (t.setFile f { t.file f with size := sz, span := sp }) f).size = sz ∧
    ∀ p, (abs (t.setFile f { t.file f with size := sz, span := sp }) f).byte p = byteAt t f p := by
  refine ⟨⟨hok.setMeta f sz sp, fun f' p hp => ?_, fun f' => ?_, fun f' => ?_⟩, fun f' hf => ?_, ?_, fun p => ?_⟩
  · rw [byteAt_setMeta]
    by_cases hf : f' = f
    · subst hf; rw [setFile_same] at hp; exact ht p hp
    · rw [setFile_other _ _ hf, hsz] at hp
      rw [ho f' hf]; exact h.tail f' p hp
  · by_cases hf : f' = f
    · subst hf; rw [setFile_same]; exact h1
    · rw [setFile_other _ _ hf, hsz]; exact h.size f'
  · by_cases hf : f' = f
    · subst hf; rw [setFile_same]; exact h2
    · rw [setFile_other _ _ hf, hsp]; exact h.span f'
  · refine afile_ext ?_ (fun p => ?_)
    · show ((t.setFile f _).file f').size = _
      rw [setFile_other _ _ hf, hsz]; rfl
    · show byteAt (t.setFile f _) f' p = byteAt s f' p
      rw [byteAt_setMeta]; exact ho f' hf p
  · show ((t.setFile f _).file f).size = _
    rw [setFile_same]
  · exact byteAt_setMeta t f sz sp f p

theorem Cut.inv {s t : St} (h : Inv s) {f off : Nat} (hc : Cut f off s t) :
    Inv t ∧ (∀ f', f' ≠ f → abs t f' = abs s f') := by
  refine ⟨⟨hc.ok, fun f' p hp => ?_, fun f' => by rw [hc.size]; exact h.size f',
    fun f' => by rw [hc.span]; exact h.span f'⟩, fun f' hf => afile_ext (hc.size f') (fun p => hc.other f' hf p)⟩
  rw [hc.size] at hp
  have := h.tail f' p hp
  by_cases hf : f' = f
  · subst hf
    rcases hc.mine p with hm | hm
    · rw [hm]; exact this
    · exact hm.2
  · rw [hc.other f' hf]; exact this

theorem rel_cut {s t : St} {f off q : Nat} (hr : Rel f off q zeroB s t) : Cut f off s t := by
  refine ⟨hr.ok, fun f' hf p => by rw [hr.upd, if_neg (fun h => hf h.1)], fun p => ?_, hr.size, hr.span⟩
  rw [hr.upd]
  split
  · rename_i hh; exact .inr ⟨hh.2.1, rfl⟩
  · exact .inl rfl

theorem opt_or_none {α : Type} {a b : Option α} : a.or b = none ↔ a = none ∧ b = none := by
  cases a <;> cases b <;> simp

/-- C01 (and C03): one request, started in any state a file system can be in.  Its
effect on its file and its result are those of the byte-array specification; no
other file changes, whether or not it shares blocks with this one; a request that
the checks reject changes nothing. -/
theorem C01_request_partial {s : St} (h : Inv s) (f : Nat) (op : FOp) (harg : op.Arg) (o : List Ans) :
    Inv (op.run f s o).2 ∧
      FileSpec.Step (abs s) f op.spec (op.run f s o).1.spec (abs (op.run f s o).2) := by
  unfold FOp.run
  cases hchk : op.check (s.file f) with
  | some e => exact ⟨h, fun _ _ => rfl, rfl⟩
  | none =>
    simp only
    suffices hw : wp (op.exec f)
        (fun d s' => Inv s' ∧ FileSpec.Step (abs s) f op.spec (.ok d) (abs s'))
        (fun s' => Inv s' ∧ FileSpec.Step (abs s) f op.spec .failed (abs s')) s by
      have := hw o
      rcases hx : op.exec f s o with ⟨r | d, s', o'⟩ <;> rw [hx] at this <;> exact this
    cases op with
    | write off dat sync =>
      obtain ⟨a1, a2, a3⟩ := harg
      obtain ⟨c1, c2, c3⟩ := (C07_write (size := ((s.file f).size : Int)) a1 a2).1 hchk
      have hoff : off.toNat + dat.length ≤ sizeMax := by omega
      have hlen : 0 < dat.length := List.length_pos_iff.2 a3
      refine wp_bind (wp_mono (writeIter_wp h.ok f off.toNat (off.toNat + dat.length) _ sync (by omega) (by omega)) ?_ ?_)
      · rintro _ s' ⟨t, hr, e⟩
        subst e
        have hs := h.size f
        have hsp := h.span f
        obtain ⟨i1, i2, i3, i4⟩ := h.after (f := f) hr.ok
          (fun f' hf p => by rw [hr.upd, if_neg (fun h => hf h.1)]) hr.size hr.span
          (sz := max (off.toNat + dat.length) (s.file f).size)
          (sp := max (off.toNat + dat.length) (s.file f).span)
          (fun p hp => by rw [hr.upd, if_neg (by omega)]; exact h.tail f p (by omega)) (by omega) (by omega)
        refine wp_pure ⟨i1, i2, afile_ext ?_ (fun p => ?_), rfl⟩
        · rw [i3]; simp [FOp.spec, FileSpec.Op.apply, AFile.write, a3, abs]; omega
        · rw [i4, hr.upd]
          simp only [FOp.spec, FileSpec.Op.apply, AFile.write, a3, if_false, abs, true_and]
      · rintro s' ⟨q, t, q1, q2, hr, e⟩
        subst e
        have hs := h.size f
        have hsp := h.span f
        obtain ⟨i1, i2, i3, i4⟩ := h.after (f := f) hr.ok
          (fun f' hf p => by rw [hr.upd, if_neg (fun h => hf h.1)]) hr.size hr.span
          (sz := max q (s.file f).size) (sp := max q (s.file f).span)
          (fun p hp => by rw [hr.upd, if_neg (by omega)]; exact h.tail f p (by omega)) (by omega) (by omega)
        refine ⟨i1, i2, q - off.toNat, by omega, ?_, fun p => ?_⟩
        · rw [i3]; simp only [abs]; omega
        · rw [i4, hr.upd, show off.toNat + (q - off.toNat) = q by omega]
          simp only [abs, true_and]
    | read off len =>
      refine wp_mono (readIter_wp h.ok f off.toNat len) ?_ ?_
      · rintro d s' ⟨⟨q, e⟩, hd⟩
        subst e
        refine ⟨⟨h.ok.setPos q, h.tail, h.size, h.span⟩, fun _ _ => rfl, rfl, ?_⟩
        rw [hd]
        unfold bytesOf
        simp only [FOp.spec, FileSpec.Op.output, AFile.read, abs]
        rw [show min (off.toNat + len) (s.file f).size - off.toNat =
          min len ((s.file f).size - off.toNat) by omega]
      · rintro s' ⟨q, e⟩
        subst e
        exact ⟨⟨h.ok.setPos q, h.tail, h.size, h.span⟩, fun _ _ => rfl, rfl⟩
    | truncate off =>
      have hsp := h.span f
      obtain ⟨c1, c2⟩ := (C07_trunc (off := off) (span := ((s.file f).span : Int))
        (size := ((s.file f).size : Int)) (nopen := true) harg (by omega)).1 hchk
      refine wp_bind (wp_mono (truncate_wp h.ok f off.toNat) ?_ ?_)
      · rintro _ s' ⟨t, t1, t2, t3, t4, e⟩
        subst e
        obtain ⟨i1, i2, i3, i4⟩ := h.after (f := f) t1
          (fun f' hf p => by rw [t2, if_neg (fun h => hf h.1)]) t3 t4 (sz := off.toNat) (sp := off.toNat)
          (fun p hp => by rw [t2, if_pos ⟨rfl, hp⟩]) (by omega) (by omega)
        refine wp_pure ⟨i1, i2, afile_ext i3 (fun p => ?_), rfl⟩
        rw [i4, t2]
        simp only [FOp.spec, FileSpec.Op.apply, AFile.truncate, abs, true_and]
        by_cases hp : p < off.toNat
        · rw [if_pos hp, if_neg (by omega)]
        · rw [if_neg hp, if_pos (by omega)]
      · intro s' hc
        obtain ⟨i1, i2⟩ := hc.inv h
        exact ⟨i1, i2, hc.size f, hc.mine⟩
    | fallocate mode off len =>
      obtain ⟨a1, a2⟩ := harg
      have fspec : (FOp.fallocate mode off len).spec =
        if mode.op = .reserve then .reserve off.toNat (off + len).toNat mode.keepSize
        else .zero off.toNat (off + len).toNat mode.keepSize := rfl
      have hchk' := (opt_or_none.1 hchk).1
      obtain ⟨c1, c2, c3⟩ := (C07_falloc (size := ((s.file f).size : Int)) a1 a2).1 hchk'
      refine wp_bind (wp_mono (fallocate_wp h.ok f off.toNat (off + len).toNat mode.op mode.keepSize (by omega)) ?_ ?_)
      · rintro _ s' ⟨t, hr, e⟩
        subst e
        have hs := h.size f
        have hsp := h.span f
        obtain ⟨i1, i2, i3, i4⟩ := h.after (f := f) hr.ok
          (fun f' hf p => by rw [hr.upd, if_neg (fun h => hf h.1)]) hr.size hr.span
          (sz := if mode.keepSize then (s.file f).size else max (off + len).toNat (s.file f).size)
          (sp := max (off + len).toNat (s.file f).span)
          (fun p hp => by
            have hp' : (s.file f).size ≤ p := by split at hp <;> omega
            rw [hr.upd]
            generalize (if mode.op = .reserve then off.toNat else _) = z
            by_cases hc : f = f ∧ off.toNat ≤ p ∧ p < z
            · rw [if_pos hc]; rfl
            · rw [if_neg hc]; exact h.tail f p hp')
          (by split <;> omega) (by omega)
        refine wp_pure ⟨i1, i2, afile_ext ?_ (fun p => ?_), ?_⟩
        · rw [i3]
          rw [fspec]
          by_cases hop : mode.op = .reserve
          · rw [if_pos hop]
            cases hk : mode.keepSize <;> simp [FileSpec.Op.apply, AFile.extend, abs]; omega
          · rw [if_neg hop]
            cases hk : mode.keepSize <;> simp [FileSpec.Op.apply, AFile.zero, AFile.extend, abs]; omega
        · rw [i4, hr.upd]
          rw [fspec]
          by_cases hop : mode.op = .reserve
          · rw [if_pos hop, if_pos hop, if_neg (by omega)]
            cases hk : mode.keepSize <;> simp [FileSpec.Op.apply, AFile.zero, AFile.extend, abs]
          · rw [if_neg hop, if_neg hop, show max off.toNat (off + len).toNat = (off + len).toNat by omega]
            cases hk : mode.keepSize <;> simp [FileSpec.Op.apply, AFile.zero, AFile.extend, abs, zeroB]
        · rw [fspec]
          by_cases hop : mode.op = .reserve
          · rw [if_pos hop]; rfl
          · rw [if_neg hop]; rfl
      · rintro s' ⟨q, q1, q2, hr⟩
        have hc := rel_cut hr
        obtain ⟨i1, i2⟩ := hc.inv h
        refine ⟨i1, i2, ?_⟩
        rw [fspec]
        by_cases hop : mode.op = .reserve
        · rw [if_pos hop] at q2 ⊢
          refine afile_ext (hc.size f) (fun p => ?_)
          show byteAt s' f p = byteAt s f p
          rw [hr.upd, if_neg (by omega)]
        · rw [if_neg hop] at q2 ⊢
          refine ⟨hc.size f, fun p => ?_⟩
          show byteAt s' f p = byteAt s f p ∨ _ ∧ _ ∧ byteAt s' f p = 0
          rw [hr.upd]
          split
          · refine .inr ⟨by omega, by omega, rfl⟩
          · exact .inl rfl
    | recreate ft2 =>
      refine wp_bind (wp_mono (dropAll_wp h.ok f) ?_ ?_)
      · rintro _ t ⟨z, _, _⟩
        have hc := z.cut
        refine wp_bind (wp_modS (wp_pure ⟨⟨z.ok.emptyFile f ft2, fun f' p hp => ?_, fun f' => ?_, fun f' => ?_⟩,
          fun f' hf => afile_ext ?_ (fun p => ?_), afile_ext ?_ (fun p => ?_), rfl⟩))
        · rw [byteAt_emptyFile]
          split
          · rfl
          · rename_i hf
            rw [setFile_other _ _ hf, hc.size] at hp
            rw [hc.other f' hf]; exact h.tail f' p hp
        · by_cases hf : f' = f
          · subst hf; rw [setFile_same]; exact Nat.zero_le _
          · rw [setFile_other _ _ hf, hc.size]; exact h.size f'
        · by_cases hf : f' = f
          · subst hf; rw [setFile_same]; exact Nat.zero_le _
          · rw [setFile_other _ _ hf, hc.span]; exact h.span f'
        · show ((t.setFile f _).file f').size = _
          rw [setFile_other _ _ hf, hc.size]; rfl
        · show byteAt (t.setFile f _) f' p = byteAt s f' p
          rw [byteAt_emptyFile, if_neg hf]; exact hc.other f' hf p
        · show ((t.setFile f _).file f).size = _
          rw [setFile_same]; rfl
        · show byteAt (t.setFile f _) f p = _
          rw [byteAt_emptyFile, if_pos rfl]; rfl
      · intro t z
        have hc := z.cut
        obtain ⟨i1, i2⟩ := hc.inv h
        exact ⟨i1, i2, hc.size f, z.mine⟩

/-! ### Histories -/

/-- A history: requests with the answers of the environment. -/
abbrev History := List (Nat × FOp × List Ans)

/-- Run a history. -/
def runHist (s : St) : History → St
  | [] => s
  | (f, op, o) :: t => runHist (op.run f s o).2 t

/-- What the user saw of a history. -/
def traceOf (s : St) : History → List (Nat × FileSpec.Op × FileSpec.Res)
  | [] => []
  | (f, op, o) :: t => (f, op.spec, (op.run f s o).1.spec) :: traceOf (op.run f s o).2 t

theorem run_append {x y z : FS} {t u : List (Nat × FileSpec.Op × FileSpec.Res)}
    (h1 : FileSpec.Run x t y) (h2 : FileSpec.Run y u z) : FileSpec.Run x (t ++ u) z := by
  induction h2 with
  | nil => rw [List.append_nil]; exact h1
  | snoc _ hs ih => rw [← List.append_assoc]; exact ih.snoc hs

theorem hist_run {s : St} (h : Inv s) (t : History) (harg : ∀ e ∈ t, e.2.1.Arg) :
    Inv (runHist s t) ∧ FileSpec.Run (abs s) (traceOf s t) (abs (runHist s t)) := by
  induction t generalizing s with
  | nil => exact ⟨h, .nil _⟩
  | cons e t ih =>
    obtain ⟨f, op, o⟩ := e
    obtain ⟨i1, st⟩ := C01_request_partial h f op (harg (f, op, o) (by simp)) o
    obtain ⟨i2, r⟩ := ih i1 (fun e he => harg e (by simp [he]))
    refine ⟨i2, ?_⟩
    have h1 : FileSpec.Run (abs s) [(f, op.spec, (op.run f s o).1.spec)] (abs (op.run f s o).2) :=
      FileSpec.Run.snoc (.nil _) st
    exact run_append h1 r

/-- C01: whatever requests are made on any number of files of a new file system,
with whatever failures of the storage and choices of the allocator, the contents
and all results are those of byte arrays.  Missing for the full claim: writes
without data (`C01_empty_write_violated`) and a space-map access that fails
although the same one succeeded a moment before (`C02_late_violated`). -/
theorem C01_history_partial (raw : Nat → Nat → Nat) (t : History) (harg : ∀ e ∈ t, e.2.1.Arg) :
    FileSpec.Run (fun _ => AFile.empty) (traceOf (St.init raw) t) (abs (runHist (St.init raw) t)) :=
  (hist_run (Inv.init raw) t harg).2

/-- C02: every byte a read returns is zero or was written to that position of that
file by an earlier write, never what a block or a deleted file held before.
Missing: as in `C01_history_partial`. -/
theorem C02_no_stale_partial (raw : Nat → Nat → Nat) (t : History) (harg : ∀ e ∈ t, e.2.1.Arg) (f : Nat)
    (off : Int) (len : Nat) (hoff : Off64 off) (hlen : len < 2 ^ 64) (o : List Ans) {out : List Nat}
    (hr : (FOp.run f (.read off len) (runHist (St.init raw) t) o).1 = .ok out) :
    ∀ i, i < out.length → out.getD i 0 = 0 ∨
      FileSpec.Given (traceOf (St.init raw) t) f (off.toNat + i) (out.getD i 0) := by
  obtain ⟨hi, hrun⟩ := hist_run (Inv.init raw) t harg
  obtain ⟨_, _, hst⟩ := C01_request_partial hi f (.read off len) ⟨hoff, hlen⟩ o
  rw [hr] at hst
  obtain ⟨_, hout⟩ := hst
  have hg := hrun.given (fun _ _ => rfl) f
  intro i hil
  have hv : out.getD i 0 = (abs (runHist (St.init raw) t) f).byte (off.toNat + i) := by
    rw [hout]
    rw [hout] at hil
    simp only [FOp.spec, FileSpec.Op.output, AFile.read, List.length_map, List.length_range] at hil ⊢
    rw [List.getD_eq_getElem?_getD, List.getElem?_map, List.getElem?_range hil]
    rfl
  rw [hv]
  exact hg _

/-! ### C07 on requests -/

/-- The limits of a request as documented. -/
def FOp.InLimits : FOp → Prop
  | .write off dat _ => 0 ≤ off ∧ off + dat.length ≤ sizeMax ∧ dat.length ≤ ioSizeMax
  | .read off len => 0 ≤ off ∧ off ≤ sizeMax ∧ len ≤ ioSizeMax
  | .truncate off => 0 ≤ off ∧ off ≤ sizeMax
  | .fallocate mode off len => 0 ≤ off ∧ 0 ≤ len ∧ off + len ≤ sizeMax ∧ checkFlMode mode = none
  | .recreate _ => True

/-- C07: a request is rejected exactly when it is outside the limits, and then it
changes nothing. -/
theorem C07_rejected {s : St} (h : Inv s) (f : Nat) (op : FOp) (harg : op.Arg) (o : List Ans) :
    ((∃ e, (op.run f s o).1 = .rejected e) ↔ ¬ op.InLimits) ∧
      (¬ op.InLimits → (op.run f s o).2 = s) := by
  have hiff : op.check (s.file f) = none ↔ op.InLimits := by
    cases op with
    | write off dat sync => exact C07_write harg.1 harg.2.1
    | read off len => exact C07_read harg.2
    | truncate off => exact C07_trunc harg (by have := h.span f; omega)
    | fallocate mode off len =>
      show ((checkFileIo (fallocReq off len (s.file f).size)).or (checkFlMode mode)) = none ↔ _
      rw [opt_or_none, C07_falloc harg.1 harg.2]
      exact ⟨fun h => ⟨h.1.1, h.1.2.1, h.1.2.2, h.2⟩, fun h => ⟨⟨h.1, h.2.1, h.2.2.1⟩, h.2.2.2⟩⟩
    | recreate ft2 => exact ⟨fun _ => trivial, fun _ => rfl⟩
  rw [← hiff]
  unfold FOp.run
  cases hc : op.check (s.file f) with
  | some e => exact ⟨⟨fun _ => by simp, fun _ => ⟨e, rfl⟩⟩, fun _ => rfl⟩
  | none =>
    refine ⟨⟨fun ⟨e, he⟩ => ?_, fun hh => absurd rfl hh⟩, fun hh => absurd rfl hh⟩
    simp only at he
    rcases hx : op.exec f s o with ⟨r | d, s', o'⟩ <;> rw [hx] at he <;> simp at he

/-! ### Non-vacuity and counterexamples -/

/-- Answers that grant everything; block numbers from `b`, stale content 7. -/
def granted (b : Nat) : List Ans := (List.range 40).map fun i => .ok (b + i) (fun _ => 7)

/-- Four bytes across the boundary between the head leaves and the tree, then a
hole punched into them. -/
example :
    let s0 := St.init (fun _ _ => 7)
    let s1 := (FOp.run 0 (.write 65534 [1, 2, 3, 4] false) s0 (granted 0)).2
    let s2 := (FOp.run 0 (.fallocate { punchHole := true, keepSize := true } 65535 2) s1 (granted 100)).2
    (FOp.run 0 (.read 65532 100) s1 (granted 0)).1 = .ok [0, 0, 1, 2, 3, 4] ∧
    (FOp.run 0 (.read 65532 100) s2 (granted 0)).1 = .ok [0, 0, 1, 0, 0, 4] := by decide +kernel

/-- A write without data beyond the end succeeds and extends the file. -/
theorem C01_empty_write_violated :
    let s := St.init (fun _ _ => 0)
    let r := FOp.run 0 (.write 5 [] false) s []
    r.1 = .ok [] ∧ (abs r.2 0).size = 5 ∧ ((abs s 0).write 5 []).size = 0 := by decide +kernel

/-- A write beyond the end which fails before its first byte extends the file all the same, up to where it was to begin:
the reader sees zeros that nobody wrote. -/
theorem C01_failed_write_violated :
    let s := (FOp.run 0 (.write 0 [1, 2] false) (St.init (fun _ _ => 0)) (granted 0)).2
    let r := FOp.run 0 (.write 7 [9] false) s [.fail .eio]
    r.1 = .failed .eio ∧ (abs s 0).size = 2 ∧ (abs r.2 0).size = 7 ∧
      (FOp.run 0 (.read 0 100) r.2 (granted 0)).1 = .ok [1, 2, 0, 0, 0, 0, 0] := by decide +kernel

/-- Space is reserved, then a hole is punched; the space-map leaf is reached when
the "unwritten" mark is cleared but not any more when the block is released.  The
request fails, and the file shows what the block held before. -/
theorem C02_late_violated :
    let s0 := { St.init (fun _ _ => 0) with late := true }
    let s1 := (FOp.run 0 (.fallocate {} 0 1024) s0 (granted 0)).2
    let r := FOp.run 0 (.fallocate { punchHole := true, keepSize := true } 0 1024) s1
      [.ok 0 (fun _ => 0), .ok 0 (fun _ => 0), .fail .eio]
    r.1 = .failed .eio ∧ (FOp.run 0 (.read 0 2) s1 (granted 0)).1 = .ok [0, 0] ∧
      (FOp.run 0 (.read 0 2) r.2 (granted 0)).1 = .ok [7, 7] := by decide +kernel

end Silofs.File
