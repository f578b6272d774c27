import Verif.Spec.RepoFmt

set_option linter.unusedSimpArgs false
set_option linter.unusedVariables false

namespace Silofs.Rf

/-! ## What operations may change -/

def FileSlot (sl : Slot) : Prop := sl = .metaf ∨ sl = .lockf ∨ sl = .conf

structure Grow (e : Env) (h h' : Host) : Prop where
  extra : h'.extra = h.extra
  dir : ∀ sl, ¬ FileSlot sl → h'.ent sl = h.ent sl ∨ (h.ent sl = none ∧ h'.ent sl = some (.dir (freshDir e)))
  file : ∀ sl, FileSlot sl → (DirAt h' sl ↔ DirAt h sl)

theorem Grow.refl (e : Env) (h : Host) : Grow e h h := ⟨rfl, fun _ _ => .inl rfl, fun _ _ => Iff.rfl⟩

theorem Grow.trans {e : Env} {a b c : Host} (h : Grow e a b) (g : Grow e b c) : Grow e a c := by
  refine ⟨g.extra.trans h.extra, fun sl hs => ?_, fun sl hs => (g.file sl hs).trans (h.file sl hs)⟩
  rcases h.dir sl hs with h1 | ⟨h1, h2⟩ <;> rcases g.dir sl hs with g1 | ⟨g1, g2⟩
  · left; rw [g1, h1]
  · right; exact ⟨by rw [← h1]; exact g1, g2⟩
  · right; exact ⟨h1, by rw [g1]; exact h2⟩
  · rw [h2] at g1; cases g1

theorem put_same (h : Host) (sl : Slot) : put h sl (h.ent sl) = h := by
  cases h with | mk ent ex =>
  simp only [put]; congr; funext t; split
  · next q => rw [q]
  · rfl

theorem put_at (h : Host) (sl : Slot) (o) : (put h sl o).ent sl = o := by simp [put]
theorem put_ne (h : Host) {sl t : Slot} (o) (q : t ≠ sl) : (put h sl o).ent t = h.ent t := by simp [put, q]

/-- the directory before and after an operation, however it ends -/
def Rel (R : Env → Host → Host → Prop) (a : Op) : Prop := ∀ e s, R e s.host (a e s).2.host

/-- a preorder -/
structure Ord (R : Env → Host → Host → Prop) : Prop where
  refl : ∀ e h, R e h h
  trans : ∀ e a b c, R e a b → R e b c → R e a c

abbrev Grows (a : Op) : Prop := Rel Grow a

theorem ord_grow : Ord Grow := ⟨Grow.refl, fun _ _ _ _ => Grow.trans⟩

/-- the three ends of a call -/
theorem prim_cases (sl chk new part) (e : Env) (s : St) :
    (∃ x, prim sl chk new part e s = (.err x, ⟨s.host, s.k + 1⟩)) ∨
    (chk e s.host = none ∧ prim sl chk new part e s = (.ok, ⟨put s.host sl (new e (s.host.ent sl)), s.k + 1⟩)) ∨
    (∃ r, r ≠ .ok ∧
      prim sl chk new part e s = (r, ⟨put s.host sl (part (e.part s.k) (s.host.ent sl)), s.k + 1⟩)) := by
  unfold prim
  cases e.fault s.k with
  | go =>
    cases h : chk e s.host with
    | some x => left; exact ⟨x, rfl⟩
    | none => right; left; exact ⟨rfl, rfl⟩
  | fail x => right; right; exact ⟨.err x, nofun, rfl⟩
  | kill => right; right; exact ⟨.dead, nofun, rfl⟩

theorem look_host (sl chk) (e : Env) (s : St) : (look sl chk e s).2.host = s.host := by
  unfold look
  rcases prim_cases sl chk (fun _ o => o) (fun _ o => o) e s with ⟨x, h⟩ | ⟨_, h⟩ | ⟨r, _, h⟩ <;> rw [h] <;>
    simp only [put_same]

theorem look_ok (sl chk) (e : Env) (s : St) (h : (look sl chk e s).1 = .ok) : chk e s.host = none := by
  unfold look at h
  rcases prim_cases sl chk (fun _ o => o) (fun _ o => o) e s with ⟨x, g⟩ | ⟨c, g⟩ | ⟨r, n, g⟩ <;> rw [g] at h
  · cases h
  · exact c
  · exact absurd h n

theorem rel_look {R} (o : Ord R) (sl chk) : Rel R (look sl chk) := fun e s => by rw [look_host]; exact o.refl _ _

theorem rel_seq {R} (o : Ord R) {a b : Op} (ha : Rel R a) (hb : Rel R b) : Rel R (seq a b) := fun e s => by
  unfold seq
  have h := ha e s
  rcases q : a e s with ⟨r, s'⟩
  rw [q] at h
  cases r with
  | ok => exact o.trans _ _ _ _ h (hb e s')
  | err x => exact h
  | dead => exact h

theorem rel_allow {R} (o : Ord R) {a : Op} {x : Nat} (ha : Rel R a) : Rel R (allow x a) := fun e s => by
  unfold allow
  have h := ha e s
  rcases q : a e s with ⟨r, s'⟩
  rw [q] at h
  cases r with
  | ok => exact h
  | err y => simp only; split <;> exact h
  | dead => exact h

theorem rel_ifOk {R} (o : Ord R) {a b c : Op} (ha : Rel R a) (hb : Rel R b) (hc : Rel R c) : Rel R (ifOk a b c) := fun e s => by
  unfold ifOk
  have h := ha e s
  rcases q : a e s with ⟨r, s'⟩
  rw [q] at h
  cases r with
  | ok => exact o.trans _ _ _ _ h (hb e s')
  | err x => exact o.trans _ _ _ _ h (hc e s')
  | dead => exact h

theorem rel_onErr {R} (o : Ord R) {a c : Op} {x : Nat} (ha : Rel R a) (hc : Rel R c) : Rel R (onErr x a c) := fun e s => by
  unfold onErr
  have h := ha e s
  rcases q : a e s with ⟨r, s'⟩
  rw [q] at h
  cases r with
  | ok => exact h
  | err y =>
    simp only; split
    · exact o.trans _ _ _ _ h (hc e s')
    · exact h
  | dead => exact h

/-- closing changes nothing -/
theorem closing_host (a : Op) (e : Env) (s : St) : (closing a e s).2.host = (a e s).2.host := by
  unfold closing
  rcases q : a e s with ⟨r, s'⟩
  have h : (close e s').2.host = s'.host := look_host _ _ e s'
  rcases p : close e s' with ⟨r2, s2⟩
  rw [p] at h
  cases r <;> simp only [p] <;> cases r2 <;> first | rfl | exact h

theorem closing_ok {a : Op} {e : Env} {s : St} (h : (closing a e s).1 = .ok) : (a e s).1 = .ok := by
  unfold closing at h
  rcases q : a e s with ⟨r, s'⟩
  rw [q] at h
  rcases p : close e s' with ⟨r2, s2⟩
  cases r <;> simp only [p] at h <;> cases r2 <;> first | rfl | (cases h)

theorem rel_closing {R} (o : Ord R) {a : Op} (ha : Rel R a) : Rel R (closing a) := fun e s => by
  rw [closing_host]; exact ha e s

theorem rel_prim {R} (o : Ord R) {sl chk new part}
    (hn : ∀ e h, chk e h = none → R e h (put h sl (new e (h.ent sl))))
    (hp : ∀ e n h, R e h (put h sl (part n (h.ent sl)))) : Rel R (prim sl chk new part) := fun e s => by
  rcases prim_cases sl chk new part e s with ⟨x, h⟩ | ⟨c, h⟩ | ⟨r, _, h⟩ <;> rw [h]
  · exact o.refl _ _
  · exact hn e s.host c
  · exact hp e _ s.host

theorem grow_put_dir {e : Env} {h : Host} {sl : Slot} (hs : ¬ FileSlot sl) (hn : h.ent sl = none) :
    Grow e h (put h sl (some (.dir (freshDir e)))) := by
  refine ⟨rfl, fun t ht => ?_, fun t ht => ?_⟩
  · by_cases q : t = sl
    · subst q; right; exact ⟨hn, put_at _ _ _⟩
    · left; exact put_ne _ _ q
  · have q : t ≠ sl := fun q => hs (q ▸ ht)
    simp only [DirAt, put_ne _ _ q]

theorem grow_put_file {e : Env} {h : Host} {sl : Slot} {o : Option Obj} (hs : FileSlot sl)
    (hd : (∃ p, o = some (.dir p)) ↔ DirAt h sl) : Grow e h (put h sl o) := by
  refine ⟨rfl, fun t ht => ?_, fun t ht => ?_⟩
  · have q : t ≠ sl := fun q => ht (q ▸ hs)
    left; exact put_ne _ _ q
  · by_cases q : t = sl
    · subst q; simp only [DirAt, put_at]; exact hd
    · simp only [DirAt, put_ne _ _ q]

theorem mkdir_new {e : Env} {h : Host} {sl : Slot}
    (c : (match under e h sl with
      | some x => some x
      | none => if (h.ent sl).isSome then some EEXIST else if mayEdit e h sl then none else some EACCES) = none) :
    under e h sl = none ∧ h.ent sl = none := by
  cases q : under e h sl with
  | some x => rw [q] at c; cases c
  | none =>
    rw [q] at c
    cases o : h.ent sl with
    | none => exact ⟨rfl, rfl⟩
    | some x => simp [o] at c

theorem grows_mkdir {sl : Slot} (hs : ¬ FileSlot sl) : Grows (mkdir sl) :=
  rel_prim ord_grow (fun e h c => grow_put_dir hs (mkdir_new c).2)
    (fun e n h => by rw [put_same]; exact Grow.refl _ _)

theorem onData_dir (f) (o : Option Obj) : (∃ p, onData f o = some (.dir p)) ↔ ∃ p, o = some (.dir p) := by
  rcases o with _ | _ | _ | _ <;> simp [onData]

theorem grows_ftruncate {sl : Slot} (n) (hs : FileSlot sl) : Grows (ftruncate sl n) :=
  rel_prim ord_grow (fun e h c => grow_put_file hs (onData_dir _ _))
    (fun e n h => by rw [put_same]; exact Grow.refl _ _)

theorem grows_pwriten {sl : Slot} (b) (hs : FileSlot sl) : Grows (pwriten sl b) :=
  rel_prim ord_grow (fun e h c => grow_put_file hs (onData_dir _ _)) (fun e n h => grow_put_file hs (onData_dir _ _))

theorem grows_fchmod {sl : Slot} (p) (hs : FileSlot sl) : Grows (fchmod sl p) :=
  rel_prim ord_grow (fun e h c => grow_put_file hs (by
      simp only [DirAt]
      rcases h.ent sl with _ | _ | _ | _ <;> simp))
    (fun e n h => by rw [put_same]; exact Grow.refl _ _)

theorem grows_unlink {sl : Slot} (hs : FileSlot sl) : Grows (unlink sl) :=
  rel_prim ord_grow (fun e h c => grow_put_file hs (by
      simp only [DirAt]
      constructor
      · rintro ⟨p, q⟩; cases q
      · rintro ⟨p, q⟩
        rw [q] at c
        cases u : under e h sl <;> rw [u] at c <;> cases c))
    (fun e n h => by rw [put_same]; exact Grow.refl _ _)

theorem grows_openCreat {sl : Slot} (hs : FileSlot sl) : Grows (openCreat sl) :=
  rel_prim ord_grow (fun e h c => grow_put_file hs (by
      simp only [DirAt]
      rcases h.ent sl with _ | _ | _ | _ <;> simp))
    (fun e n h => by rw [put_same]; exact Grow.refl _ _)

theorem grows_openTrunc {sl : Slot} (hs : FileSlot sl) : Grows (openTrunc sl) :=
  rel_prim ord_grow (fun e h c => grow_put_file hs (by
      simp only [DirAt]
      rcases h.ent sl with _ | _ | _ | _ <;> simp))
    (fun e n h => by rw [put_same]; exact Grow.refl _ _)

theorem test_host (sl q) (e : Env) (s : St) : (test sl q e s).2 = s := by
  unfold test; split
  · rfl
  · split <;> rfl

theorem grows_test (sl q) : Grows (test sl q) := fun e s => by rw [test_host]; exact Grow.refl _ _

theorem nf_dots : ¬ FileSlot .dots := by rintro (h | h | h) <;> cases h
theorem nf_blobs : ¬ FileSlot .blobs := by rintro (h | h | h) <;> cases h
theorem nf_pack : ¬ FileSlot .pack := by rintro (h | h | h) <;> cases h
theorem nf_objs : ¬ FileSlot .objs := by rintro (h | h | h) <;> cases h
theorem nf_refs : ¬ FileSlot .refs := by rintro (h | h | h) <;> cases h
theorem nf_top : ¬ FileSlot .top := by rintro (h | h | h) <;> cases h
theorem nf_sub (i) : ¬ FileSlot (.sub i) := by rintro (h | h | h) <;> cases h
theorem f_metaf : FileSlot .metaf := .inl rfl
theorem f_lockf : FileSlot .lockf := .inr (.inl rfl)
theorem f_conf : FileSlot .conf := .inr (.inr rfl)

theorem grows_skelDir {sl} (hs : ¬ FileSlot sl) : Grows (skelDir sl) :=
  rel_seq ord_grow (rel_allow ord_grow (grows_mkdir hs)) (rel_look ord_grow _ _)

theorem grows_skelFile {sl} (n) (hs : FileSlot sl) : Grows (skelFile sl n) :=
  rel_seq ord_grow (rel_allow ord_grow (grows_unlink hs)) (rel_seq ord_grow (grows_openCreat hs)
    (rel_seq ord_grow (grows_ftruncate n hs) (rel_look ord_grow _ _)))

theorem grows_skel : Grows createSkel :=
  rel_seq ord_grow (grows_skelDir nf_blobs) (rel_seq ord_grow (grows_skelDir nf_pack) (rel_seq ord_grow (grows_skelDir nf_objs)
    (rel_seq ord_grow (grows_skelDir nf_refs) (rel_seq ord_grow (grows_skelFile _ f_metaf) (grows_skelFile _ f_lockf)))))

theorem grows_sub (i) : Grows (formatSub i) :=
  rel_ifOk ord_grow (rel_look ord_grow _ _) (rel_seq ord_grow (grows_test _ _) (rel_look ord_grow _ _)) (grows_mkdir (nf_sub i))

theorem grows_subs : ∀ n, Grows (formatSubs n)
  | 0 => fun e s => Grow.refl _ _
  | n + 1 => rel_seq ord_grow (grows_subs n) (grows_sub n)

theorem grows_meta : Grows formatMeta :=
  rel_seq ord_grow (rel_look ord_grow _ _) (rel_closing ord_grow (rel_seq ord_grow (grows_pwriten _ f_metaf)
    (rel_seq ord_grow (rel_look ord_grow _ _) (grows_fchmod _ f_metaf))))

theorem grows_lock : Grows formatLock :=
  rel_seq ord_grow (rel_look ord_grow _ _) (rel_closing ord_grow (rel_seq ord_grow (grows_pwriten _ f_lockf) (rel_look ord_grow _ _)))

theorem grows_tail : Grows (seq formatMeta formatLock) := rel_seq ord_grow grows_meta grows_lock
theorem grows_tail2 : Grows (seq (formatSubs nsubs) (seq formatMeta formatLock)) :=
  rel_seq ord_grow (grows_subs _) grows_tail
theorem grows_tail3 : Grows (seq (openDir .objs) (seq (formatSubs nsubs) (seq formatMeta formatLock))) :=
  rel_seq ord_grow (rel_look ord_grow _ _) grows_tail2

theorem grows_format : Grows format :=
  rel_seq ord_grow (rel_look ord_grow _ _) (rel_seq ord_grow (rel_allow ord_grow (grows_mkdir nf_dots)) (rel_seq ord_grow (rel_look ord_grow _ _)
    (rel_seq ord_grow grows_skel grows_tail3)))

theorem grows_save (txt) : Grows (saveConf txt) :=
  rel_seq ord_grow (grows_openTrunc f_conf) (rel_closing ord_grow (grows_pwriten _ f_conf))

theorem grows_checkIsDir : Grows checkIsDir := rel_seq ord_grow (rel_look ord_grow _ _) (rel_look ord_grow _ _)
theorem grows_emptyDir : Grows checkEmptyDir :=
  rel_seq ord_grow grows_checkIsDir (rel_seq ord_grow (rel_look ord_grow _ _)
    (rel_seq ord_grow (rel_look ord_grow _ _) (rel_look ord_grow _ _)))
theorem grows_prepare : Grows initPrepare :=
  rel_seq ord_grow (rel_onErr ord_grow (rel_look ord_grow _ _) (grows_mkdir nf_top))
    (rel_seq ord_grow (rel_seq ord_grow (rel_look ord_grow _ _) grows_checkIsDir) grows_emptyDir)

theorem grows_init (txt) : Grows (init txt) :=
  rel_seq ord_grow grows_prepare (rel_seq ord_grow (rel_look ord_grow _ _) (rel_seq ord_grow grows_format
    (rel_seq ord_grow (rel_look ord_grow _ _) (grows_save txt))))

/-! ## The text in the lock file -/

def LockText (h : Host) : Prop := ∃ p d, h.ent .lockf = some (.file p d) ∧ lockText <+: d

/-- the text does not come into the lock file -/
def NoText (_ : Env) (h h' : Host) : Prop := LockText h' → LockText h

theorem ord_noText : Ord NoText := ⟨fun _ _ h => h, fun _ _ _ _ h g q => h (g q)⟩

/-- a name is left as it is -/
def Still (t : Slot) (_ : Env) (h h' : Host) : Prop := h'.ent t = h.ent t

theorem ord_still (t) : Ord (Still t) := ⟨fun _ _ => rfl, fun _ _ _ _ h g => Eq.trans g h⟩

theorem still_prim {t sl chk new part} (n : t ≠ sl) : Rel (Still t) (prim sl chk new part) :=
  rel_prim (ord_still t) (fun e h c => put_ne _ _ n) (fun e n' h => put_ne _ _ n)

theorem noText_of_still {a : Op} (h : Rel (Still .lockf) a) : Rel NoText a := fun e s => by
  have := h e s
  rintro ⟨p, d, q, r⟩
  exact ⟨p, d, by rw [← q]; exact this.symm, r⟩

theorem still_skelDir {t sl} (n : t ≠ sl) : Rel (Still t) (skelDir sl) :=
  rel_seq (ord_still t) (rel_allow (ord_still t) (still_prim n)) (rel_look (ord_still t) _ _)

theorem still_skelFile {t sl} (k) (n : t ≠ sl) : Rel (Still t) (skelFile sl k) :=
  rel_seq (ord_still t) (rel_allow (ord_still t) (still_prim n)) (rel_seq (ord_still t) (still_prim n)
    (rel_seq (ord_still t) (still_prim n) (rel_look (ord_still t) _ _)))

theorem truncTo_text {n : Nat} (hn : 11 ≤ n) {d : List Nat} (h : lockText <+: truncTo n d) : lockText <+: d := by
  obtain ⟨r, hr⟩ := h
  by_cases q : 11 ≤ d.length
  · refine ⟨d.drop 11, ?_⟩
    have h1 : lockText = (truncTo n d).take 11 := by rw [← hr]; rfl
    have h2 : (truncTo n d).take 11 = d.take 11 := by
      unfold truncTo
      rw [List.take_append_of_le_length (by rw [List.length_take]; omega), List.take_take, Nat.min_eq_left hn]
    rw [h1, h2, List.take_append_drop]
  · exfalso
    have h1 : (truncTo n d)[10]? = some 75 := by rw [← hr]; rfl
    unfold truncTo at h1
    rw [List.getElem?_append_right (by rw [List.length_take]; omega), List.getElem?_replicate] at h1
    split at h1 <;> cases h1

theorem noText_skelLock : Rel NoText (skelFile .lockf metaSize) :=
  rel_seq ord_noText
    (rel_allow ord_noText (rel_prim ord_noText
      (fun e h c => by rintro ⟨p, d, q, r⟩; rw [put_at] at q; cases q)
      (fun e n h => by rw [put_same]; exact id)))
    (rel_seq ord_noText
      (rel_prim ord_noText
        (fun e h c => by
          rintro ⟨p, d, q, r⟩
          rw [put_at] at q
          cases o : h.ent .lockf with
          | none =>
            rw [o] at q
            simp only [Option.some.injEq, Obj.file.injEq] at q
            rw [← q.2] at r
            have := r.length_le
            simp [lockText] at this
          | some x => rw [o] at q; exact ⟨p, d, by rw [o]; exact q, r⟩)
        (fun e n h => by rw [put_same]; exact id))
      (rel_seq ord_noText
        (rel_prim ord_noText
          (fun e h c => by
            rintro ⟨p, d, q, r⟩
            rw [put_at] at q
            rcases o : h.ent .lockf with _ | _ | ⟨p', d'⟩ | _ <;> rw [o] at q <;> simp only [onData] at q
            · cases q
            · cases q
            · simp only [Option.some.injEq, Obj.file.injEq] at q
              rw [← q.2] at r
              exact ⟨p', d', o, truncTo_text (by decide) r⟩
            · cases q)
          (fun e n h => by rw [put_same]; exact id))
        (rel_look ord_noText _ _)))

theorem noText_skel : Rel NoText createSkel :=
  have k {sl} (n : Slot.lockf ≠ sl) : Rel NoText (skelDir sl) := noText_of_still (still_skelDir n)
  rel_seq ord_noText (k nofun) (rel_seq ord_noText (k nofun) (rel_seq ord_noText (k nofun)
    (rel_seq ord_noText (k nofun) (rel_seq ord_noText (noText_of_still (still_skelFile _ nofun)) noText_skelLock))))

theorem still_sub {t} (i) (n : t ≠ Slot.sub i) : Rel (Still t) (formatSub i) :=
  rel_ifOk (ord_still t) (rel_look (ord_still t) _ _)
    (rel_seq (ord_still t) (fun e s => by rw [test_host]; exact rfl) (rel_look (ord_still t) _ _)) (still_prim n)

theorem still_subs {t} (h : ∀ i, t ≠ Slot.sub i) : ∀ n, Rel (Still t) (formatSubs n)
  | 0 => fun _ _ => rfl
  | n + 1 => rel_seq (ord_still t) (still_subs h n) (still_sub n (h n))

theorem still_meta {t} (n : t ≠ .metaf) : Rel (Still t) formatMeta :=
  rel_seq (ord_still t) (rel_look (ord_still t) _ _) (rel_closing (ord_still t) (rel_seq (ord_still t) (still_prim n)
    (rel_seq (ord_still t) (rel_look (ord_still t) _ _) (still_prim n))))

theorem still_lock {t} (n : t ≠ .lockf) : Rel (Still t) formatLock :=
  rel_seq (ord_still t) (rel_look (ord_still t) _ _) (rel_closing (ord_still t) (rel_seq (ord_still t) (still_prim n)
    (rel_look (ord_still t) _ _)))

theorem still_save {t} (txt) (n : t ≠ .conf) : Rel (Still t) (saveConf txt) :=
  rel_seq (ord_still t) (still_prim n) (rel_closing (ord_still t) (still_prim n))

theorem still_prepare {t} (n : t ≠ .top) : Rel (Still t) initPrepare :=
  have l (sl chk) : Rel (Still t) (look sl chk) := rel_look (ord_still t) sl chk
  rel_seq (ord_still t) (rel_onErr (ord_still t) (l _ _) (still_prim n))
    (rel_seq (ord_still t) (rel_seq (ord_still t) (l _ _) (rel_seq (ord_still t) (l _ _) (l _ _)))
      (rel_seq (ord_still t) (rel_seq (ord_still t) (l _ _) (l _ _))
        (rel_seq (ord_still t) (l _ _) (rel_seq (ord_still t) (l _ _) (l _ _)))))

/-! ## What a successful operation has seen -/

/-- from `P`, when `a` says it succeeded, `Q` -/
def Post (e : Env) (P : Host → Prop) (a : Op) (Q : Host → Prop) : Prop :=
  ∀ s, P s.host → (a e s).1 = .ok → Q (a e s).2.host

def Stable (e : Env) (F : Host → Prop) : Prop := ∀ h h', Grow e h h' → F h → F h'

theorem seq_ok {a b : Op} {e : Env} {s : St} (h : (seq a b e s).1 = .ok) :
    (a e s).1 = .ok ∧ seq a b e s = b e (a e s).2 := by
  unfold seq at h ⊢
  rcases q : a e s with ⟨r, s'⟩
  rw [q] at h
  cases r with
  | ok => exact ⟨rfl, rfl⟩
  | err x => cases h
  | dead => cases h

theorem seq_of_ok {a b : Op} {e : Env} {s : St} (h : (a e s).1 = .ok) : seq a b e s = b e (a e s).2 := by
  unfold seq
  rcases q : a e s with ⟨r, s'⟩
  rw [q] at h
  cases h
  rfl

theorem seq_not_ok {a b : Op} {e : Env} {s : St} (h : (a e s).1 ≠ .ok) : seq a b e s = a e s := by
  unfold seq
  rcases q : a e s with ⟨r, s'⟩
  rw [q] at h
  cases r with
  | ok => exact absurd rfl h
  | err x => rfl
  | dead => rfl

theorem post_seq {e P a Q b R} (ha : Post e P a Q) (hb : Post e Q b R) : Post e P (seq a b) R := fun s hP h => by
  obtain ⟨h1, h2⟩ := seq_ok h
  rw [h2] at h ⊢
  exact hb _ (ha s hP h1) h

theorem post_left {e P a b F} (ha : Post e P a F) (hs : Stable e F) (hb : Grows b) : Post e P (seq a b) F :=
  post_seq ha (fun s h _ => hs _ _ (hb e s) h)

theorem post_right {e P a b F} (ha : Grows a) (hs : Stable e P) (hb : Post e P b F) : Post e P (seq a b) F :=
  post_seq (fun s h _ => hs _ _ (ha e s) h) hb

theorem post_look {e P sl chk Q} (h : ∀ k, P k → chk e k = none → Q k) : Post e P (look sl chk) Q := fun s hP hk => by
  rw [look_host]; exact h _ hP (look_ok sl chk e s hk)

theorem post_prim {e P sl chk new part Q} (h : ∀ k, P k → chk e k = none → Q (put k sl (new e (k.ent sl)))) :
    Post e P (prim sl chk new part) Q := fun s hP hk => by
  rcases prim_cases sl chk new part e s with ⟨x, g⟩ | ⟨c, g⟩ | ⟨r, n, g⟩ <;> rw [g] at hk ⊢
  · cases hk
  · exact h _ hP c
  · exact absurd hk n

theorem post_closing {e P a Q} (h : Post e P a Q) : Post e P (closing a) Q := fun s hP hk => by
  rw [closing_host]; exact h s hP (closing_ok hk)

theorem post_mono {e P P' a Q Q'} (h : Post e P a Q) (hp : ∀ k, P' k → P k) (hq : ∀ k, Q k → Q' k) :
    Post e P' a Q' := fun s hP hk => hq _ (h s (hp _ hP) hk)

theorem post_and {e P a Q Q'} (h : Post e P a Q) (h' : Post e P a Q') : Post e P a (fun k => Q k ∧ Q' k) :=
  fun s hP hk => ⟨h s hP hk, h' s hP hk⟩

/-! ## Opening -/

/-- an operation which only looks, and what it looks for -/
def Asks (a : Op) (c : Env → Host → Prop) : Prop :=
  ∀ e s, (a e s).2.host = s.host ∧ ((a e s).1 = .ok → c e s.host) ∧ (Calm e → c e s.host → (a e s).1 = .ok)

theorem asks_look (sl chk) : Asks (look sl chk) (fun e h => chk e h = none) := fun e s =>
  ⟨look_host sl chk e s, look_ok sl chk e s, fun hc h => by
    simp only [look, prim, hc s.k, h]⟩

theorem asks_seq {a b c d} (ha : Asks a c) (hb : Asks b d) : Asks (seq a b) (fun e h => c e h ∧ d e h) := fun e s => by
  obtain ⟨h1, h2, h3⟩ := ha e s
  obtain ⟨g1, g2, g3⟩ := hb e (a e s).2
  rw [h1] at g1 g2 g3
  unfold seq
  rcases q : a e s with ⟨r, s'⟩
  rw [q] at h1 h2 h3 g1 g2 g3
  cases r with
  | ok => exact ⟨g1, fun h => ⟨h2 rfl, g2 h⟩, fun hc h => g3 hc h.2⟩
  | err x => exact ⟨h1, (nomatch ·), fun hc h => h3 hc h.1⟩
  | dead => exact ⟨h1, (nomatch ·), fun hc h => h3 hc h.1⟩

theorem asks_closing {a c} (ha : Asks a c) : Asks (closing a) c := fun e s => by
  obtain ⟨h1, h2, h3⟩ := ha e s
  refine ⟨by rw [closing_host]; exact h1, fun h => h2 (closing_ok h), fun hc h => ?_⟩
  have h4 := h3 hc h
  unfold closing
  rcases q : a e s with ⟨r, s'⟩
  rw [q] at h4
  subst h4
  have h5 := (asks_look .top (fun _ _ => none) e s').2.2 hc rfl
  show (match close e s' with | (.dead, s'') => (Res.dead, s'') | (_, s'') => (Res.ok, s'')).1 = .ok
  rcases p : close e s' with ⟨r2, s2⟩
  have h6 : (close e s').1 = .ok := h5
  rw [p] at h6
  subst h6
  rfl

theorem asks_iff {a c d} (ha : Asks a c) (h : ∀ e k, c e k ↔ d e k) : Asks a d := fun e s =>
  ⟨(ha e s).1, fun q => (h _ _).1 ((ha e s).2.1 q), fun hc q => (ha e s).2.2 hc ((h _ _).2 q)⟩

/-- the name's directory can be searched -/
def Reach (e : Env) (h : Host) (sl : Slot) : Prop := under e h sl = none

theorem reach_iff {e : Env} {h : Host} {sl q : Slot} (hp : parent sl = some q) :
    Reach e h sl ↔ ∃ p, h.ent q = some (.dir p) ∧ (e.root = true ∨ p.x = true) := by
  unfold Reach under
  rw [hp]
  simp only
  rcases h.ent q with _ | p | _ | _ <;> cases e.root <;> simp

theorem asks_openDir (sl) : Asks (openDir sl)
    (fun e h => Reach e h sl ∧ ∃ p, h.ent sl = some (.dir p) ∧ (e.root = true ∨ p.r = true)) :=
  asks_iff (asks_look _ _) (fun e h => by
    unfold Reach
    cases under e h sl with
    | some x => simp
    | none => rcases h.ent sl with _ | p | _ | _ <;> cases e.root <;> simp)

theorem asks_stat (sl q) : Asks (stat sl q) (fun e h => Reach e h sl ∧ ∃ o, h.ent sl = some o ∧ q o = none) :=
  asks_iff (asks_look _ _) (fun e h => by
    unfold Reach
    cases under e h sl with
    | some x => simp
    | none => rcases h.ent sl with _ | o <;> simp)

theorem asks_access (sl need) : Asks (accessDir sl need) (fun e h => Reach e h sl ∧ ∃ o, h.ent sl = some o ∧
    (e.root = true ∨ ((need.r = true → (objPerm o).r = true) ∧ (need.w = true → (objPerm o).w = true) ∧
      (need.x = true → (objPerm o).x = true)))) :=
  asks_iff (asks_look _ _) (fun e h => by
    unfold Reach
    cases under e h sl with
    | some x => simp
    | none =>
      have k (p : Perm) : ((!need.r || p.r) && (!need.w || p.w) && (!need.x || p.x)) = true ↔
          ((need.r = true → p.r = true) ∧ (need.w = true → p.w = true) ∧ (need.x = true → p.x = true)) := by
        cases need.r <;> cases need.w <;> cases need.x <;> simp [and_assoc]
      rcases h.ent sl with _ | p | ⟨p, _⟩ | p
      · simp
      all_goals
        simp only [objPerm, true_and, Option.some.injEq, exists_eq_left', ← k]
        cases e.root <;> simp [and_assoc] <;> cases need.x <;> simp)

theorem asks_openRd (sl) : Asks (openRd sl)
    (fun e h => Reach e h sl ∧ ∃ o, h.ent sl = some o ∧ (e.root = true ∨ (objPerm o).r = true)) :=
  asks_iff (asks_look _ _) (fun e h => by
    unfold Reach
    cases under e h sl with
    | some x => simp
    | none => rcases h.ent sl with _ | p | ⟨p, _⟩ | p <;> cases e.root <;> simp [objPerm])

theorem asks_preadn (sl n q) : Asks (preadn sl n q)
    (fun _ h => ∃ p d, h.ent sl = some (.file p d) ∧ n ≤ d.length ∧ q (d.take n) = none) :=
  asks_iff (asks_look _ _) (fun e h => by
    rcases h.ent sl with _ | p | ⟨p, d⟩ | p
    · simp
    · simp
    · by_cases k : d.length < n
      · simp [k]; omega
      · have k' : n ≤ d.length := by omega
        constructor
        · intro z
          exact ⟨p, d, rfl, k', by simpa [k] using z⟩
        · rintro ⟨p', d', z, _, z2⟩
          cases z
          simpa [k] using z2
    · simp)

theorem metaChk_iff (d : List Nat) (h : 1024 ≤ d.length) :
    metaChk (d.take metaSize) = none ↔ [0x23, 0x53, 0x49, 0x4C, 0x4F, 0x46, 0x53, 0x23, 1, 0, 0, 0] <+: d := by
  unfold metaChk metaSize
  rw [List.take_take, List.drop_take, List.take_take]
  have e1 : min 8 1024 = 8 := rfl
  have e2 : min 4 (1024 - 8) = 4 := rfl
  rw [e1, e2]
  constructor
  · intro q
    split at q
    · cases q
    · next h1 =>
      split at q
      · cases q
      · next h2 =>
        have h1 : d.take 8 = magic := Decidable.byContradiction h1
        have h2 : (d.drop 8).take 4 = version := Decidable.byContradiction h2
        refine ⟨d.drop 12, ?_⟩
        have : d = magic ++ (version ++ d.drop 12) := by
          calc d = d.take 8 ++ d.drop 8 := (List.take_append_drop 8 d).symm
            _ = d.take 8 ++ ((d.drop 8).take 4 ++ (d.drop 8).drop 4) := by rw [List.take_append_drop 4]
            _ = magic ++ (version ++ d.drop 12) := by rw [h1, h2, List.drop_drop]
        exact this.symm
  · rintro ⟨r, rfl⟩
    rw [if_neg (by simp [magic]), if_neg (by simp [version])]

theorem lockChk_iff (d : List Nat) :
    lockChk (d.take metaSize) = none ↔ [83, 73, 76, 79, 70, 83, 95, 76, 79, 67, 75] <+: d := by
  unfold lockChk metaSize
  rw [List.take_take]
  have e1 : min 11 1024 = 11 := rfl
  rw [e1]
  constructor
  · intro q
    split at q
    · next h1 => exact ⟨d.drop 11, by rw [show ([83, 73, 76, 79, 70, 83, 95, 76, 79, 67, 75] : List Nat) = lockText from rfl, ← h1, List.take_append_drop]⟩
    · cases q
  · rintro ⟨r, rfl⟩
    rw [if_pos (by simp [lockText])]

theorem wantDir_iff (o : Obj) : wantDir o = none ↔ ∃ p, o = .dir p := by
  cases o <;> simp [wantDir]

/-- **C78.** Opening a repository leaves the directory as it is. It succeeds only if the whole skeleton is there:
the directories, the magic and version in `meta`, the text in `lock`, and the user may use them; and if no system
call fails it succeeds whenever they are. -/
theorem C78_open (e : Env) (s : St) :
    (openRepo e s).2.host = s.host ∧
    ((openRepo e s).1 = .ok → Skeleton s.host ∧ Able e.root s.host) ∧
    (Calm e → Skeleton s.host → Able e.root s.host → (openRepo e s).1 = .ok) := by
  have A : Asks openRepo _ := asks_seq (asks_openDir .top) (asks_seq (asks_openDir .dots)
    (asks_seq (asks_seq (asks_access .top ⟨true, true, true⟩) (asks_seq (asks_stat .metaf (wantFile metaSize))
        (asks_seq (asks_stat .refs wantDir) (asks_seq (asks_stat .objs wantDir)
          (asks_seq (asks_stat .blobs wantDir) (asks_stat .pack wantDir))))))
      (asks_seq (asks_seq (asks_openRd .metaf) (asks_closing (asks_preadn .metaf metaSize metaChk)))
        (asks_seq (asks_seq (asks_openRd .lockf) (asks_closing (asks_preadn .lockf metaSize lockChk)))
          (asks_openDir .objs)))))
  obtain ⟨a1, a2, a3⟩ := A e s
  refine ⟨a1, fun h => ?_, fun hc hs hb => a3 hc ?_⟩
  · obtain ⟨⟨_, pt, ht, _⟩, ⟨_, pd, hd, hdr⟩, ⟨⟨_, ot, ht', htp⟩, ⟨_, om, hm, hmw⟩, ⟨_, or', hr, hrw⟩, ⟨_, oo, ho, how⟩,
      ⟨_, ob, hb, hbw⟩, ⟨_, op, hp, hpw⟩⟩, ⟨⟨rm, om', hm', hmr⟩, ⟨pm, dm, hm'', hml, hmc⟩⟩,
      ⟨⟨rl, ol, hl, hlr⟩, ⟨pl, dl, hl', hll, hlc⟩⟩, ⟨_, po, ho', hor⟩⟩ := a2 h
    obtain ⟨pd', hd', hdx⟩ := (reach_iff (q := .dots) rfl).1 rm
    rw [hd] at hd'; cases hd'
    rw [ht] at ht'; cases ht'
    rw [hm''] at hm'; cases hm'
    rw [hl'] at hl; cases hl
    obtain ⟨_, rfl⟩ := (wantDir_iff _).1 hrw
    obtain ⟨_, rfl⟩ := (wantDir_iff _).1 hbw
    obtain ⟨_, rfl⟩ := (wantDir_iff _).1 hpw
    refine ⟨⟨⟨_, ht⟩, ⟨_, hd⟩, ⟨_, hb⟩, ⟨_, hp⟩, ⟨_, ho'⟩, ⟨_, hr⟩, ⟨pm, dm, hm'', hml, (metaChk_iff dm hml).1 hmc⟩,
      ⟨pl, dl, hl', hll, (lockChk_iff dl).1 hlc⟩⟩, ?_⟩
    refine ⟨⟨_, ht, ?_⟩, ⟨_, hd, ?_⟩, ⟨_, ho', hor⟩, ⟨_, _, hm'', hmr⟩, ⟨_, _, hl', hlr⟩⟩
    · rcases htp with q | q
      · exact .inl q
      · exact .inr ⟨q.1 rfl, q.2.1 rfl, q.2.2 rfl⟩
    · rcases hdr with q | q
      · exact .inl q
      · rcases hdx with q' | q'
        · exact .inl q'
        · exact .inr ⟨q, q'⟩
  · obtain ⟨pt, ht, htp⟩ := hb.top
    obtain ⟨pd, hd, hdp⟩ := hb.dots
    obtain ⟨po, ho, hop⟩ := hb.objs
    obtain ⟨pm, dm, hm, hml, hmc⟩ := hs.metaOk
    obtain ⟨pl, dl, hl, hll, hlc⟩ := hs.lockOk
    obtain ⟨_, _, hm', hmr⟩ := hb.metaR
    obtain ⟨_, _, hl', hlr⟩ := hb.lockR
    rw [hm] at hm'; cases hm'
    rw [hl] at hl'; cases hl'
    obtain ⟨_, hr⟩ := hs.refs
    obtain ⟨_, hb⟩ := hs.blobs
    obtain ⟨_, hp⟩ := hs.pack
    have rt : Reach e s.host .top := rfl
    have rd : Reach e s.host .dots := (reach_iff (q := .top) rfl).2 ⟨pt, ht, htp.imp id (·.2.2)⟩
    have ru {sl} (q : parent sl = some .dots) : Reach e s.host sl :=
      (reach_iff (q := .dots) q).2 ⟨pd, hd, hdp.imp id (·.2)⟩
    exact ⟨⟨rt, pt, ht, htp.imp id (·.1)⟩, ⟨rd, pd, hd, hdp.imp id (·.1)⟩,
      ⟨⟨rt, _, ht, htp.imp id (fun q => ⟨fun _ => q.1, fun _ => q.2.1, fun _ => q.2.2⟩)⟩,
        ⟨ru rfl, _, hm, if_neg (by unfold metaSize; omega)⟩,
        ⟨ru rfl, _, hr, rfl⟩, ⟨ru rfl, _, ho, rfl⟩, ⟨ru rfl, _, hb, rfl⟩, ⟨ru rfl, _, hp, rfl⟩⟩,
      ⟨⟨ru rfl, _, hm, hmr⟩, ⟨pm, dm, hm, hml, (metaChk_iff dm hml).2 hmc⟩⟩,
      ⟨⟨ru rfl, _, hl, hlr⟩, ⟨pl, dl, hl, hll, (lockChk_iff dl).2 hlc⟩⟩, ⟨ru rfl, po, ho, hop⟩⟩

/-! ## Unfinished attempts -/

theorem dirAt_stable (e : Env) {sl} (hs : ¬ FileSlot sl) : Stable e (DirAt · sl) := fun h h' g => by
  rintro ⟨p, hp⟩
  rcases g.dir sl hs with q | ⟨q, _⟩
  · exact ⟨p, q.trans hp⟩
  · rw [q] at hp; cases hp

theorem look_ask {a c} (h : Asks a c) {e P} : Post e P a (fun k => c e k) := fun s _ hk => by
  rw [(h e s).1]; exact (h e s).2.1 hk

theorem post_mkdir (e : Env) (P sl) : Post e P (mkdir sl) (fun k => k.ent sl = some (.dir (freshDir e))) :=
  post_prim (fun k _ _ => put_at _ _ _)

theorem post_sub (e : Env) (P i) : Post e P (formatSub i) (DirAt · (.sub i)) := fun s hP h => by
  unfold formatSub ifOk at h ⊢
  have h1 := look_host (.sub i) (fun e h => match under e h (.sub i) with
    | some x => some x
    | none => match h.ent (.sub i) with | none => some ENOENT | some o => (fun _ => none) o) e s
  rcases q : stat (.sub i) (fun _ => none) e s with ⟨r, s'⟩
  rw [q] at h
  cases r with
  | ok =>
    simp only at h ⊢
    obtain ⟨h2, h3⟩ := seq_ok h
    rw [h3, (asks_access _ _ e _).1]
    rw [test_host]
    unfold test at h2
    cases o : s'.host.ent (.sub i) with
    | none => rw [o] at h2; cases h2
    | some x =>
      rw [o] at h2
      cases x with
      | dir p => exact ⟨p, o⟩
      | file p d => cases h2
      | other p => cases h2
  | err x =>
    simp only at h ⊢
    exact ⟨_, post_mkdir e (fun _ => True) _ s' trivial h⟩
  | dead => cases h

theorem post_subs (e : Env) (P) : ∀ n, Post e P (formatSubs n) (fun k => ∀ i, i < n → DirAt k (.sub i))
  | 0 => fun s _ _ i hi => absurd hi (Nat.not_lt_zero i)
  | n + 1 => by
    have h1 := post_left (b := formatSub n) (post_subs e P n)
      (fun h h' g k i hi => dirAt_stable e (nf_sub i) h h' g (k i hi)) (grows_sub n)
    have h2 : Post e P (seq (formatSubs n) (formatSub n)) (DirAt · (.sub n)) :=
      post_seq (Q := fun _ => True) (fun _ _ _ => trivial) (post_sub e _ n)
    intro s hP hk i hi
    by_cases q : i = n
    · subst q; exact h2 s hP hk
    · exact h1 s hP hk i (by omega)

/-- a repository which looks finished is -/
def Fine (h : Host) : Prop := LockText h → ∀ i, i < 256 → DirAt h (.sub i)

def FineR (_ : Env) (h h' : Host) : Prop := Fine h → Fine h'

theorem ord_fine : Ord FineR := ⟨fun _ _ h => h, fun _ _ _ _ h g q => g (h q)⟩

theorem fine_of {a : Op} (hg : Grows a) (hn : Rel NoText a) : Rel FineR a := fun e s hf hl i hi =>
  dirAt_stable e (nf_sub i) _ _ (hg e s) (hf (hn e s hl) i hi)

theorem fine_look (sl chk) : Rel FineR (look sl chk) := rel_look ord_fine sl chk

theorem fine_tail : Rel FineR (seq (formatSubs nsubs) (seq formatMeta formatLock)) := fun e s hf => by
  have h1 := fine_of (grows_subs nsubs) (noText_of_still (still_subs (fun _ h => by cases h) nsubs)) e s hf
  have h2 := post_subs e (fun _ => True) nsubs s trivial
  unfold seq
  rcases q : formatSubs nsubs e s with ⟨r, s'⟩
  rw [q] at h1 h2
  cases r with
  | ok =>
    intro _ i hi
    exact dirAt_stable e (nf_sub i) _ _ (grows_tail e s') (h2 rfl i hi)
  | err x => exact h1
  | dead => exact h1

theorem fine_format : Rel FineR format :=
  rel_seq ord_fine (fine_look _ _) (rel_seq ord_fine
    (fine_of (rel_allow ord_grow (grows_mkdir nf_dots))
      (noText_of_still (rel_allow (ord_still _) (still_prim nofun))))
    (rel_seq ord_fine (fine_look _ _) (rel_seq ord_fine (fine_of grows_skel noText_skel)
      (rel_seq ord_fine (fine_look _ _) fine_tail))))

theorem fine_init (txt) : Rel FineR (init txt) :=
  rel_seq ord_fine (fine_of grows_prepare (noText_of_still (still_prepare nofun)))
    (rel_seq ord_fine (fine_look _ _) (rel_seq ord_fine fine_format (rel_seq ord_fine (fine_look _ _)
      (fine_of (grows_save txt) (noText_of_still (still_save txt nofun))))))

theorem fine_tries : ∀ (l : List (Try × Env)) (h : Host), Fine h → Fine (tries h l)
  | [], h, hf => hf
  | (.init txt, e) :: l, h, hf => fine_tries l _ (fine_init txt e ⟨h, 0⟩ hf)
  | (.format, e) :: l, h, hf => fine_tries l _ (fine_format e ⟨h, 0⟩ hf)

/-- **C78.** In a directory without a repository, after any number of attempts to make one — by the command or by the
library, each of which may have failed at any system call or been killed at any — whoever succeeds to open it,
opens a whole repository, with every directory which objects are put in. -/
theorem C78_never_half (h : Host) (ht : h.ent .lockf = none) (l : List (Try × Env)) (e : Env) (k : Nat)
    (ho : (openRepo e ⟨tries h l, k⟩).1 = .ok) : IsRepo (tries h l) := by
  have hs := ((C78_open e ⟨tries h l, k⟩).2.1 ho).1
  refine ⟨hs, fine_tries l h (fun ⟨p, d, q, _⟩ => by rw [ht] at q; cases q) ?_⟩
  obtain ⟨p, d, q, _, r⟩ := hs.lockOk
  exact ⟨p, d, q, r⟩

/-! ## A directory which is not empty -/

theorem onErr_top (e : Env) (s : St) (h : s.host.ent .top ≠ none) :
    (onErr ENOENT (stat .top (fun _ => none)) (mkdir .top) e s).2.host = s.host := by
  unfold onErr
  have h1 : (stat .top (fun _ => none) e s).2.host = s.host := look_host _ _ e s
  rcases q : stat .top (fun _ => none) e s with ⟨r, s'⟩
  rw [q] at h1
  cases r with
  | ok => exact h1
  | err y =>
    simp only
    split
    · rw [← h1] at h ⊢
      unfold mkdir
      rcases prim_cases .top _ (fun e _ => some (.dir (freshDir e))) (fun _ o => o) e s' with
        ⟨x, g⟩ | ⟨c, g⟩ | ⟨r, _, g⟩
      · rw [g]
      · exact absurd (mkdir_new c).2 h
      · rw [g]; exact put_same _ _
    · exact h1
  | dead => exact h1

/-- the user may use the directory -/
def TopOk (root : Bool) (h : Host) : Prop := ∃ p, h.ent .top = some (.dir p) ∧ (root ∨ (p.r ∧ p.w ∧ p.x))

theorem asks_isDir : Asks checkIsDir (fun e h => TopOk e.root h) := by
  refine asks_iff (asks_seq (asks_stat .top (fun o => match o with | .dir _ => none | _ => some ENOTDIR))
    (asks_access .top ⟨true, true, true⟩)) (fun e h => ?_)
  have rt : Reach e h .top := rfl
  constructor
  · rintro ⟨⟨_, o, h1, h2⟩, ⟨_, o', h3, h4⟩⟩
    rw [h1] at h3; cases h3
    cases o with
    | dir p => exact ⟨p, h1, h4.imp id (fun q => ⟨q.1 rfl, q.2.1 rfl, q.2.2 rfl⟩)⟩
    | file p d => cases h2
    | other p => cases h2
  · rintro ⟨p, h1, h2⟩
    exact ⟨⟨rt, _, h1, rfl⟩, ⟨rt, _, h1, h2.imp id (fun q => ⟨fun _ => q.1, fun _ => q.2.1, fun _ => q.2.2⟩)⟩⟩

/-- nothing but `.` and `..` in the directory -/
def Empty (h : Host) : Prop := h.ent .dots = none ∧ h.ent .conf = none ∧ h.extra = 0

theorem ndes_iff (h : Host) : ¬ ndes h > 2 ↔ Empty h := by
  unfold ndes Empty
  cases h.ent .dots <;> cases h.ent .conf <;> simp <;> omega

theorem asks_empty : Asks (seq realpathDir checkEmptyDir) (fun e h => TopOk e.root h ∧ Empty h) := by
  refine asks_iff (asks_seq (asks_seq (asks_stat .top (fun _ => none)) asks_isDir)
    (asks_seq asks_isDir (asks_seq (asks_openDir .top) (asks_seq (asks_look .top (fun _ _ => none))
      (asks_look .top (fun _ h => if ndes h > 2 then some 0 else none)))))) (fun e h => ?_)
  have rt : Reach e h .top := rfl
  constructor
  · rintro ⟨⟨_, h1⟩, _, _, _, h2⟩
    refine ⟨h1, (ndes_iff h).1 (fun q => ?_)⟩
    rw [if_pos q] at h2; cases h2
  · rintro ⟨h1, h2⟩
    obtain ⟨p, hp, hq⟩ := h1
    exact ⟨⟨⟨rt, _, hp, rfl⟩, ⟨p, hp, hq⟩⟩, ⟨p, hp, hq⟩, ⟨rt, p, hp, hq.imp id (·.1)⟩, rfl,
      if_neg ((ndes_iff h).2 h2)⟩

/-- **C78.** The command keeps its hands off a directory which has anything in it: it fails and changes nothing —
whatever is there, a repository too. -/
theorem C78_init_keeps (txt : List Nat) (e : Env) (s : St) (ht : s.host.ent .top ≠ none)
    (hn : s.host.ent .dots ≠ none ∨ s.host.ent .conf ≠ none ∨ 0 < s.host.extra) :
    (init txt e s).1 ≠ .ok ∧ (init txt e s).2.host = s.host := by
  have h1 := onErr_top e s ht
  have hp : (initPrepare e s).1 ≠ .ok ∧ (initPrepare e s).2.host = s.host := by
    unfold initPrepare
    by_cases q : (onErr ENOENT (stat .top (fun _ => none)) (mkdir .top) e s).1 = .ok
    · rw [seq_of_ok q]
      obtain ⟨g1, g2, _⟩ := asks_empty e (onErr ENOENT (stat .top (fun _ => none)) (mkdir .top) e s).2
      refine ⟨fun k => ?_, g1.trans h1⟩
      obtain ⟨_, k1, k2, k3⟩ := g2 k
      rw [h1] at k1 k2 k3
      rcases hn with q | q | q
      · exact absurd k1 q
      · exact absurd k2 q
      · omega
    · rw [seq_not_ok q]
      exact ⟨q, h1⟩
  unfold init
  rw [seq_not_ok hp.1]
  exact hp

/-! ## What a finished attempt has made -/

/-- a name which is free or a directory -/
def Kind (sl : Slot) (h : Host) : Prop := h.ent sl = none ∨ DirAt h sl

theorem kind_stable (e : Env) {sl} (hs : ¬ FileSlot sl) : Stable e (Kind sl) := fun h h' g k => by
  rcases g.dir sl hs with q | ⟨_, q⟩
  · unfold Kind DirAt at k ⊢; rw [q]; exact k
  · exact .inr ⟨_, q⟩

/-- a directory with these bits -/
def DirWith (c : Perm → Prop) (sl : Slot) (h : Host) : Prop := ∃ p, h.ent sl = some (.dir p) ∧ c p

theorem dirWith_stable (e : Env) {c sl} (hs : ¬ FileSlot sl) : Stable e (DirWith c sl) := fun h h' g => by
  rintro ⟨p, hp, hc⟩
  rcases g.dir sl hs with q | ⟨q, _⟩
  · exact ⟨p, q.trans hp, hc⟩
  · rw [q] at hp; cases hp

theorem stable_and {e F G} (hf : Stable e F) (hg : Stable e G) : Stable e (fun h => F h ∧ G h) :=
  fun h h' g k => ⟨hf h h' g k.1, hg h h' g k.2⟩

theorem post_skelDir (e : Env) {sl} (hs : ¬ FileSlot sl) : Post e (Kind sl) (skelDir sl)
    (fun k => DirWith (fun p => p.r ∧ p.w ∧ p.x) sl k ∧ Reach e k sl) :=
  post_right (rel_allow ord_grow (grows_mkdir hs)) (kind_stable e hs) (fun s hP hk => by
    obtain ⟨g1, g2, _⟩ := asks_stat sl
      (fun o => if (objPerm o).r && (objPerm o).w && (objPerm o).x then none else some SEACCES) e s
    rw [g1]
    obtain ⟨r, o, ho, hq⟩ := g2 hk
    refine ⟨?_, r⟩
    rcases hP with k | ⟨p, k⟩
    · rw [ho] at k; cases k
    · rw [ho] at k; cases k
      refine ⟨p, ho, ?_⟩
      obtain ⟨r1, w1, x1⟩ := p
      cases r1 <;> cases w1 <;> cases x1 <;> first | exact ⟨rfl, rfl, rfl⟩ | cases hq)

def Kinds (h : Host) : Prop := (Kind .blobs h ∧ Kind .pack h) ∧ Kind .objs h ∧ Kind .refs h

theorem kinds_stable (e) : Stable e Kinds :=
  stable_and (stable_and (kind_stable e nf_blobs) (kind_stable e nf_pack))
    (stable_and (kind_stable e nf_objs) (kind_stable e nf_refs))

def Rwx (p : Perm) : Prop := p.r ∧ p.w ∧ p.x

theorem post_skel (e : Env) : Post e Kinds createSkel (fun k => (((DirWith Rwx .blobs k ∧
    DirWith (fun p => e.root = true ∨ p.x = true) .dots k) ∧ DirWith Rwx .pack k) ∧ DirWith Rwx .objs k) ∧
    DirWith Rwx .refs k) := by
  have t6 : Grows (seq (skelFile .metaf metaSize) (skelFile .lockf metaSize)) :=
    rel_seq ord_grow (grows_skelFile _ f_metaf) (grows_skelFile _ f_lockf)
  have t5 := rel_seq ord_grow (grows_skelDir nf_refs) t6
  have t4 := rel_seq ord_grow (grows_skelDir nf_objs) t5
  have t3 := rel_seq ord_grow (grows_skelDir nf_pack) t4
  have ks := kinds_stable e
  refine post_and (post_and (post_and (post_and ?_ ?_) ?_) ?_) ?_
  · exact post_left (post_mono (post_skelDir e nf_blobs) (fun k h => h.1.1) (fun k h => h.1)) (dirWith_stable e nf_blobs) t3
  · exact post_left (post_mono (post_skelDir e nf_blobs) (fun k h => h.1.1)
      (fun k h => (reach_iff (q := .dots) rfl).1 h.2)) (dirWith_stable e nf_dots) t3
  · exact post_right (grows_skelDir nf_blobs) ks
      (post_left (post_mono (post_skelDir e nf_pack) (fun k h => h.1.2) (fun k h => h.1)) (dirWith_stable e nf_pack) t4)
  · exact post_right (grows_skelDir nf_blobs) ks (post_right (grows_skelDir nf_pack) ks
      (post_left (post_mono (post_skelDir e nf_objs) (fun k h => h.2.1) (fun k h => h.1)) (dirWith_stable e nf_objs) t5))
  · exact post_right (grows_skelDir nf_blobs) ks (post_right (grows_skelDir nf_pack) ks
      (post_right (grows_skelDir nf_objs) ks
        (post_left (post_mono (post_skelDir e nf_refs) (fun k h => h.2.2) (fun k h => h.1)) (dirWith_stable e nf_refs) t6)))

theorem post_pwriten {e sl b P} : Post e P (pwriten sl b)
    (fun k => ∃ p d, k.ent sl = some (.file p (overwrite b d))) :=
  post_prim (fun k _ hc => by
    rw [put_at]
    unfold isFile at hc
    rcases q : k.ent sl with _ | p | ⟨p, d⟩ | p <;> rw [q] at hc
    · cases hc
    · cases hc
    · exact ⟨p, d, rfl⟩
    · cases hc)

theorem overwrite_pre (b d : List Nat) : b <+: overwrite b d := ⟨_, rfl⟩

theorem pre_len {a b : List Nat} (h : a <+: b) : a.length ≤ b.length := h.length_le

theorem metaData_len : metaData.length = 1024 := by decide +kernel
theorem lockData_len : lockData.length = 1024 := by decide +kernel

def MetaMade (h : Host) : Prop := ∃ d, h.ent .metaf = some (.file ⟨true, false, false⟩ d) ∧ 1024 ≤ d.length ∧
  [0x23, 0x53, 0x49, 0x4C, 0x4F, 0x46, 0x53, 0x23, 1, 0, 0, 0] <+: d

theorem post_meta (e P) : Post e P formatMeta MetaMade :=
  post_seq (Q := fun _ => True) (fun _ _ _ => trivial) (post_closing
    (post_seq post_pwriten (post_seq (Q := fun k => ∃ p d, k.ent .metaf = some (.file p (overwrite metaData d)))
      (post_look (fun k h _ => h))
      (post_prim (fun k h _ => by
        obtain ⟨p, d, hd⟩ := h
        refine ⟨overwrite metaData d, by rw [put_at, hd], ?_, ?_⟩
        · have := pre_len (overwrite_pre metaData d); rw [metaData_len] at this; exact this
        · exact List.IsPrefix.trans ⟨_, rfl⟩ (overwrite_pre metaData d))))))

def LockMade (root : Bool) (h : Host) : Prop := ∃ p d, h.ent .lockf = some (.file p d) ∧ (root ∨ p.r) ∧
  1024 ≤ d.length ∧ [83, 73, 76, 79, 70, 83, 95, 76, 79, 67, 75] <+: d

theorem post_lock (e P) : Post e P formatLock (LockMade e.root) :=
  post_seq (Q := fun k => ∃ o, k.ent .lockf = some o ∧ (e.root = true ∨ (objPerm o).r = true))
    (post_look (fun k _ hc => by
      unfold rwChk at hc
      cases u : under e k .lockf with
      | some x => rw [u] at hc; cases hc
      | none =>
        rw [u] at hc
        rcases q : k.ent .lockf with _ | p | ⟨p, d⟩ | p <;> rw [q] at hc
        · cases hc
        · cases hc
        · refine ⟨_, rfl, ?_⟩
          revert hc; simp only [objPerm]; cases e.root <;> cases p.r <;> simp
        · refine ⟨_, rfl, ?_⟩
          revert hc; simp only [objPerm]; cases e.root <;> cases p.r <;> simp))
    (post_closing (post_seq
      (Q := LockMade e.root)
      (post_prim (fun k h hc => by
        obtain ⟨o, ho, hr⟩ := h
        unfold isFile at hc
        rw [ho] at hc
        cases o with
        | dir p => cases hc
        | other p => cases hc
        | file p d =>
          refine ⟨p, overwrite lockData d, by rw [put_at, ho]; rfl, hr, ?_, ?_⟩
          · have := pre_len (overwrite_pre lockData d); rw [lockData_len] at this; exact this
          · exact List.IsPrefix.trans ⟨_, rfl⟩ (overwrite_pre lockData d)))
      (post_look (fun k h _ => h))))

theorem topOk_stable (e root) : Stable e (TopOk root) := dirWith_stable e nf_top

/-- what a finished format has made -/
def Made (root : Bool) (h : Host) : Prop := IsRepo h ∧ Able root h

theorem post_format (e : Env) : Post e (fun k => Kinds k ∧ TopOk e.root k) format (Made e.root) := by
  have ks := kinds_stable e
  have ps : Stable e (fun k => Kinds k ∧ TopOk e.root k) := stable_and ks (topOk_stable e _)
  have g0 : Grows (openDir .top) := rel_look ord_grow _ _
  have g1 : Grows (allow EEXIST (mkdir .dots)) := rel_allow ord_grow (grows_mkdir nf_dots)
  have g2 : Grows (openDir .dots) := rel_look ord_grow _ _
  have g4 : Grows (openDir .objs) := rel_look ord_grow _ _
  have t3 := rel_seq ord_grow grows_skel grows_tail3
  have top : Post e (fun k => Kinds k ∧ TopOk e.root k) format (TopOk e.root) :=
    fun s hP _ => topOk_stable e _ _ _ (grows_format e s) hP.2
  have dots : Post e (fun k => Kinds k ∧ TopOk e.root k) format
      (DirWith (fun p => e.root = true ∨ p.r = true) .dots) :=
    post_right g0 ps (post_right g1 ps (post_left
      (post_mono (look_ask (asks_openDir .dots)) (fun _ h => h) (fun k h => h.2)) (dirWith_stable e nf_dots) t3))
  have skel := post_right g0 ps (post_right g1 ps (post_right g2 ps (post_left
      (post_mono (post_skel e) (fun k (h : Kinds k ∧ TopOk e.root k) => h.1) (fun k h => h))
      (stable_and (stable_and (stable_and (stable_and (dirWith_stable e nf_blobs) (dirWith_stable e nf_dots))
        (dirWith_stable e nf_pack)) (dirWith_stable e nf_objs)) (dirWith_stable e nf_refs)) grows_tail3)))
  have subs := post_right g0 ps (post_right g1 ps (post_right g2 ps (post_right grows_skel ps (post_right g4 ps
    (post_left (post_subs e (fun k => Kinds k ∧ TopOk e.root k) nsubs)
      (fun h h' g k i hi => dirAt_stable e (nf_sub i) h h' g (k i hi)) grows_tail)))))
  have meta' : Post e (fun k => Kinds k ∧ TopOk e.root k) (seq formatMeta formatLock) MetaMade :=
    post_seq (post_meta e _) (fun s h _ => by
      obtain ⟨d, hd, hq⟩ := h
      exact ⟨d, (still_lock (t := .metaf) nofun e s).trans hd, hq⟩)
  have lock' : Post e (fun k => Kinds k ∧ TopOk e.root k) (seq formatMeta formatLock) (LockMade e.root) :=
    post_seq (Q := fun _ => True) (fun _ _ _ => trivial) (post_lock e _)
  have files := post_right g0 ps (post_right g1 ps (post_right g2 ps (post_right grows_skel ps (post_right g4 ps
    (post_right (grows_subs nsubs) ps (post_and meta' lock'))))))
  intro s hP hk
  obtain ⟨pt, ht, htp⟩ := top s hP hk
  obtain ⟨pd, hd, hdr⟩ := dots s hP hk
  obtain ⟨⟨⟨⟨⟨_, hb, _⟩, ⟨pd', hd', hdx⟩⟩, ⟨_, hpk, _⟩⟩, ⟨po, ho, hop⟩⟩, ⟨_, hr, _⟩⟩ := skel s hP hk
  have hs := subs s hP hk
  obtain ⟨⟨dm, hm, hml, hmp⟩, ⟨pl, dl, hl, hlr, hll, hlp⟩⟩ := files s hP hk
  unfold format
  have e1 : pd' = pd := by
    have := hd'.symm.trans hd
    simpa using this
  subst e1
  refine ⟨⟨⟨⟨_, ht⟩, ⟨_, hd⟩, ⟨_, hb⟩, ⟨_, hpk⟩, ⟨_, ho⟩, ⟨_, hr⟩, ⟨_, _, hm, hml, hmp⟩, ⟨_, _, hl, hll, hlp⟩⟩, hs⟩, ?_⟩
  refine ⟨⟨_, ht, htp⟩, ⟨_, hd, ?_⟩, ⟨_, ho, .inr hop.1⟩, ⟨_, _, hm, .inr rfl⟩, ⟨_, _, hl, hlr⟩⟩
  rcases hdr with q | q
  · exact .inl q
  · exact hdx.imp id (fun z => ⟨q, z⟩)

/-- nothing of a repository is in the directory -/
def Bare (h : Host) : Prop := Empty h ∧ h.ent .blobs = none ∧ h.ent .pack = none ∧ h.ent .objs = none ∧ h.ent .refs = none

theorem post_prepare (e : Env) : Post e Tree initPrepare (fun k => TopOk e.root k ∧ Bare k) := fun s ht hk => by
  have hk' := hk
  unfold initPrepare at hk'
  obtain ⟨_, h2⟩ := seq_ok hk'
  rw [h2] at hk'
  obtain ⟨g1, g2, _⟩ := asks_empty e (onErr ENOENT (stat .top (fun _ => none)) (mkdir .top) e s).2
  obtain ⟨k1, k2⟩ := g2 hk'
  have e1 : (initPrepare e s).2.host = (onErr ENOENT (stat .top (fun _ => none)) (mkdir .top) e s).2.host := by
    unfold initPrepare; rw [h2]; exact g1
  rw [← e1] at k1 k2
  have st {t : Slot} (n : t ≠ .top) : (initPrepare e s).2.host.ent t = s.host.ent t := still_prepare n e s
  have hd : ¬ DirAt s.host .dots := by
    rintro ⟨p, q⟩
    rw [← st (t := .dots) nofun, k2.1] at q
    cases q
  have none' {t : Slot} (n : t ≠ .top) (h : s.host.ent t ≠ none → DirAt s.host .dots) :
      (initPrepare e s).2.host.ent t = none := by
    rw [st n]
    exact Decidable.byContradiction (fun q => hd (h q))
  exact ⟨k1, k2, none' nofun ht.blobs, none' nofun ht.pack, none' nofun ht.objs, none' nofun ht.refs⟩

theorem post_save (e : Env) (txt : List Nat) (P : Host → Prop) : Post e (fun k => P k ∧ k.ent .conf = none) (saveConf txt)
    (fun k => ∃ p, k.ent .conf = some (.file p txt)) :=
  post_seq (Q := fun k => k.ent .conf = some (.file (freshFile e) []))
    (post_prim (fun k h _ => by rw [put_at, h.2]))
    (post_closing (post_prim (fun k h _ => ⟨freshFile e, by rw [put_at, h]; simp [onData, overwrite]⟩)))

theorem still_format_conf : Rel (Still .conf) format :=
  have o := ord_still .conf
  rel_seq o (rel_look o _ _) (rel_seq o (rel_allow o (still_prim nofun)) (rel_seq o (rel_look o _ _) (rel_seq o
    (rel_seq o (still_skelDir nofun) (rel_seq o (still_skelDir nofun) (rel_seq o (still_skelDir nofun)
      (rel_seq o (still_skelDir nofun) (rel_seq o (still_skelFile _ nofun) (still_skelFile _ nofun))))))
    (rel_seq o (rel_look o _ _) (rel_seq o (still_subs (fun _ h => by cases h) _)
      (rel_seq o (still_meta nofun) (still_lock nofun)))))))

/-- what is made stays when the ids file is written -/
theorem made_save (root : Bool) (txt : List Nat) (e : Env) (s : St) (h : Made root s.host) :
    Made root (saveConf txt e s).2.host := by
  have st {t : Slot} (n : t ≠ .conf) : (saveConf txt e s).2.host.ent t = s.host.ent t := still_save txt n e s
  obtain ⟨⟨⟨h1, h2, h3, h4, h5, h6, h7, h8⟩, h9⟩, ⟨a1, a2, a3, a4, a5⟩⟩ := h
  unfold DirAt FileAt at *
  refine ⟨⟨⟨?_, ?_, ?_, ?_, ?_, ?_, ?_, ?_⟩, fun i hi => ?_⟩, ⟨?_, ?_, ?_, ?_, ?_⟩⟩ <;>
    (try unfold DirAt) <;> (try unfold FileAt) <;> (rw [st (by intro q; cases q)]) <;>
    first | assumption | exact h9 i hi

/-- the rights of the maker are enough, and the super user's too -/
theorem able_root {r r' : Bool} {h : Host} (a : Able r h) (q : r' = r ∨ r' = true) : Able r' h := by
  rcases q with q | q
  · rw [q]; exact a
  · subst q
    obtain ⟨⟨_, t, _⟩, ⟨_, d, _⟩, ⟨_, o, _⟩, ⟨_, _, m, _⟩, ⟨_, _, l, _⟩⟩ := a
    exact ⟨⟨_, t, .inl rfl⟩, ⟨_, d, .inl rfl⟩, ⟨_, o, .inl rfl⟩, ⟨_, _, m, .inl rfl⟩, ⟨_, _, l, .inl rfl⟩⟩

/-- **C78.** When `init` says that it succeeded — under any umask, whatever happened at the calls — the directory holds a
whole repository and the ids file with the text which was to be written; and the user who made it, or the super
user, can open it (if no system call fails). -/
theorem C78_made (txt : List Nat) (e : Env) (s : St) (ht : Tree s.host) (ho : (init txt e s).1 = .ok) :
    IsRepo (init txt e s).2.host ∧ (∃ p, (init txt e s).2.host.ent .conf = some (.file p txt)) ∧
    ∀ (e' : Env) (k : Nat), Calm e' → (e'.root = e.root ∨ e'.root = true) →
      (openRepo e' ⟨(init txt e s).2.host, k⟩).1 = .ok := by
  have h : Post e Tree (init txt) (fun k => Made e.root k ∧ ∃ p, k.ent .conf = some (.file p txt)) :=
    post_seq (post_prepare e) (post_seq (Q := fun k => TopOk e.root k ∧ Bare k) (post_look (fun k h _ => h))
      (post_seq (Q := fun k => Made e.root k ∧ k.ent .conf = none)
        (fun s h hk => ⟨post_format e s ⟨⟨⟨.inl h.2.2.1, .inl h.2.2.2.1⟩, .inl h.2.2.2.2.1, .inl h.2.2.2.2.2⟩, h.1⟩ hk,
          (still_format_conf e s).trans h.2.1.2.1⟩)
        (post_seq (Q := fun k => Made e.root k ∧ k.ent .conf = none) (post_look (fun k h _ => h))
          (fun s h hk => ⟨made_save e.root txt e s h.1, post_save e txt (fun _ => True) s ⟨trivial, h.2⟩ hk⟩))))
  obtain ⟨⟨h1, h2⟩, h3⟩ := h s ht ho
  exact ⟨h1, h3, fun e' k hc hr => (C78_open e' _).2.2 hc h1.skel (able_root h2 hr)⟩

/-! ## Another attempt -/

/-- what attempts leave: directories with the owner's bits, files where files are -/
structure Left (h : Host) : Prop where
  top : h.ent .top = some (.dir ⟨true, true, true⟩)
  bits : ∀ sl, ¬ FileSlot sl → h.ent sl = none ∨ ∃ o, h.ent sl = some o ∧ objPerm o = ⟨true, true, true⟩
  dirs : ∀ sl, (sl = .dots ∨ sl = .objs ∨ ∃ i, sl = .sub i) →
    h.ent sl = none ∨ h.ent sl = some (.dir ⟨true, true, true⟩)
  files : ∀ sl, FileSlot sl → ¬ DirAt h sl

theorem freshDir_plain {e : Env} (h : Plain e) : freshDir e = ⟨true, true, true⟩ := by
  obtain ⟨h1, h2, h3⟩ := h
  simp [freshDir, h1, h2, h3]

theorem left_stable {e : Env} (hp : Plain e) : Stable e Left := fun h h' g l => by
  refine ⟨?_, fun sl hs => ?_, fun sl hs => ?_, fun sl hs => fun q => l.files sl hs ((g.file sl hs).1 q)⟩
  · rcases g.dir .top nf_top with q | ⟨q, _⟩
    · exact q.trans l.top
    · rw [l.top] at q; cases q
  · rcases g.dir sl hs with q | ⟨_, q⟩
    · rw [q]; exact l.bits sl hs
    · right; rw [q, freshDir_plain hp]; exact ⟨_, rfl, rfl⟩
  · have n : ¬ FileSlot sl := by
      rcases hs with rfl | rfl | ⟨i, rfl⟩
      · exact nf_dots
      · exact nf_objs
      · exact nf_sub i
    rcases g.dir sl n with q | ⟨_, q⟩
    · rw [q]; exact l.dirs sl hs
    · right; rw [q, freshDir_plain hp]

/-- under a calm host `a` succeeds from `P` with `Q` -/
def Tot (e : Env) (P : Host → Prop) (a : Op) (Q : Host → Prop) : Prop :=
  ∀ s, P s.host → (a e s).1 = .ok ∧ Q (a e s).2.host

theorem tot_seq {e P a Q b R} (ha : Tot e P a Q) (hb : Tot e Q b R) : Tot e P (seq a b) R := fun s hP => by
  obtain ⟨h1, h2⟩ := ha s hP
  rw [seq_of_ok h1]
  exact hb _ h2

theorem tot_prim {e P sl chk new part Q} (hc : Calm e)
    (h : ∀ k, P k → chk e k = none ∧ Q (put k sl (new e (k.ent sl)))) : Tot e P (prim sl chk new part) Q := fun s hP => by
  obtain ⟨h1, h2⟩ := h _ hP
  simp only [prim, hc s.k, h1]
  exact ⟨trivial, h2⟩

theorem tot_asks {e P a c} (hc : Calm e) (ha : Asks a c) (h : ∀ k, P k → c e k) : Tot e P a P := fun s hP =>
  ⟨(ha e s).2.2 hc (h _ hP), by rw [(ha e s).1]; exact hP⟩

theorem tot_closing {e P a Q} (hc : Calm e) (h : Tot e P a Q) : Tot e P (closing a) Q := fun s hP => by
  obtain ⟨h1, h2⟩ := h s hP
  refine ⟨?_, by rw [closing_host]; exact h2⟩
  unfold closing
  rcases q : a e s with ⟨r, s'⟩
  rw [q] at h1
  subst h1
  simp only [close, look, prim, hc s'.k]

abbrev Full : Perm := ⟨true, true, true⟩

/-- `sl` is there as a directory with all bits -/
def Has (sl : Slot) (h : Host) : Prop := h.ent sl = some (.dir Full)

theorem has_stable (e : Env) {sl} (hs : ¬ FileSlot sl) : Stable e (Has sl) := fun h h' g k => by
  rcases g.dir sl hs with q | ⟨q, _⟩
  · exact q.trans k
  · rw [k] at q; cases q

theorem reach_has {e : Env} {h : Host} {sl q : Slot} (hp : parent sl = some q) (hh : Has q h) : Reach e h sl :=
  (reach_iff hp).2 ⟨_, hh, .inr rfl⟩

theorem mayEdit_has {e : Env} {h : Host} {sl q : Slot} (hp : parent sl = some q) (hh : Has q h) : mayEdit e h sl = true := by
  unfold mayEdit
  rw [hp]
  simp only
  rw [hh]
  simp

/-- `sl` is there with all bits -/
def HasBits (sl : Slot) (h : Host) : Prop := ∃ o, h.ent sl = some o ∧ objPerm o = Full

/-- making a directory where something with all bits may be -/
theorem tot_mkdir {e : Env} (hc : Calm e) (hp : Plain e) {sl q : Slot} (hs : ¬ FileSlot sl) (hq : parent sl = some q)
    {P : Host → Prop} (hP : Stable e P) (hl : ∀ k, P k → Left k) (hh : ∀ k, P k → Has q k) :
    Tot e P (allow EEXIST (mkdir sl)) (fun k => P k ∧ HasBits sl k) := fun s h => by
  have g := rel_allow ord_grow (x := EEXIST) (grows_mkdir hs) e s
  have hP' := hP _ _ g h
  have key : (allow EEXIST (mkdir sl) e s).1 = .ok ∧ HasBits sl (allow EEXIST (mkdir sl) e s).2.host := by
    have r : under e s.host sl = none := reach_has hq (hh _ h)
    unfold allow mkdir prim
    rw [hc s.k]
    simp only [r]
    rcases (hl _ h).bits sl hs with k | ⟨o, k, k'⟩
    · simp [k, mayEdit_has hq (hh _ h), HasBits, put_at, freshDir_plain hp, objPerm]
    · simp [k, HasBits, EEXIST, k']
  exact ⟨key.1, hP', key.2⟩

theorem has_of {sl : Slot} {h : Host} (hl : Left h) (hb : HasBits sl h) (hs : sl = .dots ∨ sl = .objs ∨ ∃ i, sl = .sub i) :
    Has sl h := by
  obtain ⟨o, ho, _⟩ := hb
  rcases hl.dirs sl hs with q | q
  · rw [q] at ho; cases ho
  · exact q

theorem tot_skelDir {e : Env} (hc : Calm e) (hp : Plain e) {sl : Slot} (hs : ¬ FileSlot sl) (hq : parent sl = some .dots)
    {P : Host → Prop} (hP : Stable e P) (hl : ∀ k, P k → Left k) (hh : ∀ k, P k → Has .dots k) :
    Tot e P (skelDir sl) (fun k => P k ∧ HasBits sl k) :=
  tot_seq (tot_mkdir hc hp hs hq hP hl hh)
    (tot_asks hc (asks_stat _ _) (fun k h => by
      obtain ⟨h1, o, ho, hb⟩ := h
      exact ⟨reach_has hq (hh _ h1), o, ho, by rw [hb]; rfl⟩))

/-- a file with the owner's rights -/
def HasFile (sl : Slot) (h : Host) : Prop := ∃ d, h.ent sl = some (.file ⟨true, true, false⟩ d)

theorem tot_skelFile {e : Env} (hc : Calm e) (hp : Plain e) {sl : Slot} (n : Nat) (hs : FileSlot sl)
    (hq : parent sl = some .dots) (P : Host → Prop) (hP : Stable e P) (hl : ∀ k, P k → Left k)
    (hh : ∀ k, P k → Has .dots k) :
    Tot e P (skelFile sl n) (fun k => P k ∧ HasFile sl k) := by
  have ff : freshFile e = ⟨true, true, false⟩ := by
    obtain ⟨h1, h2, h3⟩ := hp
    simp [freshFile, h1, h2]
  have a1 : Tot e P (allow ENOENT (unlink sl)) (fun k => P k ∧ k.ent sl = none) := fun s h => by
    have g := rel_allow ord_grow (x := ENOENT) (grows_unlink hs) e s
    have key : (allow ENOENT (unlink sl) e s).1 = .ok ∧ (allow ENOENT (unlink sl) e s).2.host.ent sl = none := by
      have r : under e s.host sl = none := reach_has hq (hh _ h)
      unfold allow unlink prim
      rw [hc s.k]
      simp only [r]
      rcases o : s.host.ent sl with _ | p | ⟨p, d⟩ | p
      · simp [o, ENOENT]
      · exact absurd ⟨p, o⟩ ((hl _ h).files sl hs)
      · simp [mayEdit_has hq (hh _ h), put_at]
      · simp [mayEdit_has hq (hh _ h), put_at]
    exact ⟨key.1, hP _ _ g h, key.2⟩
  have a2 : Tot e (fun k => P k ∧ k.ent sl = none) (openCreat sl) (fun k => P k ∧ HasFile sl k) :=
    tot_prim hc (fun k h => by
      have r : under e k sl = none := reach_has hq (hh _ h.1)
      have c : rwChk true sl e k = none := by
        unfold rwChk
        simp [r, h.2, mayEdit_has hq (hh _ h.1)]
      refine ⟨c, hP _ _ (grow_put_file hs ?_) h.1, [], ?_⟩
      · simp [h.2, DirAt]
      · rw [put_at, h.2]; simp only [ff])
  have a3 : Tot e (fun k => P k ∧ HasFile sl k) (ftruncate sl n) (fun k => P k ∧ HasFile sl k) :=
    tot_prim hc (fun k h => by
      obtain ⟨h1, d, h2⟩ := h
      refine ⟨by simp [isFile, h2], hP _ _ (grow_put_file hs (onData_dir _ _)) h1, truncTo n d, ?_⟩
      rw [put_at, h2]; rfl)
  have cl : Tot e (fun k => P k ∧ HasFile sl k) close (fun k => P k ∧ HasFile sl k) :=
    tot_asks hc (asks_look .top (fun _ _ => none)) (fun _ _ => rfl)
  exact tot_seq a1 (tot_seq a2 (tot_seq a3 cl))

/-- what is said of a name which is left alone stays -/
theorem tot_frame {e P a Q} {t : Slot} (h : Tot e P a Q) (st : Rel (Still t) a) :
    Tot e (fun k => P k ∧ HasFile t k) a (fun k => Q k ∧ HasFile t k) := fun s hP => by
  obtain ⟨h1, h2⟩ := h s hP.1
  refine ⟨h1, h2, ?_⟩
  obtain ⟨d, hd⟩ := hP.2
  exact ⟨d, (st e s).trans hd⟩

theorem tot_mono {e P P' a Q Q'} (h : Tot e P a Q) (hp : ∀ k, P' k → P k) (hq : ∀ k, Q k → Q' k) : Tot e P' a Q' :=
  fun s hP => ⟨(h s (hp _ hP)).1, hq _ (h s (hp _ hP)).2⟩

theorem tot_sub {e : Env} (hc : Calm e) (hp : Plain e) (i : Nat)
    (P : Host → Prop) (hP : Stable e P) (hl : ∀ k, P k → Left k) (hh : ∀ k, P k → Has .objs k) :
    Tot e P (formatSub i) P := fun s h => by
  refine ⟨?_, hP _ _ (grows_sub i e s) h⟩
  have r : under e s.host (.sub i) = none := reach_has (q := .objs) rfl (hh _ h)
  have a := asks_stat (.sub i) (fun _ => none) e s
  unfold formatSub ifOk
  rcases q : stat (.sub i) (fun _ => none) e s with ⟨r', s'⟩
  rw [q] at a
  obtain ⟨a1, a2, a3⟩ := a
  have a1 : s'.host = s.host := a1
  rw [← a1] at h r
  rcases (hl _ h).dirs (.sub i) (.inr (.inr ⟨i, rfl⟩)) with k | k
  · cases r' with
    | ok =>
      obtain ⟨_, o, ho, _⟩ := a2 rfl
      rw [← a1, k] at ho; cases ho
    | err x =>
      simp only [mkdir, prim, hc s'.k, r, k, mayEdit_has (sl := .sub i) (q := .objs) rfl (hh _ h)]
      rfl
    | dead =>
      exfalso
      unfold stat look prim at q
      rw [hc s.k] at q
      simp only at q
      split at q <;> cases q
  · have : r' = .ok := a3 hc ⟨by rw [← a1]; exact r, _, by rw [← a1]; exact k, rfl⟩
    subst this
    simp only
    have h1 : (test (.sub i) wantDir e s').1 = .ok := by unfold test; rw [k]; rfl
    rw [seq_of_ok h1]
    refine (asks_access _ _ e _).2.2 hc ?_
    rw [test_host]
    exact ⟨r, _, k, .inr ⟨fun _ => rfl, fun _ => rfl, fun _ => rfl⟩⟩

theorem tot_subs {e : Env} (hc : Calm e) (hp : Plain e) (P : Host → Prop) (hP : Stable e P) (hl : ∀ k, P k → Left k)
    (hh : ∀ k, P k → Has .objs k) : ∀ n, Tot e P (formatSubs n) P
  | 0 => fun s h => ⟨rfl, h⟩
  | n + 1 => tot_seq (tot_subs hc hp P hP hl hh n) (tot_sub hc hp n P hP hl hh)

theorem openRw_has {e : Env} (hc : Calm e) {sl : Slot} (hq : parent sl = some .dots) {P : Host → Prop}
    (hh : ∀ k, P k → Has .dots k) (hf : ∀ k, P k → HasFile sl k) : Tot e P (openRw sl) P :=
  tot_asks hc (asks_look _ _) (fun k h => by
    have r : under e k sl = none := reach_has hq (hh _ h)
    obtain ⟨d, hd⟩ := hf _ h
    unfold rwChk
    simp [r, hd])

theorem tot_pwriten {e : Env} (hc : Calm e) {P : Host → Prop} {sl b} (h : ∀ k, P k → HasFile sl k) :
    Tot e P (pwriten sl b) (fun _ => True) :=
  tot_prim hc (fun k hk => ⟨by obtain ⟨d, hd⟩ := h k hk; simp [isFile, hd], trivial⟩)

theorem tot_fdatasync {e : Env} (hc : Calm e) (P : Host → Prop) (sl) : Tot e P (fdatasync sl) (fun _ => True) :=
  tot_mono (tot_asks hc (asks_look sl (fun _ _ => none)) (fun _ _ => rfl)) (fun _ h => h) (fun _ _ => trivial)

theorem tot_fchmod {e : Env} (hc : Calm e) (P : Host → Prop) (sl p) : Tot e P (fchmod sl p) (fun _ => True) :=
  tot_prim hc (fun k hk => ⟨rfl, trivial⟩)

theorem tot_meta {e : Env} (hc : Calm e) {P : Host → Prop} (hh : ∀ k, P k → Has .dots k)
    (hf : ∀ k, P k → HasFile .metaf k) : Tot e P formatMeta (fun _ => True) :=
  tot_seq (openRw_has hc rfl hh hf) (tot_closing hc (tot_seq (tot_pwriten hc hf)
    (tot_seq (tot_fdatasync hc _ _) (tot_fchmod hc _ _ _))))

theorem tot_lock {e : Env} (hc : Calm e) {P : Host → Prop} (hh : ∀ k, P k → Has .dots k)
    (hf : ∀ k, P k → HasFile .lockf k) : Tot e P formatLock (fun _ => True) :=
  tot_seq (openRw_has hc rfl hh hf) (tot_closing hc (tot_seq (tot_pwriten hc hf) (tot_fdatasync hc _ _)))

/-- a quiet format after whatever attempts left -/
theorem tot_format {e : Env} (hc : Calm e) (hp : Plain e) : Tot e Left format (fun _ => True) := by
  have ls := left_stable hp
  let D : Host → Prop := fun k => Left k ∧ Has .dots k
  have ds : Stable e D := stable_and ls (has_stable e nf_dots)
  let O : Host → Prop := fun k => D k ∧ Has .objs k
  have os : Stable e O := stable_and ds (has_stable e nf_objs)
  have dl : ∀ k, D k → Left k := fun k h => h.1
  have dd : ∀ k, D k → Has .dots k := fun k h => h.2
  have ol : ∀ k, O k → Left k := fun k h => h.1.1
  have od : ∀ k, O k → Has .dots k := fun k h => h.1.2
  have oo : ∀ k, O k → Has .objs k := fun k h => h.2
  have s1 : Tot e Left (openDir .top) Left :=
    tot_asks hc (asks_openDir .top) (fun k h => ⟨rfl, _, h.top, .inr rfl⟩)
  have s2 : Tot e Left (allow EEXIST (mkdir .dots)) D :=
    tot_mono (tot_mkdir hc hp nf_dots (q := .top) rfl ls (fun _ h => h) (fun _ h => h.top)) (fun _ h => h)
      (fun k h => ⟨h.1, has_of h.1 h.2 (.inl rfl)⟩)
  have s3 : Tot e D (openDir .dots) D :=
    tot_asks hc (asks_openDir .dots) (fun k h => ⟨reach_has (q := .top) rfl h.1.top, _, h.2, .inr rfl⟩)
  have k1 : Tot e D (skelDir .blobs) D := tot_mono (tot_skelDir hc hp nf_blobs rfl ds dl dd) (fun _ h => h) (fun _ h => h.1)
  have k2 : Tot e D (skelDir .pack) D := tot_mono (tot_skelDir hc hp nf_pack rfl ds dl dd) (fun _ h => h) (fun _ h => h.1)
  have k3 : Tot e D (skelDir .objs) O := tot_mono (tot_skelDir hc hp nf_objs rfl ds dl dd) (fun _ h => h)
      (fun k h => ⟨h.1, has_of h.1.1 h.2 (.inr (.inl rfl))⟩)
  have k4 : Tot e O (skelDir .refs) O := tot_mono (tot_skelDir hc hp nf_refs rfl os ol od) (fun _ h => h) (fun _ h => h.1)
  have k5 : Tot e O (skelFile .metaf metaSize) (fun k => O k ∧ HasFile .metaf k) :=
    tot_skelFile hc hp metaSize f_metaf rfl O os ol od
  have k6 : Tot e (fun k => O k ∧ HasFile .metaf k) (skelFile .lockf metaSize)
      (fun k => (O k ∧ HasFile .lockf k) ∧ HasFile .metaf k) :=
    tot_frame (tot_skelFile hc hp metaSize f_lockf rfl O os ol od) (still_skelFile _ nofun)
  have s4 := tot_seq k1 (tot_seq k2 (tot_seq k3 (tot_seq k4 (tot_seq k5 k6))))
  have s5 : Tot e (fun k => (O k ∧ HasFile .lockf k) ∧ HasFile .metaf k) (openDir .objs)
      (fun k => (O k ∧ HasFile .lockf k) ∧ HasFile .metaf k) :=
    tot_asks hc (asks_openDir .objs) (fun k h =>
      ⟨reach_has (q := .dots) rfl (od _ h.1.1), _, oo _ h.1.1, .inr rfl⟩)
  have s6 : Tot e (fun k => (O k ∧ HasFile .lockf k) ∧ HasFile .metaf k) (formatSubs nsubs)
      (fun k => (O k ∧ HasFile .lockf k) ∧ HasFile .metaf k) :=
    tot_frame (tot_frame (tot_subs hc hp O os ol oo nsubs) (still_subs (fun _ h => by cases h) _))
      (still_subs (fun _ h => by cases h) _)
  have s7 : Tot e (fun k => (O k ∧ HasFile .lockf k) ∧ HasFile .metaf k) formatMeta (fun k => O k ∧ HasFile .lockf k) := by
    intro s h
    obtain ⟨d, hd⟩ := h.1.2
    refine ⟨(tot_meta (P := fun k => (O k ∧ HasFile .lockf k) ∧ HasFile .metaf k) hc (fun k h => od _ h.1.1)
      (fun k h => h.2) s h).1,
      os _ _ (grows_meta e s) h.1.1, d, (still_meta (t := .lockf) nofun e s).trans hd⟩
  have s8 : Tot e (fun k => O k ∧ HasFile .lockf k) formatLock (fun _ => True) :=
    tot_lock hc (fun k h => od _ h.1) (fun k h => h.2)
  exact tot_seq s1 (tot_seq s2 (tot_seq s3 (tot_seq s4 (tot_seq s5 (tot_seq s6 (tot_seq s7 s8))))))

theorem left_tries : ∀ (l : List (Try × Env)) (h : Host), (∀ t ∈ l, Plain t.2) → Left h → Left (tries h l)
  | [], h, _, hf => hf
  | (.init txt, e) :: l, h, hp, hf => left_tries l _ (fun t ht => hp t (List.mem_cons_of_mem _ ht))
      (left_stable (hp _ List.mem_cons_self) _ _ (grows_init txt e ⟨h, 0⟩) hf)
  | (.format, e) :: l, h, hp, hf => left_tries l _ (fun t ht => hp t (List.mem_cons_of_mem _ ht))
      (left_stable (hp _ List.mem_cons_self) _ _ (grows_format e ⟨h, 0⟩) hf)

theorem kind_tries {sl} (hs : ¬ FileSlot sl) : ∀ (l : List (Try × Env)) (h : Host), Kind sl h → Kind sl (tries h l)
  | [], h, hf => hf
  | (.init txt, e) :: l, h, hf => kind_tries hs l _ (kind_stable e hs _ _ (grows_init txt e ⟨h, 0⟩) hf)
  | (.format, e) :: l, h, hf => kind_tries hs l _ (kind_stable e hs _ _ (grows_format e ⟨h, 0⟩) hf)

/-- **C78.** The library's format can always be repeated: in an empty directory of the user, after any number of attempts
which failed or were killed anywhere, a format to which nothing happens succeeds, makes a whole repository, and it
can be opened. -/
theorem C78_format_again (h : Host) (ht : h.ent .top = some (.dir ⟨true, true, true⟩))
    (hn : ∀ sl, sl ≠ .top → h.ent sl = none) (l : List (Try × Env)) (hl : ∀ t ∈ l, Plain t.2)
    (e : Env) (hc : Calm e) (hp : Plain e) :
    (format e ⟨tries h l, 0⟩).1 = .ok ∧ IsRepo (format e ⟨tries h l, 0⟩).2.host ∧
    ∀ k, (openRepo e ⟨(format e ⟨tries h l, 0⟩).2.host, k⟩).1 = .ok := by
  have hL : Left h := by
    refine ⟨ht, fun sl hs => ?_, fun sl hs => .inl (hn sl ?_), fun sl hs => ?_⟩
    · by_cases q : sl = .top
      · subst q; exact .inr ⟨_, ht, rfl⟩
      · exact .inl (hn sl q)
    · rcases hs with rfl | rfl | ⟨i, rfl⟩ <;> exact nofun
    · rintro ⟨p, q⟩
      rw [hn sl (fun z => nf_top (z ▸ hs))] at q
      cases q
  have hL' := left_tries l h hl hL
  have ok := (tot_format hc hp ⟨tries h l, 0⟩ hL').1
  have kd (sl) (hs : ¬ FileSlot sl) (n : sl ≠ .top) : Kind sl (tries h l) := kind_tries hs l h (.inl (hn sl n))
  have m := post_format e ⟨tries h l, 0⟩ ⟨⟨⟨kd _ nf_blobs nofun, kd _ nf_pack nofun⟩, kd _ nf_objs nofun, kd _ nf_refs nofun⟩,
    ⟨_, hL'.top, .inr ⟨rfl, rfl, rfl⟩⟩⟩ ok
  exact ⟨ok, m.1, fun k => (C78_open e _).2.2 hc m.1.skel m.2⟩

/-! ## Where it fails -/

/-- nothing there -/
def none0 : Host := ⟨fun _ => none, 0⟩
/-- an empty directory -/
def empty0 : Host := ⟨fun sl => if sl = .top then some (.dir Full) else none, 0⟩
def plain (f : Nat → Fault) : Env := ⟨f, fun _ => 0, false, ⟨false, false, false⟩⟩
def quiet : Env := plain (fun _ => .go)

example : Tree none0 := ⟨fun h => absurd rfl h, fun h => absurd rfl h, fun h => absurd rfl h, fun h => absurd rfl h,
  fun h => absurd rfl h, fun h => absurd rfl h, fun h => absurd rfl h, fun h => absurd rfl h, fun h => absurd rfl h,
  fun i h => absurd rfl h⟩

/-- the hypotheses of `C78_format_again` with two attempts, one killed and one failed -/
example : empty0.ent .top = some (.dir ⟨true, true, true⟩) ∧ (∀ sl, sl ≠ .top → empty0.ent sl = none) ∧
    (∀ t ∈ [(Try.init [117], plain (fun k => if k = 20 then .kill else .go)),
      (Try.format, plain (fun k => if k = 9 then .fail 28 else .go))], Plain t.2) ∧ Calm quiet ∧ Plain quiet := by
  refine ⟨rfl, fun sl h => if_neg h, ?_, fun _ => rfl, rfl, rfl, rfl⟩
  intro t ht
  simp only [List.mem_cons, List.not_mem_nil, or_false] at ht
  rcases ht with rfl | rfl <;> exact ⟨rfl, rfl, rfl⟩

/-- **C78 fails.** The command cannot be repeated: one `init` fails because the disk is full for a moment (at the making of
`.silofs/blobs`); afterwards `init` refuses the directory for ever, and the repository cannot be opened. -/
theorem C78_init_again_violated : ∃ e, Plain e ∧
    (init [117] e ⟨empty0, 0⟩).1 = .err 28 ∧
    (∀ txt e' k, (init txt e' ⟨(init [117] e ⟨empty0, 0⟩).2.host, k⟩).1 ≠ .ok) ∧
    (∀ e' k, (openRepo e' ⟨(init [117] e ⟨empty0, 0⟩).2.host, k⟩).1 ≠ .ok) := by
  have q1 : (init [117] (plain (fun k => if k = 13 then .fail 28 else .go)) ⟨empty0, 0⟩).2.host.ent .top ≠ none := by
    decide +kernel
  have q2 : (init [117] (plain (fun k => if k = 13 then .fail 28 else .go)) ⟨empty0, 0⟩).2.host.ent .dots ≠ none := by
    decide +kernel
  have q3 : (init [117] (plain (fun k => if k = 13 then .fail 28 else .go)) ⟨empty0, 0⟩).2.host.ent .blobs = none := by
    decide +kernel
  refine ⟨plain (fun k => if k = 13 then .fail 28 else .go), ⟨rfl, rfl, rfl⟩, by decide +kernel, fun txt e' k => ?_,
    fun e' k h => ?_⟩
  · generalize (init [117] (plain (fun k => if k = 13 then .fail 28 else .go)) ⟨empty0, 0⟩).2.host = x at q1 q2 ⊢
    exact (C78_init_keeps txt e' ⟨x, k⟩ q1 (.inl q2)).1
  · generalize (init [117] (plain (fun k => if k = 13 then .fail 28 else .go)) ⟨empty0, 0⟩).2.host = x at q3 h
    obtain ⟨p, hp⟩ := ((C78_open e' ⟨x, k⟩).2.1 h).1.blobs
    rw [show (St.mk x k).host = x from rfl, q3] at hp
    cases hp

/-- two runs whose calls go alike as far as this one went are the same -/
def Local (a : Op) : Prop := ∀ e e' s, e'.part = e.part → e'.root = e.root → e'.mask = e.mask →
  s.k ≤ (a e s).2.k ∧ ((∀ j, j < (a e s).2.k → e'.fault j = e.fault j) → a e' s = a e s)

theorem local_prim {sl new part} {chk : Env → Host → Option Nat}
    (hk : ∀ e e' h, e'.root = e.root → e'.mask = e.mask → chk e' h = chk e h)
    (hn : ∀ e e' o, e'.mask = e.mask → new e' o = new e o) : Local (prim sl chk new part) := fun e e' s h1 h2 h3 => by
  have k1 : (prim sl chk new part e s).2.k = s.k + 1 := by
    rcases prim_cases sl chk new part e s with ⟨x, h⟩ | ⟨_, h⟩ | ⟨r, _, h⟩ <;> rw [h]
  refine ⟨by omega, fun hj => ?_⟩
  unfold prim
  rw [hj s.k (by omega), h1, hk e e' s.host h2 h3, hn e e' _ h3]

theorem local_look {sl} {chk : Env → Host → Option Nat}
    (hk : ∀ e e' h, e'.root = e.root → e'.mask = e.mask → chk e' h = chk e h) : Local (look sl chk) :=
  local_prim hk (fun _ _ _ _ => rfl)

theorem local_seq {a b : Op} (ha : Local a) (hb : Local b) : Local (seq a b) := fun e e' s h1 h2 h3 => by
  obtain ⟨a1, a2⟩ := ha e e' s h1 h2 h3
  by_cases q : (a e s).1 = .ok
  · obtain ⟨b1, b2⟩ := hb e e' (a e s).2 h1 h2 h3
    rw [seq_of_ok q]
    refine ⟨by omega, fun hj => ?_⟩
    have ea := a2 (fun j h => hj j (by omega))
    rw [seq_of_ok (a := a) (b := b) (e := e') (by rw [ea]; exact q), ea]
    exact b2 hj
  · rw [seq_not_ok q]
    refine ⟨a1, fun hj => ?_⟩
    have ea := a2 hj
    rw [seq_not_ok (a := a) (b := b) (e := e') (by rw [ea]; exact q), ea]

theorem local_allow {a : Op} {x : Nat} (ha : Local a) : Local (allow x a) := fun e e' s h1 h2 h3 => by
  obtain ⟨a1, a2⟩ := ha e e' s h1 h2 h3
  have k1 : (allow x a e s).2.k = (a e s).2.k := by
    unfold allow
    rcases a e s with ⟨r, s'⟩
    cases r with
    | ok => rfl
    | err y => simp only; split <;> rfl
    | dead => rfl
  rw [k1]
  refine ⟨a1, fun hj => ?_⟩
  unfold allow
  rw [a2 hj]

theorem local_onErr {a c : Op} {x : Nat} (ha : Local a) (hc : Local c) : Local (onErr x a c) := fun e e' s h1 h2 h3 => by
  obtain ⟨a1, a2⟩ := ha e e' s h1 h2 h3
  unfold onErr
  rcases q : a e s with ⟨r, s'⟩
  rw [q] at a1 a2
  simp only at a1 a2
  cases r with
  | ok => exact ⟨a1, fun hj => by rw [a2 hj]⟩
  | dead => exact ⟨a1, fun hj => by rw [a2 hj]⟩
  | err y =>
    simp only
    by_cases z : y = x
    · rw [if_pos z]
      obtain ⟨c1, c2⟩ := hc e e' s' h1 h2 h3
      refine ⟨by omega, fun hj => ?_⟩
      rw [a2 (fun j h => hj j (by omega))]
      simp only
      rw [if_pos z]
      exact c2 hj
    · rw [if_neg z]
      refine ⟨a1, fun hj => ?_⟩
      rw [a2 hj]
      simp only
      rw [if_neg z]

theorem local_ifOk {a b c : Op} (ha : Local a) (hb : Local b) (hc : Local c) : Local (ifOk a b c) := fun e e' s h1 h2 h3 => by
  obtain ⟨a1, a2⟩ := ha e e' s h1 h2 h3
  unfold ifOk
  rcases q : a e s with ⟨r, s'⟩
  rw [q] at a1 a2
  simp only at a1 a2
  cases r with
  | dead => exact ⟨a1, fun hj => by rw [a2 hj]⟩
  | ok =>
    obtain ⟨c1, c2⟩ := hb e e' s' h1 h2 h3
    simp only
    refine ⟨by omega, fun hj => ?_⟩
    rw [a2 (fun j h => hj j (by omega))]
    exact c2 hj
  | err y =>
    obtain ⟨c1, c2⟩ := hc e e' s' h1 h2 h3
    simp only
    refine ⟨by omega, fun hj => ?_⟩
    rw [a2 (fun j h => hj j (by omega))]
    exact c2 hj

theorem local_close : Local close := local_look (fun _ _ _ _ _ => rfl)

theorem local_closing {a : Op} (ha : Local a) : Local (closing a) := fun e e' s h1 h2 h3 => by
  obtain ⟨a1, a2⟩ := ha e e' s h1 h2 h3
  rcases q : a e s with ⟨r, s'⟩
  rw [q] at a1 a2
  simp only at a1 a2
  obtain ⟨c1, c2⟩ := local_close e e' s' h1 h2 h3
  by_cases z : r = .dead
  · subst z
    unfold closing
    rw [q]
    exact ⟨a1, fun hj => by rw [a2 hj]⟩
  · have k1 : (closing a e s).2.k = (close e s').2.k := by
      unfold closing
      rw [q]
      cases r <;> first | exact absurd rfl z | (simp only; rcases close e s' with ⟨r2, s2⟩; cases r2 <;> rfl)
    rw [k1]
    refine ⟨by omega, fun hj => ?_⟩
    unfold closing
    rw [a2 (fun j h => hj j (by omega)), q]
    cases r <;> first | exact absurd rfl z | (simp only; rw [c2 hj])

theorem local_under {e e' : Env} (h : Host) (sl : Slot) (r : e'.root = e.root) : under e' h sl = under e h sl := by
  unfold under; rw [r]

theorem local_mayEdit {e e' : Env} (h : Host) (sl : Slot) (r : e'.root = e.root) : mayEdit e' h sl = mayEdit e h sl := by
  unfold mayEdit; rw [r]

theorem local_mkdir (sl) : Local (mkdir sl) :=
  local_prim (fun e e' h r m => by simp only [local_under h sl r, local_mayEdit h sl r])
    (fun e e' o m => by unfold freshDir; rw [m])

theorem local_stat (sl q) : Local (stat sl q) := local_look (fun e e' h r m => by simp only [local_under h sl r])
theorem local_openDir (sl) : Local (openDir sl) := local_look (fun e e' h r m => by simp only [local_under h sl r, r])
theorem local_access (sl q) : Local (accessDir sl q) := local_look (fun e e' h r m => by simp only [local_under h sl r, r])
theorem local_rwChk (c sl) (e e' : Env) (h : Host) (r : e'.root = e.root) : rwChk c sl e' h = rwChk c sl e h := by
  unfold rwChk; simp only [local_under h sl r, local_mayEdit h sl r, r]
theorem local_unlink (sl) : Local (unlink sl) :=
  local_prim (fun e e' h r m => by simp only [local_under h sl r, local_mayEdit h sl r]) (fun _ _ _ _ => rfl)
theorem local_openCreat (sl) : Local (openCreat sl) :=
  local_prim (fun e e' h r m => local_rwChk _ _ e e' h r) (fun e e' o m => by unfold freshFile; rw [m])
theorem local_openRw (sl) : Local (openRw sl) := local_look (fun e e' h r m => local_rwChk _ _ e e' h r)
theorem local_ftruncate (sl n) : Local (ftruncate sl n) := local_prim (fun _ _ _ _ _ => rfl) (fun _ _ _ _ => rfl)
theorem local_pwriten (sl b) : Local (pwriten sl b) := local_prim (fun _ _ _ _ _ => rfl) (fun _ _ _ _ => rfl)
theorem local_fchmod (sl b) : Local (fchmod sl b) := local_prim (fun _ _ _ _ _ => rfl) (fun _ _ _ _ => rfl)
theorem local_fdatasync (sl) : Local (fdatasync sl) := local_look (fun _ _ _ _ _ => rfl)
theorem local_test (sl q) : Local (test sl q) := fun e e' s _ _ _ => by
  rw [test_host]; exact ⟨Nat.le_refl _, fun _ => rfl⟩

theorem local_skelDir (sl) : Local (skelDir sl) := local_seq (local_allow (local_mkdir sl)) (local_stat _ _)
theorem local_skelFile (sl n) : Local (skelFile sl n) :=
  local_seq (local_allow (local_unlink sl)) (local_seq (local_openCreat sl) (local_seq (local_ftruncate sl n) local_close))
theorem local_subs : ∀ n, Local (formatSubs n)
  | 0 => fun e e' s _ _ _ => ⟨Nat.le_refl _, fun _ => rfl⟩
  | n + 1 => local_seq (local_subs n) (local_ifOk (local_stat _ _) (local_seq (local_test _ _) (local_access _ _))
      (local_mkdir _))
theorem local_format : Local format :=
  local_seq (local_openDir _) (local_seq (local_allow (local_mkdir _)) (local_seq (local_openDir _) (local_seq
    (local_seq (local_skelDir _) (local_seq (local_skelDir _) (local_seq (local_skelDir _) (local_seq (local_skelDir _)
      (local_seq (local_skelFile _ _) (local_skelFile _ _))))))
    (local_seq (local_openDir _) (local_seq (local_subs _) (local_seq
      (local_seq (local_openRw _) (local_closing (local_seq (local_pwriten _ _) (local_seq (local_fdatasync _)
        (local_fchmod _ _)))))
      (local_seq (local_openRw _) (local_closing (local_seq (local_pwriten _ _) (local_fdatasync _))))))))))
theorem local_isDir : Local checkIsDir := local_seq (local_stat _ _) (local_access _ _)
theorem local_prepare : Local initPrepare :=
  local_seq (local_onErr (local_stat _ _) (local_mkdir _)) (local_seq (local_seq (local_stat _ _) local_isDir)
    (local_seq local_isDir (local_seq (local_openDir _) (local_seq (local_look (fun _ _ _ _ _ => rfl))
      (local_look (fun _ _ _ _ _ => rfl))))))

/-- all of `init` but the last step -/
def initBut : Op := seq initPrepare (seq initSetup (seq format close))

theorem local_initBut : Local initBut :=
  local_seq local_prepare (local_seq (local_look (fun _ _ _ _ _ => rfl)) (local_seq local_format local_close))

theorem grows_initBut : Grows initBut :=
  rel_seq ord_grow grows_prepare (rel_seq ord_grow (rel_look ord_grow _ _) (rel_seq ord_grow grows_format
    (rel_look ord_grow _ _)))

theorem still_initBut : Rel (Still .conf) initBut :=
  have o := ord_still .conf
  rel_seq o (still_prepare nofun) (rel_seq o (rel_look o _ _) (rel_seq o still_format_conf (rel_look o _ _)))

theorem seq_assoc (a b c : Op) (e : Env) (s : St) : seq (seq a b) c e s = seq a (seq b c) e s := by
  by_cases q : (a e s).1 = .ok
  · rw [seq_of_ok q]
    by_cases p : (b e (a e s).2).1 = .ok
    · rw [seq_of_ok (a := seq a b) (by rw [seq_of_ok q]; exact p), seq_of_ok p, seq_of_ok q]
    · rw [seq_not_ok (a := seq a b) (by rw [seq_of_ok q]; exact p), seq_not_ok p, seq_of_ok q]
  · rw [seq_not_ok q, seq_not_ok (a := seq a b) (by rw [seq_not_ok q]; exact q), seq_not_ok q]

theorem init_but (txt e s) : init txt e s = seq initBut (saveConf txt) e s := by
  unfold init initBut
  rw [seq_assoc]
  by_cases q : (initPrepare e s).1 = .ok
  · rw [seq_of_ok q, seq_of_ok q, seq_assoc]
    by_cases p : (initSetup e (initPrepare e s).2).1 = .ok
    · rw [seq_of_ok p, seq_of_ok p, seq_assoc]
    · rw [seq_not_ok p, seq_not_ok p]
  · rw [seq_not_ok q, seq_not_ok q]

theorem left_empty : Left empty0 := by
  refine ⟨rfl, fun sl hs => ?_, fun sl hs => ?_, fun sl hs => ?_⟩
  · cases sl <;> first | exact .inl rfl | exact .inr ⟨_, rfl, rfl⟩
  · rcases hs with rfl | rfl | ⟨i, rfl⟩ <;> exact .inl rfl
  · rintro ⟨p, q⟩
    rcases hs with rfl | rfl | rfl <;> cases q

theorem tree_empty : Tree empty0 :=
  ⟨fun h => absurd rfl h, fun h => absurd rfl h, fun h => absurd rfl h, fun h => absurd rfl h,
    fun h => absurd rfl h, fun h => absurd rfl h, fun h => absurd rfl h, fun h => absurd rfl h, fun h => absurd rfl h,
    fun i h => absurd rfl h⟩

/-- the quiet run from an empty directory up to the last step -/
theorem initBut_quiet : (initBut quiet ⟨empty0, 0⟩).1 = .ok := by
  have hc : Calm quiet := fun _ => rfl
  have h1 : (initPrepare quiet ⟨empty0, 0⟩).1 = .ok := by decide +kernel
  have h2 : Left (initPrepare quiet ⟨empty0, 0⟩).2.host :=
    left_stable (e := quiet) ⟨rfl, rfl, rfl⟩ _ _ (grows_prepare quiet ⟨empty0, 0⟩) left_empty
  unfold initBut
  rw [seq_of_ok h1]
  generalize (initPrepare quiet ⟨empty0, 0⟩).2 = s at h2
  have a : Tot quiet Left initSetup Left := tot_asks hc (asks_look .top (fun _ _ => none)) (fun _ _ => rfl)
  have c : Tot quiet (fun _ => True) close (fun _ => True) :=
    tot_asks hc (asks_look .top (fun _ _ => none)) (fun _ _ => rfl)
  exact (tot_seq a (tot_seq (tot_format hc ⟨rfl, rfl, rfl⟩) c) s h2).1

/-- The hypotheses of `C78_made` are met: a quiet `init` in an empty directory succeeds. -/
example : Tree empty0 ∧ (init [117] quiet ⟨empty0, 0⟩).1 = .ok := by
  refine ⟨tree_empty, ?_⟩
  rw [init_but, seq_of_ok initBut_quiet]
  have hc : Calm quiet := fun _ => rfl
  have m : ∀ k, k.ent .top = some (.dir Full) ∧ k.ent .conf = none → rwChk true .conf quiet k = none := by
    intro k h
    unfold rwChk under mayEdit
    simp [parent, h.1, h.2]
  have t : Tot quiet (fun k => k.ent .top = some (.dir Full) ∧ k.ent .conf = none) (saveConf [117]) (fun _ => True) :=
    tot_seq (Q := fun k => HasFile .conf k)
      (tot_prim hc (fun k h => ⟨m k h, [], by rw [put_at, h.2]; rfl⟩))
      (tot_closing hc (tot_pwriten hc (fun _ h => h)))
  have g : Grow quiet empty0 (initBut quiet ⟨empty0, 0⟩).2.host := grows_initBut quiet ⟨empty0, 0⟩
  have c : Still .conf quiet empty0 (initBut quiet ⟨empty0, 0⟩).2.host := still_initBut quiet ⟨empty0, 0⟩
  generalize (initBut quiet ⟨empty0, 0⟩).2 = s at g c ⊢
  refine (t s ⟨?_, c⟩).1
  rcases g.dir .top nf_top with q | ⟨q, _⟩
  · exact q
  · cases q

/-- a run to which nothing happens before the last step, and at it the disk is full -/
def lateFail (n : Nat) : Env := plain (fun k => if k < n then .go else .fail 28)

theorem late_fault (n j : Nat) (h : j < n) : (lateFail n).fault j = .go := if_pos h

theorem late_save (x : Host) (n : Nat) : saveConf [117] (lateFail n) ⟨x, n⟩ = (.err 28, ⟨x, n + 1⟩) := by
  have : openTrunc .conf (lateFail n) ⟨x, n⟩ = (.err 28, ⟨x, n + 1⟩) := by
    unfold openTrunc prim lateFail plain
    simp only [Nat.lt_irrefl, if_false, put_same]
  unfold saveConf
  rw [seq_not_ok (by rw [this]; exact nofun), this]

theorem late_init (s : St) (x : Host) (n : Nat) (h : initBut quiet s = (.ok, ⟨x, n⟩)) :
    init [117] (lateFail n) s = (.err 28, ⟨x, n + 1⟩) := by
  have hl := local_initBut quiet (lateFail n) s rfl rfl rfl
  have he := hl.2 (fun j hj => by rw [h] at hj; exact late_fault n j hj)
  rw [h] at he
  rw [init_but, seq_of_ok (by rw [he]), he]
  exact late_save x n

theorem post_initBut (e : Env) : Post e Tree initBut (fun k => Made e.root k ∧ k.ent .conf = none) :=
  post_seq (post_prepare e) (post_seq (Q := fun k => TopOk e.root k ∧ Bare k) (post_look (fun k h _ => h))
    (post_seq (Q := fun k => Made e.root k ∧ k.ent .conf = none)
      (fun s h hk => ⟨post_format e s ⟨⟨⟨.inl h.2.2.1, .inl h.2.2.2.1⟩, .inl h.2.2.2.2.1, .inl h.2.2.2.2.2⟩, h.1⟩ hk,
        (still_format_conf e s).trans h.2.1.2.1⟩)
      (post_look (fun k h _ => h))))

/-- **C78 fails.** When only the last step fails, the writing of `fsids.conf`, `init` says that it failed, but a whole
repository is left, which opens; the ids file, which every `mount` reads, is not there, and `init` cannot be
repeated. -/
theorem C78_no_conf_violated : ∃ e, Plain e ∧
    (init [117] e ⟨empty0, 0⟩).1 = .err 28 ∧
    (init [117] e ⟨empty0, 0⟩).2.host.ent .conf = none ∧
    IsRepo (init [117] e ⟨empty0, 0⟩).2.host ∧
    (∀ k, (openRepo quiet ⟨(init [117] e ⟨empty0, 0⟩).2.host, k⟩).1 = .ok) ∧
    (∀ txt e' k, (init txt e' ⟨(init [117] e ⟨empty0, 0⟩).2.host, k⟩).1 ≠ .ok) := by
  have hM := post_initBut quiet ⟨empty0, 0⟩ tree_empty initBut_quiet
  have hq := initBut_quiet
  generalize hr : initBut quiet ⟨empty0, 0⟩ = r at hM hq
  obtain ⟨r1, x, n⟩ := r
  simp only at hq hM
  subst hq
  refine ⟨lateFail n, ⟨rfl, rfl, rfl⟩, ?_⟩
  rw [late_init ⟨empty0, 0⟩ x n hr]
  obtain ⟨⟨hr, ha⟩, hcf⟩ := hM
  refine ⟨rfl, hcf, hr, fun k => (C78_open quiet ⟨x, k⟩).2.2 (fun _ => rfl) hr.skel ha, fun txt e' k => ?_⟩
  obtain ⟨_, ht⟩ := hr.skel.top
  obtain ⟨_, hd⟩ := hr.skel.dots
  have ht : x.ent .top = _ := ht
  have hd : x.ent .dots = _ := hd
  exact (C78_init_keeps txt e' ⟨x, k⟩ (by simp [ht]) (.inl (by simp [hd]))).1

/-- a repository of which all object directories are lost -/
def lost0 : Host := ⟨fun sl =>
  match sl with
  | .sub _ | .conf => none
  | .metaf => some (.file ⟨true, false, false⟩ metaData)
  | .lockf => some (.file ⟨true, true, false⟩ lockData)
  | _ => some (.dir Full), 0⟩

/-- **C78 fails.** A repository which has lost the directories of its objects is opened all the same. -/
theorem C78_open_lost_violated : (openRepo quiet ⟨lost0, 0⟩).1 = .ok ∧ ¬ IsRepo lost0 := by
  refine ⟨by decide +kernel, fun h => ?_⟩
  obtain ⟨p, q⟩ := h.subs 0 (by decide)
  cases q

/-- `.silofs` with an executable file where `blobs` is to be -/
def file0 : Host := ⟨fun sl =>
  if sl = .top ∨ sl = .dots then some (.dir Full) else if sl = .blobs then some (.file Full []) else none, 0⟩

/-- **C78 fails.** The library's format asks only for the permission bits of what it finds: with a file in the place of
the directory `blobs` it says that it succeeded, and what it made cannot be opened. -/
theorem C78_format_file_violated : (format quiet ⟨file0, 0⟩).1 = .ok ∧
    ∀ e k, (openRepo e ⟨(format quiet ⟨file0, 0⟩).2.host, k⟩).1 ≠ .ok := by
  have hl : Left file0 := by
    refine ⟨rfl, fun sl hs => ?_, fun sl hs => ?_, fun sl hs => ?_⟩
    · cases sl <;> first | exact .inl rfl | exact .inr ⟨_, rfl, rfl⟩
    · rcases hs with rfl | rfl | ⟨i, rfl⟩
      · exact .inr rfl
      · exact .inl rfl
      · exact .inl rfl
    · rintro ⟨p, q⟩
      rcases hs with rfl | rfl | rfl <;> cases q
  refine ⟨(tot_format (fun _ => rfl) ⟨rfl, rfl, rfl⟩ ⟨file0, 0⟩ hl).1, fun e k h => ?_⟩
  obtain ⟨p, hp⟩ := ((C78_open e _).2.1 h).1.blobs
  have g := grows_format quiet ⟨file0, 0⟩
  generalize (format quiet ⟨file0, 0⟩).2.host = x at g hp
  rcases g.dir .blobs nf_blobs with q | ⟨q, _⟩
  · have q' : file0.ent .blobs = some (.dir p) := q.symm.trans hp
    cases q'
  · cases q

/-- **C78, what format does promise**: where `blobs`, `pack`, `objs` and `refs` are free or directories and the user may
use the directory, a format which says that it succeeded has made a whole repository, which opens. -/
theorem C78_format_made_partial (e : Env) (s : St) (hb : s.host.ent .blobs = none ∨ DirAt s.host .blobs)
    (hp : s.host.ent .pack = none ∨ DirAt s.host .pack) (ho : s.host.ent .objs = none ∨ DirAt s.host .objs)
    (hr : s.host.ent .refs = none ∨ DirAt s.host .refs)
    (ht : ∃ p, s.host.ent .top = some (.dir p) ∧ (e.root ∨ (p.r ∧ p.w ∧ p.x)))
    (hk : (format e s).1 = .ok) :
    IsRepo (format e s).2.host ∧
    ∀ (e' : Env) (k : Nat), Calm e' → (e'.root = e.root ∨ e'.root = true) →
      (openRepo e' ⟨(format e s).2.host, k⟩).1 = .ok := by
  obtain ⟨h1, h2⟩ := post_format e s ⟨⟨⟨hb, hp⟩, ho, hr⟩, ht⟩ hk
  exact ⟨h1, fun e' k hc hr => (C78_open e' _).2.2 hc h1.skel (able_root h2 hr)⟩

end Silofs.Rf
