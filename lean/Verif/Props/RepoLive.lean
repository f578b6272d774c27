import Verif.Props.RepoSync
import Verif.Props.Caddr
import Verif.Props.Addr
/-
The repository answers: sizes of segments stay such that they can be opened again, reads and
writes succeed when the kernel reports no error; and distinct names have distinct paths.
-/
set_option linter.unusedSimpArgs false
namespace Silofs.Repo
open Silofs Silofs.Addr Silofs.Sysio

/-! ### Sizes -/

/-- Every segment has a size with which it can be opened. -/
def AllFit (U : Name → Prop) (s : Store) : Prop := ∀ l f, U (.lseg l) → s (.lseg l) = some f → Fit l f

/-- Segments of volumes are made of whole blocks. -/
def Blocky (U : Name → Prop) : Prop := ∀ l, U (.lseg l) → l.lsize % 65536 = 0

theorem Sized.fit {l : Lsid} {f f' : File} (h : Sized l f f') (hl : l.lsize % 65536 = 0) (hf : Fit l f) : Fit l f' := by
  rcases h with h | h
  · unfold Fit at *; rw [h]; exact hf
  · exact h hl

theorem fit_step {U : Name → Prop} (hb : Blocky U) {s s' : Store} {op : Op} {o : Out} (k : K) (hw : WellFormed U k op) (h : Allowed U s op o s') (hf : AllFit U s) : AllFit U s' := by
  obtain ⟨_, h2, h3⟩ := h
  intro l f' hU hs'
  have hbl := hb l hU
  by_cases ht : target op = some (.lseg l)
  · have ho := h2 _ ht
    have same : s' (.lseg l) = s (.lseg l) → Fit l f' := fun e => hf l f' hU (e.symm.trans hs')
    have made : ∀ l', l' = l → Made l' (s (.lseg l)) (s' (.lseg l)) → Fit l f' := by
      rintro l' rfl hm
      cases hs : s (.lseg l') with
      | some f => rw [hs] at hm; exact same (hm.trans hs.symm)
      | none =>
        rw [hs] at hm
        obtain ⟨g, g1, _, g2, g3, g4⟩ := hm
        rw [hs'] at g1
        cases g1
        exact ⟨g4, by omega⟩
    have gone : s' (.lseg l) = none → Fit l f' := fun e => by rw [hs'] at e; cases e
    cases op with
    | spawn l' =>
      cases ht
      simp only [Own] at ho
      split at ho
      · exact made _ rfl ho
      · exact same ho
    | require l' =>
      cases ht
      simp only [Own] at ho
      split at ho
      · exact made _ rfl ho
      · exact same ho
    | stage rw l' => cases ht; exact same ho.1
    | stat cache l' => cases ht; exact same ho.1
    | read l' pos len => cases ht; exact same ho.1
    | remove l' =>
      cases ht
      simp only [Own] at ho
      split at ho
      · exact gone ho.2
      · exact same ho
    | punch l' =>
      cases ht
      simp only [Own] at ho
      split at ho
      · obtain ⟨f, g, g1, g2, _, g3⟩ := ho
        rw [hs'] at g2
        cases g2
        have := hf l f hU g1
        unfold Fit at *
        rw [g3]; exact this
      · exact same ho
    | requireAt l' pos len =>
      cases ht
      simp only [Own] at ho
      split at ho
      · obtain ⟨f, g, g1, g2, _, _, _, g3⟩ := ho
        rw [hs'] at g2
        cases g2
        exact g3.fit hbl (hf l f hU g1)
      · exact same ho
    | write l' pos bufs =>
      cases ht
      simp only [Own] at ho
      by_cases hr : o.res = .ok
      · obtain ⟨f, g, g1, g2, _, g3, _⟩ := ho.1 hr
        rw [hs'] at g2
        cases g2
        exact g3.fit hbl (hf l f hU g1)
      · rcases ho.2 hr with ⟨_, g2⟩ | ⟨f, g, _, g1, g2, _, _, g3⟩
        · exact gone g2
        · rw [hs'] at g2
          cases g2
          exact g3.fit hbl (hf l f hU g1)
    | save nm x => cases ht; exact absurd rfl (hw.2.2.2.1 l)
    | load nm x => cases ht; exact absurd rfl (hw.2.2.2.1 l)
    | unlink nm => cases ht; exact absurd rfl (hw.2.2.2.1 l)
    | size nm => cases ht; exact absurd rfl (hw.2.2.2.1 l)
    | pcreate p => cases ht
    | pstage p => cases ht
    | psave p off x => cases ht
    | pload p off len => cases ht
    | premove p => cases ht
    | pflush p => cases ht
    | relax => cases ht
    | drop => cases ht
    | sync => cases ht
  · exact hf l f' hU ((h3 _ hU ht).symm.trans hs')

/-- C54: whatever is done, and whatever fails, segments keep sizes with which they can be opened
again. -/
theorem C54_sizes {c : Cfg} {U : Name → Prop} (hi : PathInj c U) (hb : Blocky U) : ∀ (xs : List (K × Op)) {r : Repo}, Inv c U r → AllWF U xs →
    AllFit U (content c r.disk) → AllFit U (content c (run c r xs).2.disk) := by
  intro xs
  induction xs with
  | nil => intro r _ _ hf; exact hf
  | cons x xs ih =>
    obtain ⟨k, op⟩ := x
    intro r h hw hf
    have hs := C54_step hi h k op (hw _ (List.mem_cons_self ..))
    exact ih hs.1 (fun y hy => hw y (List.mem_cons_of_mem _ hy)) (fit_step hb k (hw _ (List.mem_cons_self ..)) hs.2 hf)

/-! ### Success -/

/-- The kernel reports no error. -/
structure Fine (k : K) : Prop where
  stat : k.stat = 0
  openf : k.openf = 0
  trunc : k.trunc = 0
  data : Steady k.data

theorem checkOpen_ok {r : Repo} (ho : r.opened = true) {rw : Bool} (hr : rw = true → r.ro = false) : checkOpen r rw = .ok := by
  unfold checkOpen
  rw [if_neg (by simp [ho])]
  rw [if_neg]
  rintro ⟨a, b⟩
  rw [hr a] at b
  cases b

theorem stageOf_ok {c : Cfg} {U : Name → Prop} {r : Repo} (h : Inv c U r) {k : K} (hk : Fine k) (rw : Bool) (l : Lsid) {f : File}
    (hc : content c r.disk (.lseg l) = some f) (hf : Fit l f) :
    (stageOf c k r rw l).1 = .ok ∧ (lookup c r (.lseg l) = none → ((stageOf c k r rw l).2.1.heap (stageOf c k r rw l).2.2).rdonly = !rw) ∧
      (∀ id, lookup c r (.lseg l) = some id → ((stageOf c k r rw l).2.1.heap (stageOf c k r rw l).2.2).rdonly = (r.heap id).rdonly) := by
  unfold stageOf
  cases e : lookup c r (.lseg l) with
  | some id =>
    dsimp only
    obtain ⟨a1, a2, a3, a4, _⟩ := requeue_inv h id (lookup_some h.st e).1
    refine ⟨rfl, by simp, ?_⟩
    intro id' e'
    cases e'
    rw [a4]
  | none =>
    dsimp only
    unfold openLseg openLsegOf
    have hl := overpop_less k r h
    have hc' : content c (overpop c k r).disk (.lseg l) = some f := by rw [content_same hl.same]; exact hc
    unfold content at hc'
    cases hd : (overpop c k r).disk.dir (pathOf c (.lseg l)) with
    | none => rw [hd] at hc'; cases hc'
    | some n =>
      rw [hd] at hc'
      simp only [Option.map_some, Option.some.injEq] at hc'
      have hdd : (newEnt c (overpop c k r) (.lseg l)).disk.dir (pathOf c (.lseg l)) = some n := hd
      have hnn : ((newEnt c (overpop c k r) (.lseg l)).disk.node n).cur = f := hc'
      rw [hdd]
      dsimp only
      rw [hnn, hk.openf, hk.stat]
      have h1 : ¬ f.size % LBK ≠ 0 := by have := hf.1; unfold LBK; omega
      have h2 : ¬ f.size > l.lsize + LBK := by have := hf.2; unfold LBK; omega
      rw [if_neg (by simp), if_neg (by simp), if_neg h1, if_neg h2]
      refine ⟨rfl, fun _ => ?_, by simp⟩
      show (if (overpop c k r).nent = (overpop c k r).nent then _ else _ : Ent).rdonly = _
      rw [if_pos rfl]

/-- C54: a read inside a segment succeeds when the kernel reports no error, and returns the bytes
that are there. -/
theorem C54_read_succeeds {c : Cfg} {U : Name → Prop} {r : Repo} (h : Inv c U r) (ho : r.opened = true) {k : K} (hk : Fine k) (l : Lsid) (hU : U (.lseg l)) {f : File}
    (hc : content c r.disk (.lseg l) = some f) (hf : Fit l f) (pos len : Nat) (hl : 0 < len) (hr : pos + len ≤ f.size) :
    (step c r k (.read l pos len)).1.res = .ok ∧ Holds f pos len (step c r k (.read l pos len)).1.bytes := by
  have hg := read_good h k l hU pos len
  have hok : (read c k r l pos len).1 = .ok := by
    unfold read
    rw [checkOpen_ok ho (by simp)]
    dsimp only
    have s := stageOf_spec h k false l hU
    have hs := (stageOf_ok h hk false l hc hf).1
    cases hst : stageOf c k r false l with
    | mk res rest =>
    obtain ⟨r1, id⟩ := rest
    rw [hst] at s hs
    dsimp only at s hs ⊢
    subst hs
    dsimp only
    obtain ⟨n, b1, b2, b3, b4⟩ := s.file
    have hcur : (r1.disk.node n).cur = f := by rw [hc] at b3; cases b3; rfl
    have hsz := b4 l rfl
    rw [hcur] at hsz
    unfold readEnt
    rw [if_neg (by omega)]
    have hck : checkRange l pos len = .ok := by
      unfold checkRange
      rw [if_neg]
      have := hf.2; unfold LBK; omega
    rw [hck]
    dsimp only
    rw [b1]
    dsimp only
    rw [if_neg (by omega), hk.stat, if_neg (by simp), hcur, if_neg (by omega)]
    have := C53_read_succeeds f len pos k.data hk.data (by omega)
    exact this
  refine ⟨hok, ?_⟩
  obtain ⟨g, g1, g2⟩ := (hg.2.2.1 _ rfl).2 hok
  rw [hc] at g1
  cases g1
  exact g2

/-- C54: a write inside a segment succeeds when the kernel reports no error.  Partial: unless the
segment is in the cache opened for reading only (`C54_writable_violated`). -/
theorem C54_write_succeeds_partial {c : Cfg} {U : Name → Prop} (hi : PathInj c U) {r : Repo} (h : Inv c U r) (ho : r.opened = true) (hro : r.ro = false) {k : K} (hk : Fine k)
    (l : Lsid) (hU : U (.lseg l)) {f : File} (hc : content c r.disk (.lseg l) = some f) (hf : Fit l f)
    (hnr : ∀ id, id ∈ r.lruq → (r.heap id).key = .lseg l → (r.heap id).rdonly = false)
    (pos : Nat) (buf : List Nat) (hr : pos + buf.length ≤ l.lsize + 65536) (hp : pos < l.lsize + 65536) (hls : l.lsize % 65536 = 0) :
    (step c r k (.write l pos [buf])).1.res = .ok := by
  show (write c k r l pos [buf]).1 = .ok
  unfold write
  rw [checkOpen_ok ho (fun _ => hro)]
  dsimp only
  have s := stageOf_spec h k true l hU
  obtain ⟨hs, hs2, hs3⟩ := stageOf_ok h hk true l hc hf
  have hrd : ((stageOf c k r true l).2.1.heap (stageOf c k r true l).2.2).rdonly = false := by
    cases e : lookup c r (.lseg l) with
    | none => rw [hs2 e]; rfl
    | some id => rw [hs3 id e]; exact hnr id (lookup_some h.st e).1 (lookup_some h.st e).2
  cases hst : stageOf c k r true l with
  | mk res rest =>
  obtain ⟨r1, id⟩ := rest
  rw [hst] at s hs hrd
  dsimp only at s hs hrd ⊢
  subst hs
  dsimp only
  obtain ⟨f1, f2⟩ := s.found rfl
  obtain ⟨n, b1, b2, b3, b4⟩ := s.file
  have hfl : [buf].flatten = buf := by simp
  unfold writeEnt
  rw [hfl]
  have hq := requireSize_spec hi s.mild.inv k l hU id n f1 f2 b1 b2 (b4 l rfl) pos buf.length
  have hnx : nextLbk pos ≤ l.lsize + 65536 := by unfold nextLbk LBK; omega
  rcases hq with ⟨x, q⟩ | ⟨r2, q, ro⟩
  · exfalso
    revert q
    unfold requireSize
    split
    · intro q; cases q
    · have hck : checkRange l (max (pos + buf.length) (nextLbk pos)) 0 = .ok := by
        unfold checkRange
        rw [if_neg]
        unfold LBK; omega
      rw [hck]
      dsimp only
      rw [if_neg (by rw [hrd]; simp), b1]
      dsimp only
      rw [hk.trunc, if_neg (by simp)]
      intro q; cases q
  · rw [q]
    dsimp only
    have hck : checkRange l pos buf.length = .ok := by
      unfold checkRange
      rw [if_neg]
      unfold LBK; omega
    rw [hck]
    dsimp only
    rw [ro.fd]
    dsimp only
    rw [if_neg (by rw [ro.rdonly, hrd]; simp)]
    exact C53_write_succeeds _ buf pos k.data hk.data

/-! ### Names and paths -/

/-- Names as the program makes them. -/
def Name.Ok : Name → Prop
  | .lseg l => l.Fits
  | .pseg p => IsBytes 16 p.pvid
  | .cobj h => IsBytes 32 h
  | .ref a => a.Fits ∧ Caddr.checkCtypeSize a.ctype a.size = true
  | .pack a => a.Fits ∧ Caddr.checkCtypeSize a.ctype a.size = true

theorem mem_inj {a b : List Nat} (ha : IsBytes 32 a) (hb : IsBytes 32 b) (h : memToAscii a 255 = memToAscii b 255) : a = b := by
  have x := asciiToMem_memToAscii a ha.2 255 32 (by rw [ha.1]; omega) (by rw [ha.1]; omega)
  have y := asciiToMem_memToAscii b hb.2 255 32 (by rw [hb.1]; omega) (by rw [hb.1]; omega)
  rw [h, y] at x
  exact ((Prod.mk.injEq ..).mp x).1.symm

theorem nib_ne (n : Nat) : nibToAscii n ≠ 58 := by
  unfold nibToAscii
  split <;> omega

theorem mem_ne (l : List Nat) : ∀ asz, ∀ x ∈ memToAscii l asz, x ≠ 58 := by
  induction l with
  | nil => intro asz x hx; cases hx
  | cons b rest ih =>
    intro asz x hx
    unfold memToAscii at hx
    split at hx
    · cases hx
    · rcases List.mem_append.mp hx with hx | hx
      · unfold byteToAscii at hx
        rcases List.mem_cons.mp hx with rfl | hx
        · exact nib_ne _
        · rcases List.mem_cons.mp hx with rfl | hx
          · exact nib_ne _
          · cases hx
      · exact ih _ x hx

theorem digits_inj {a b : Nat} (h : Caddr.digits 10 a = Caddr.digits 10 b) : a = b := by
  have x := Caddr.scanNum_digits 10 a (by decide) (by decide) 58 [] (by decide)
  have y := Caddr.scanNum_digits 10 b (by decide) (by decide) 58 [] (by decide)
  rw [h, y] at x
  exact ((Prod.mk.injEq ..).mp x).1.symm

/-- C54: distinct names are kept in distinct files: names of segments of volumes when SHA-256 gives
their encodings distinct digests, all others without any assumption. -/
theorem C54_paths_distinct (c : Cfg) (U : Name → Prop) (hok : ∀ nm, U nm → nm.Ok) (hlen : ∀ l, U (.lseg l) → IsBytes 32 (c.sha (lsid32Htox l)))
    (hsha : ∀ a b, U (.lseg a) → U (.lseg b) → c.sha (lsid32Htox a) = c.sha (lsid32Htox b) → lsid32Htox a = lsid32Htox b) : PathInj c U := by
  intro a b ha hb h
  have oa := hok a ha
  have ob := hok b hb
  have ne : ∀ (x y : List Nat) (r s : Path), x ≠ y → (x :: r) ≠ (y :: s) := fun x y r s hn e => hn (List.cons.inj e).1
  cases a with
  | lseg l =>
    cases b with
    | lseg l' =>
      simp only [pathOf, List.cons.injEq, and_true, true_and] at h
      have e := hsha _ _ ha hb (mem_inj (hlen _ ha) (hlen _ hb) h.2)
      have x := C27_lsid_roundtrip l oa
      have y := C27_lsid_roundtrip l' ob
      rw [e, y] at x
      rw [x]
    | pseg p => exact absurd h (ne _ _ _ _ (by decide))
    | cobj x => exact absurd h (ne _ _ _ _ (by decide))
    | ref x => exact absurd h (ne _ _ _ _ (by decide))
    | pack x => exact absurd h (ne _ _ _ _ (by decide))
  | pseg p =>
    cases b with
    | lseg l => exact absurd h (ne _ _ _ _ (by decide))
    | pseg p' =>
      simp only [pathOf, List.cons.injEq, and_true, true_and] at h
      have hl : (uuidText p.pvid).length = (uuidText p'.pvid).length := by rw [uuidText_length _ oa.1, uuidText_length _ ob.1]
      obtain ⟨h1, h2⟩ := List.append_inj h hl
      have x := C27_uuid_roundtrip p.pvid oa
      have y := C27_uuid_roundtrip p'.pvid ob
      rw [h1, y] at x
      injection x with x
      have z := digits_inj (List.cons.inj h2).2
      cases p; cases p'
      simp only at x z
      subst x; subst z; rfl
    | cobj x =>
      simp only [pathOf, List.cons.injEq, and_true, true_and] at h
      have : 58 ∈ memToAscii x 255 := by rw [← h]; simp
      exact absurd rfl (mem_ne _ _ _ this)
    | ref x => exact absurd h (ne _ _ _ _ (by decide))
    | pack x => exact absurd h (ne _ _ _ _ (by decide))
  | cobj x =>
    cases b with
    | lseg l => exact absurd h (ne _ _ _ _ (by decide))
    | pseg p =>
      simp only [pathOf, List.cons.injEq, and_true, true_and] at h
      have : 58 ∈ memToAscii x 255 := by rw [h]; simp
      exact absurd rfl (mem_ne _ _ _ this)
    | cobj y =>
      simp only [pathOf, List.cons.injEq, and_true, true_and] at h
      rw [mem_inj oa ob h]
    | ref y => exact absurd h (ne _ _ _ _ (by decide))
    | pack y => exact absurd h (ne _ _ _ _ (by decide))
  | ref x =>
    cases b with
    | lseg l => exact absurd h (ne _ _ _ _ (by decide))
    | pseg p => exact absurd h (ne _ _ _ _ (by decide))
    | cobj y => exact absurd h (ne _ _ _ _ (by decide))
    | ref y =>
      simp only [pathOf, List.cons.injEq, and_true, true_and] at h
      rw [Caddr.C27_caddr_name_injective x y oa.1 ob.1 oa.2 ob.2 h]
    | pack y => exact absurd h (ne _ _ _ _ (by decide))
  | pack x =>
    cases b with
    | lseg l => exact absurd h (ne _ _ _ _ (by decide))
    | pseg p => exact absurd h (ne _ _ _ _ (by decide))
    | cobj y => exact absurd h (ne _ _ _ _ (by decide))
    | ref y => exact absurd h (ne _ _ _ _ (by decide))
    | pack y =>
      simp only [pathOf, List.cons.injEq, and_true, true_and] at h
      rw [Caddr.C27_caddr_name_injective x y oa.1 ob.1 oa.2 ob.2 h.2]

end Silofs.Repo
