import Verif.Model.Bstore
import Verif.Props.Sysio
import Verif.Props.Addr
/-
C64: the physical store below a file-system.
-/
set_option linter.unusedSimpArgs false
namespace Silofs.Bs
open Silofs Silofs.Addr Silofs.Boot Silofs.Sysio

/-! ### Encodings -/

theorem paddr48_length (p : Paddr) (h : p.psid.pvid.length = 16) : (paddr48Htox p).length = 48 := by
  simp [paddr48Htox, psid32Htox, leBytes_length, h]

theorem hdr_length (t s : Nat) : (hdr t s).length = 16 := by simp [hdr, leBytes_length]

theorem encChkpt_length (a r : Paddr) (ha : a.psid.pvid.length = 16) (hr : r.psid.pvid.length = 16) :
    (encChkpt a r).length = 4096 := by
  simp only [encChkpt, List.length_append, hdr_length, leBytes_length, paddr48_length _ ha, paddr48_length _ hr, List.length_replicate]

theorem paddrNone_length : (paddr48Htox paddrNone).length = 48 := paddr48_length _ (by decide)

theorem laddrNone_length : (laddr48Htox laddrNone).length = 48 := by decide

theorem encNode_length (f : Nat) : (encNode f).length = 4096 := by
  have h1 : ((List.replicate 42 (paddr48Htox paddrNone)).flatten).length = 2016 := by decide +kernel
  have h2 : ((List.replicate 41 (laddr48Htox laddrNone)).flatten).length = 1968 := by decide +kernel
  simp only [encNode, List.length_append, hdr_length, leBytes_length, List.length_replicate, h1, h2]

theorem encNode_nchilds (f : Nat) : nodeNchilds (encNode f) = 0 := by
  have h : encNode f = (hdr PT_BTNODE 4096 ++ leBytes 4 f ++ leBytes 2 0) ++ (leBytes 2 0 ++ (List.replicate 40 0 ++
    ((List.replicate 42 (paddr48Htox paddrNone)).flatten ++ ((List.replicate 41 (laddr48Htox laddrNone)).flatten ++
      List.replicate 48 0)))) := by simp only [encNode, List.append_assoc]
  unfold nodeNchilds
  rw [h, List.drop_append_of_le_length (by simp [hdr_length, leBytes_length]),
    List.drop_of_length_le (by simp [hdr_length, leBytes_length]), List.nil_append,
    List.take_append_of_le_length (by simp [leBytes_length])]
  decide

theorem chkptRoot_enc (a r : Paddr) (ha : a.psid.pvid.length = 16) (hr : r.Fits) : chkptRoot (encChkpt a r) = r := by
  have h : encChkpt a r = (hdr PT_CHKPT 4096 ++ leBytes 4 1 ++ List.replicate 44 0 ++ paddr48Htox a ++ List.replicate 16 0) ++
      (paddr48Htox r ++ List.replicate 3920 0) := by simp only [encChkpt, List.append_assoc]
  have hl : (hdr PT_CHKPT 4096 ++ leBytes 4 1 ++ List.replicate 44 0 ++ paddr48Htox a ++ List.replicate 16 0).length = 128 := by
    simp [hdr_length, leBytes_length, paddr48_length _ ha]
  unfold chkptRoot
  rw [h, List.drop_append_of_le_length (by omega), List.drop_of_length_le (by omega), List.nil_append,
    List.take_append_of_le_length (by rw [paddr48_length _ hr.pvid.1]; exact Nat.le_refl _),
    List.take_of_length_le (by rw [paddr48_length _ hr.pvid.1]; exact Nat.le_refl _)]
  exact C27_paddr_roundtrip r hr

theorem fresh_length (a : Paddr) (h : a.psid.pvid.length = 16) (ht : a.ptype = PT_CHKPT ∨ a.ptype = PT_BTNODE) :
    (fresh a).length = 4096 := by
  unfold fresh
  by_cases h1 : a.ptype = PT_CHKPT
  · rw [if_pos h1]; exact encChkpt_length _ _ h (by decide)
  · rw [if_neg h1, if_pos (ht.resolve_left h1)]; exact encNode_length 0

/-! ### Reads and writes of segments -/

theorem holds_unique {f : File} {off n : Nat} {l m : List Nat} (h1 : Holds f off n l) (h2 : Holds f off n m) : l = m := by
  apply List.ext_getElem?
  intro i
  by_cases hi : i < n
  · have e1 : l[i]? = some (l[i]'(by rw [h1.1]; exact hi)) := List.getElem?_eq_getElem (by rw [h1.1]; exact hi)
    have e2 : m[i]? = some (m[i]'(by rw [h2.1]; exact hi)) := List.getElem?_eq_getElem (by rw [h2.1]; exact hi)
    rw [e1, e2, ← h1.2.2 i _ e1, ← h2.2.2 i _ e2]
  · rw [List.getElem?_eq_none (by rw [h1.1]; omega), List.getElem?_eq_none (by rw [h2.1]; omega)]

/-- Bytes written elsewhere leave an object as it is. -/
theorem holds_put {f : File} {off n : Nat} {l : List Nat} (h : Holds f off n l) (o : Nat) (m : List Nat)
    (hd : o + m.length ≤ off ∨ off + n ≤ o) : Holds (f.put o m) off n l := by
  have hw := put_wrote f o m
  refine ⟨h.1, fun h0 => ?_, fun i b hb => ?_⟩
  · have := h.2.1 h0
    rw [hw.1]
    split <;> omega
  · have hi : i < n := by
      have := (List.getElem?_eq_some_iff.1 hb).1
      rw [h.1] at this; exact this
    rw [hw.2.2 (off + i) (by omega)]
    exact h.2.2 i b hb

theorem holds_put_self (f : File) (off : Nat) (l : List Nat) (hne : l ≠ []) : Holds (f.put off l) off l.length l := by
  have hw := put_wrote f off l
  refine ⟨rfl, fun _ => ?_, fun i b hb => hw.2.1 i b hb⟩
  rw [hw.1, if_neg hne]
  exact Nat.le_max_right _ _

theorem segSave_ok {e : Env} {s s' : Segs} {a : Paddr} {d : List Nat} {ro : Bool} (h : segSave ro e s a d = (.ok, s')) :
    ∃ f, s a.psid = some f ∧ s' = setSeg s a.psid (f.put a.off.toNat (d.take a.len)) := by
  unfold segSave at h
  by_cases hro : ro = true
  · rw [if_pos hro] at h; cases h
  · rw [if_neg hro] at h
    cases hf : s a.psid with
    | none => rw [hf] at h; cases h
    | some f =>
      rw [hf] at h
      simp only at h
      by_cases h1 : e.seg a.psid ≠ 0
      · rw [if_pos h1] at h; cases h
      · rw [if_neg h1] at h
        by_cases h2 : a.off < 0
        · rw [if_pos h2] at h; cases h
        · rw [if_neg h2] at h
          have hr : (pwriten f (d.take a.len) a.off.toNat (e.wr a)).1 = .ok := congrArg Prod.fst h
          have hs : setSeg s a.psid (pwriten f (d.take a.len) a.off.toNat (e.wr a)).2 = s' := congrArg Prod.snd h
          have hw := C53_write f (d.take a.len) a.off.toNat (e.wr a) _ (Prod.ext hr rfl)
          refine ⟨f, rfl, ?_⟩
          have hu := wrote_unique _ _ _ _ _ hw (put_wrote f a.off.toNat (d.take a.len))
          rw [← hs]
          exact congrArg (setSeg s a.psid) hu

/-- Saving changes no other segment. -/
theorem segSave_other (e : Env) (s : Segs) (a : Paddr) (d : List Nat) (ro : Bool) (q : Psid) (h : a.psid ≠ q) :
    (segSave ro e s a d).2 q = s q := by
  unfold segSave
  by_cases hro : ro = true
  · rw [if_pos hro]
  · rw [if_neg hro]
    cases s a.psid with
    | none => rfl
    | some f =>
      simp only
      split
      · rfl
      · split
        · rfl
        · show setSeg s a.psid _ q = s q
          unfold setSeg
          rw [if_neg (fun hq => h hq.symm)]

theorem segLoad_ok {e : Env} {s : Segs} {a : Paddr} {d0 d : List Nat} (h : segLoad e s a d0 = (.ok, d)) (hl : a.len = d0.length) :
    ∃ f, s a.psid = some f ∧ 0 ≤ a.off ∧ Holds f a.off.toNat d0.length d := by
  unfold segLoad at h
  cases hf : s a.psid with
  | none => rw [hf] at h; cases h
  | some f =>
    rw [hf] at h
    simp only at h
    by_cases h1 : e.seg a.psid ≠ 0
    · rw [if_pos h1] at h; cases h
    · rw [if_neg h1] at h
      by_cases h2 : a.off < 0
      · rw [if_pos h2] at h; cases h
      · rw [if_neg h2, hl, Nat.min_self] at h
        cases hp : preadn f d0.length a.off.toNat (e.rd a) with
        | mk r l =>
          rw [hp] at h
          cases r with
          | ok =>
            have hh := C53_read f d0.length a.off.toNat (e.rd a) l hp
            have : l ++ d0.drop l.length = d := congrArg Prod.snd h
            rw [hh.1, List.drop_length, List.append_nil] at this
            rw [this] at hh
            exact ⟨f, rfl, by omega, hh⟩
          | err x => cases h
          | undef => cases h

/-- Nothing goes wrong: segments open, reads make progress, memory is to be had.  What is evicted
meanwhile is arbitrary. -/
def Quiet (e : Env) : Prop := (∀ p, e.seg p = 0) ∧ (∀ a, Steady (e.rd a)) ∧ (∀ a, e.nomem a = false)

theorem segLoad_quiet {e : Env} (hq : Quiet e) {s : Segs} {a : Paddr} {d0 d : List Nat} {f : File} (hf : s a.psid = some f)
    (h0 : 0 ≤ a.off) (hl : a.len = d0.length) (hpos : 0 < d0.length) (hd : Holds f a.off.toNat d0.length d) :
    segLoad e s a d0 = (.ok, d) := by
  unfold segLoad
  rw [hf]
  simp only
  rw [if_neg (by rw [hq.1]; simp), if_neg (by omega), hl, Nat.min_self]
  have hok := C53_read_succeeds f d0.length a.off.toNat (e.rd a) (hq.2.1 a) (hd.2.1 hpos)
  cases hp : preadn f d0.length a.off.toNat (e.rd a) with
  | mk r l =>
    rw [hp] at hok
    cases hok
    have hh := C53_read f d0.length a.off.toNat (e.rd a) l hp
    have hl' : l = d := holds_unique hh hd
    subst hl'
    show (Res.ok, l ++ d0.drop l.length) = (.ok, l)
    rw [hh.1, List.drop_length, List.append_nil]

/-! ### Eviction -/

theorem evict_spec (b : B) (a : Paddr) :
    (evict b a).ro = b.ro ∧ (evict b a).pr = b.pr ∧ (evict b a).root = b.root ∧ (evict b a).dq = b.dq ∧ (evict b a).segs = b.segs ∧
    (∀ x, x ∈ (evict b a).cache → x ∈ b.cache) ∧ (∀ c, c ∈ b.dq → lookup (evict b a) c = lookup b c) := by
  unfold evict
  by_cases h : a ∈ b.dq
  · rw [if_pos h]; exact ⟨rfl, rfl, rfl, rfl, rfl, fun _ hx => hx, fun _ _ => rfl⟩
  · rw [if_neg h]
    refine ⟨rfl, rfl, rfl, rfl, rfl, fun x hx => (List.mem_filter.1 hx).1, fun c hc => ?_⟩
    unfold lookup
    show (b.cache.filter _).find? _ = b.cache.find? _
    rw [List.find?_filter]
    congr 1
    funext x
    by_cases hx : x.addr = c
    · have : x.addr ≠ a := fun e => h (e ▸ hx ▸ hc)
      simp [hx, this]
      rw [hx] at this
      exact this
    · simp [hx]

theorem evictAll_spec (l : List Paddr) : ∀ (b : B),
    (evictAll b l).ro = b.ro ∧ (evictAll b l).pr = b.pr ∧ (evictAll b l).root = b.root ∧ (evictAll b l).dq = b.dq ∧ (evictAll b l).segs = b.segs ∧
    (∀ x, x ∈ (evictAll b l).cache → x ∈ b.cache) ∧ (∀ c, c ∈ b.dq → lookup (evictAll b l) c = lookup b c) := by
  induction l with
  | nil => intro b; exact ⟨rfl, rfl, rfl, rfl, rfl, fun _ h => h, fun _ _ => rfl⟩
  | cons a as ih =>
    intro b
    obtain ⟨h1, h2, h3, h4, h5, h6, h7⟩ := evict_spec b a
    obtain ⟨g1, g2, g3, g4, g5, g6, g7⟩ := ih (evict b a)
    show _ ∧ _
    refine ⟨g1.trans h1, g2.trans h2, g3.trans h3, g4.trans h4, g5.trans h5, fun x hx => h6 x (g6 x hx), fun c hc => ?_⟩
    exact (g7 c (h4 ▸ hc)).trans (h7 c hc)

theorem create_ok {e : Env} {b b1 : B} {a : Paddr} {d : List Nat} (h : create e b a d = (.ok, b1)) :
    b1 = { evictAll b (e.evict a) with cache := ⟨a, d⟩ :: (evictAll b (e.evict a)).cache } := by
  unfold create at h
  by_cases h1 : a.ptype = PT_CHKPT ∧ a.off % 4096 ≠ 0
  · rw [if_pos h1] at h; cases h
  · rw [if_neg h1] at h
    by_cases h2 : e.nomem a = true
    · rw [if_pos h2] at h; cases h
    · rw [if_neg h2] at h; exact (congrArg Prod.snd h).symm

/-- Whatever becomes of an attempt, an object is dropped or the new one is added; nothing else changes. -/
theorem create_frame (e : Env) (b : B) (a : Paddr) (d : List Nat) :
    (create e b a d).2.ro = b.ro ∧ (create e b a d).2.pr = b.pr ∧ (create e b a d).2.root = b.root ∧ (create e b a d).2.dq = b.dq ∧
    (create e b a d).2.segs = b.segs ∧ (∀ x, x ∈ (create e b a d).2.cache → x ∈ b.cache ∨ x = ⟨a, d⟩ ∧ (create e b a d).1 = .ok) := by
  obtain ⟨h1, h2, h3, h4, h5, h6, _⟩ := evictAll_spec (e.evict a) b
  unfold create
  split
  · exact ⟨rfl, rfl, rfl, rfl, rfl, fun x hx => .inl hx⟩
  · split
    · exact ⟨h1, h2, h3, h4, h5, fun x hx => .inl (h6 x hx)⟩
    · refine ⟨h1, h2, h3, h4, h5, fun x hx => ?_⟩
      rcases List.mem_cons.1 hx with e1 | e1
      · exact .inr ⟨e1, rfl⟩
      · exact .inl (h6 x e1)

/-- Staging writes nothing and dirties nothing; what it adds to the cache is what the segment holds. -/
theorem stage_frame (e : Env) (b : B) (hit : Bool) (a : Paddr) :
    (stage e b hit a).2.1.ro = b.ro ∧ (stage e b hit a).2.1.pr = b.pr ∧ (stage e b hit a).2.1.root = b.root ∧
    (stage e b hit a).2.1.dq = b.dq ∧ (stage e b hit a).2.1.segs = b.segs ∧
    (∀ x, x ∈ (stage e b hit a).2.1.cache → x ∈ b.cache ∨ (x.addr = a ∧ segLoad e b.segs a (fresh a) = (.ok, x.data))) := by
  unfold stage
  split
  · exact ⟨rfl, rfl, rfl, rfl, rfl, fun x hx => .inl hx⟩
  · split
    · exact ⟨rfl, rfl, rfl, rfl, rfl, fun x hx => .inl hx⟩
    · split
      · obtain ⟨f1, f2, f3, f4, f5, f6⟩ := create_frame e b a (segLoad e b.segs a (fresh a)).2
        split
        · rename_i b1 hc
          have hb1 := create_ok hc
          rw [hc] at f1 f2 f3 f4 f5 f6
          split
          · rename_i hl
            refine ⟨f1, f2, f3, f4, f5, fun x hx => ?_⟩
            rcases f6 x hx with h | ⟨h, _⟩
            · exact .inl h
            · rw [h]; exact .inr ⟨rfl, Prod.ext hl rfl⟩
          · refine ⟨f1, f2, f3, f4, f5, fun x hx => ?_⟩
            rw [hb1] at hx
            exact .inl ((evictAll_spec (e.evict a) b).2.2.2.2.2.1 x hx)
        · rename_i r b1 hne hc
          rw [hc] at f1 f2 f3 f4 f5 f6
          refine ⟨f1, f2, f3, f4, f5, fun x hx => ?_⟩
          rcases f6 x hx with h | ⟨_, h⟩
          · exact .inl h
          · exact absurd h hne
      · exact ⟨rfl, rfl, rfl, rfl, rfl, fun x hx => .inl hx⟩

/-! ### What a segment made by mkfs holds -/

def psidOf (pvid : List Nat) : Psid := ⟨pvid, 1⟩
def rootOf (pvid : List Nat) : Paddr := ⟨psidOf pvid, 4096, 4096, PT_BTNODE⟩
def lastOf (pvid : List Nat) : Paddr := ⟨psidOf pvid, 8192, 4096, PT_CHKPT⟩
def firstOf (pvid : List Nat) : Paddr := ⟨psidOf pvid, 0, 4096, PT_CHKPT⟩
def rangeOf (pvid : List Nat) : Prange := ⟨pvid, 1, 1, 12288⟩

/-- Segments in which the last checkpoint refers to the root `r`. -/
def Img (pvid : List Nat) (r : Paddr) (d : List Nat) (s : Segs) : Prop :=
  ∃ f, s (psidOf pvid) = some f ∧ Holds f 8192 4096 (encChkpt (lastOf pvid) r) ∧ Holds f r.off.toNat 4096 d

structure Inv (pvid : List Nat) (b : B) : Prop where
  img : Img pvid (rootOf pvid) (encNode 3) b.segs
  dq : ∀ a, a ∈ b.dq → a.psid ≠ psidOf pvid
  last : ∀ x, x ∈ b.cache → x.addr = lastOf pvid → x.data = encChkpt (lastOf pvid) (rootOf pvid)
  root : ∀ x, x ∈ b.cache → x.addr = rootOf pvid → x.data = encNode 3

theorem rootOf_fits {pvid : List Nat} (h : IsBytes 16 pvid) : (rootOf pvid).Fits :=
  ⟨h, by show 1 < 4294967296; omega, by show IsI64 4096; unfold IsI64; omega, by show 4096 < 4294967296; omega, by show PT_BTNODE < 256; decide⟩

theorem chk_len {pvid : List Nat} (h : pvid.length = 16) (a : Paddr) (ha : a.psid.pvid.length = 16) :
    (encChkpt (lastOf pvid) a).length = 4096 := encChkpt_length _ _ h ha

/-- What is loaded at the two addresses is what is there. -/
theorem load_last {pvid : List Nat} (h : pvid.length = 16) {e : Env} {s : Segs} (hi : Img pvid (rootOf pvid) (encNode 3) s) {d : List Nat}
    (hl : segLoad e s (lastOf pvid) (fresh (lastOf pvid)) = (.ok, d)) : d = encChkpt (lastOf pvid) (rootOf pvid) := by
  have hn : (fresh (lastOf pvid)).length = 4096 := fresh_length _ h (.inl rfl)
  obtain ⟨f, hf, _, hh⟩ := segLoad_ok hl hn.symm
  obtain ⟨g, hg, h1, _⟩ := hi
  have : some f = some g := hf.symm.trans hg
  cases this
  rw [hn] at hh
  exact holds_unique hh h1

theorem load_root {pvid : List Nat} (h : pvid.length = 16) {e : Env} {s : Segs} (hi : Img pvid (rootOf pvid) (encNode 3) s) {d : List Nat}
    (hl : segLoad e s (rootOf pvid) (fresh (rootOf pvid)) = (.ok, d)) : d = encNode 3 := by
  have hn : (fresh (rootOf pvid)).length = 4096 := fresh_length _ h (.inr rfl)
  obtain ⟨f, hf, _, hh⟩ := segLoad_ok hl hn.symm
  obtain ⟨g, hg, _, h1⟩ := hi
  have : some f = some g := hf.symm.trans hg
  cases this
  rw [hn] at hh
  exact holds_unique hh h1

/-- Staging any object keeps the invariant. -/
theorem inv_stage {pvid : List Nat} (h : pvid.length = 16) {b : B} (hi : Inv pvid b) (e : Env) (hit : Bool) (a : Paddr) :
    Inv pvid (stage e b hit a).2.1 := by
  obtain ⟨_, _, _, f4, f5, f6⟩ := stage_frame e b hit a
  refine ⟨f5 ▸ hi.img, f4 ▸ hi.dq, fun x hx hxa => ?_, fun x hx hxa => ?_⟩
  · rcases f6 x hx with h1 | ⟨h1, h2⟩
    · exact hi.last x h1 hxa
    · rw [← h1, hxa] at h2; exact load_last h hi.img h2
  · rcases f6 x hx with h1 | ⟨h1, h2⟩
    · exact hi.root x h1 hxa
    · rw [← h1, hxa] at h2; exact load_root h hi.img h2

theorem inv_childs {pvid : List Nat} (h : pvid.length = 16) (e : Env) (d : List Nat) (a : Paddr) : ∀ (k slot : Nat) {b : B}, Inv pvid b →
    Inv pvid (stageChilds e d a k slot b).2
  | 0, _, _, hi => hi
  | k + 1, slot, b, hi => by
    unfold stageChilds
    split
    · exact hi
    · split
      · exact hi
      · split
        · have hs := inv_stage h hi e ((nodeChild d slot).ptype == PT_BTNODE) (nodeChild d slot)
          split
          · rename_i hx
            rw [hx] at hs
            exact inv_childs h e d a k (slot + 1) hs
          · rename_i hx
            rw [hx] at hs
            exact hs
        · exact hi

theorem inv_reload {pvid : List Nat} (h : pvid.length = 16) {b : B} (hi : Inv pvid b) (e : Env) (p : Prange) : Inv pvid (reload e b p).2 := by
  have hi' : Inv pvid { b with pr := p } := ⟨hi.img, hi.dq, hi.last, hi.root⟩
  unfold reload
  split
  · exact hi
  · have hs : Inv pvid (stageLast e { b with pr := p }).2 := by
      unfold stageLast
      have hg := inv_stage h hi' e true (lastAddr ({ b with pr := p } : B).pr PT_CHKPT)
      split
      · rename_i hx
        rw [hx] at hg
        split
        · exact hg
        · exact ⟨hg.img, hg.dq, hg.last, hg.root⟩
      · rename_i hx
        rw [hx] at hg
        exact hg
    split
    · rename_i b1 hx
      rw [hx] at hs
      unfold reloadRoot
      have hg := inv_stage h hs e true b1.root
      split
      · rename_i hy
        rw [hy] at hg
        exact inv_childs h e _ _ _ _ hg
      · rename_i hy
        rw [hy] at hg
        exact hg
    · exact hs

theorem inv_evictAll {pvid : List Nat} {b : B} (hi : Inv pvid b) (l : List Paddr) : Inv pvid (evictAll b l) := by
  obtain ⟨_, _, _, h4, h5, h6, _⟩ := evictAll_spec l b
  exact ⟨h5 ▸ hi.img, h4 ▸ hi.dq, fun x hx => hi.last x (h6 x hx), fun x hx => hi.root x (h6 x hx)⟩

theorem flush_frame (e : Env) : ∀ (l : List Paddr) (b : B) (q : Psid), (∀ a, a ∈ l → a.psid ≠ q) →
    (flushLoop e b l).2.segs q = b.segs q ∧ (flushLoop e b l).2.cache = b.cache ∧ (∀ a, a ∈ (flushLoop e b l).2.dq → a ∈ l) := by
  intro l
  induction l with
  | nil => intro b q _; exact ⟨rfl, rfl, fun a h => h⟩
  | cons a as ih =>
    intro b q hl
    unfold flushLoop
    have ho := segSave_other e b.segs a (((lookup b a).map (·.data)).getD []) b.ro q (hl a (List.mem_cons_self ..))
    split
    · rename_i s hs
      rw [hs] at ho
      obtain ⟨h1, h2, h3⟩ := ih { b with segs := s } q (fun x hx => hl x (List.mem_cons_of_mem _ hx))
      exact ⟨h1.trans ho, h2, fun x hx => List.mem_cons_of_mem _ (h3 x hx)⟩
    · rename_i s _ hs
      rw [hs] at ho
      exact ⟨ho, rfl, fun x hx => hx⟩

theorem inv_flush {pvid : List Nat} {b : B} (hi : Inv pvid b) (e : Env) : Inv pvid (flush e b).2 := by
  obtain ⟨h1, h2, h3⟩ := flush_frame e b.dq b (psidOf pvid) hi.dq
  obtain ⟨f, hf, hr⟩ := hi.img
  exact ⟨⟨f, h1.trans hf, hr⟩, fun a ha => hi.dq a (h3 a ha), fun x hx => hi.last x (h2 ▸ hx), fun x hx => hi.root x (h2 ▸ hx)⟩

/-! ### mkfs -/

/-- All there is in an instance is about one segment. -/
structure Own (q : Psid) (b : B) : Prop where
  pv : b.pr.pvid = q.pvid
  cur : b.pr.curr = q.index
  dq : ∀ a, a ∈ b.dq → a.psid = q
  cache : ∀ x, x ∈ b.cache → x.addr.psid = q

theorem own_create {q : Psid} {b : B} (ho : Own q b) (e : Env) (a : Paddr) (d : List Nat) (ha : a.psid = q) : Own q (create e b a d).2 := by
  obtain ⟨_, h2, _, h4, _, h6⟩ := create_frame e b a d
  refine ⟨by rw [h2]; exact ho.pv, by rw [h2]; exact ho.cur, by rw [h4]; exact ho.dq, fun x hx => ?_⟩
  rcases h6 x hx with h | ⟨h, _⟩
  · exact ho.cache x h
  · rw [h]; exact ha

theorem own_dirtify {q : Psid} {b : B} (ho : Own q b) (a : Paddr) (ha : a.psid = q) : Own q (dirtify b a) := by
  unfold dirtify
  split
  · exact ho
  · refine ⟨ho.pv, ho.cur, fun x hx => ?_, ho.cache⟩
    rcases List.mem_append.1 hx with h | h
    · exact ho.dq x h
    · rw [List.mem_singleton.1 h]; exact ha

theorem dirtify_segs (b : B) (a : Paddr) : (dirtify b a).segs = b.segs := by
  unfold dirtify; split <;> rfl

theorem carve_psid {q : Psid} {b : B} (ho : Own q b) (t : Nat) : (carve b.pr t).1.psid = q := by
  show (⟨b.pr.pvid, b.pr.curr⟩ : Psid) = q
  rw [ho.pv, ho.cur]

theorem own_spawnChkpt {q : Psid} {b : B} (ho : Own q b) (e : Env) : Own q (spawnChkpt e b).2 ∧ ∀ p, p ≠ q → (spawnChkpt e b).2.segs p = b.segs p := by
  have hp := carve_psid ho PT_CHKPT
  have hseg : ∀ r s, (if b.pr.pos = 0 then segCreate b.ro e b.segs (carve b.pr PT_CHKPT).1.psid
        else (segStage b.ro e b.segs (carve b.pr PT_CHKPT).1.psid, b.segs)) = (r, s) → ∀ p, p ≠ q → s p = b.segs p := by
    intro r s hs p hpq
    split at hs
    · have : s = (segCreate b.ro e b.segs (carve b.pr PT_CHKPT).1.psid).2 := by rw [hs]
      rw [this, hp]
      unfold segCreate
      split
      · rfl
      · split
        · rfl
        · split
          · rfl
          · show setSeg b.segs q _ p = _
            unfold setSeg
            rw [if_neg hpq]
    · cases hs; rfl
  unfold spawnChkpt
  split
  · rename_i s hs
    have ho1 : Own q { b with pr := (carve b.pr PT_CHKPT).2, segs := s } := ⟨ho.pv, ho.cur, ho.dq, ho.cache⟩
    have ho2 := own_create ho1 e (carve b.pr PT_CHKPT).1 (encChkpt (carve b.pr PT_CHKPT).1 b.root) hp
    have hf := (create_frame e { b with pr := (carve b.pr PT_CHKPT).2, segs := s } (carve b.pr PT_CHKPT).1
      (encChkpt (carve b.pr PT_CHKPT).1 b.root)).2.2.2.2.1
    split
    · rename_i b1 hc
      rw [hc] at ho2 hf
      exact ⟨own_dirtify ho2 _ hp, fun p hpq => by show (dirtify b1 _).segs p = _; rw [dirtify_segs, hf]; exact hseg _ _ hs p hpq⟩
    · exact ⟨ho2, fun p hpq => by rw [hf]; exact hseg _ _ hs p hpq⟩
  · rename_i r s _ hs
    exact ⟨⟨ho.pv, ho.cur, ho.dq, ho.cache⟩, fun p hpq => hseg _ _ hs p hpq⟩

theorem own_spawnRoot {q : Psid} {b : B} (ho : Own q b) (e : Env) : Own q (spawnRoot e b).2 ∧ (spawnRoot e b).2.segs = b.segs := by
  have hp := carve_psid ho PT_BTNODE
  have ho1 : Own q { b with pr := (carve b.pr PT_BTNODE).2 } := ⟨ho.pv, ho.cur, ho.dq, ho.cache⟩
  unfold spawnRoot
  split
  · have ho2 := own_create ho1 e (carve b.pr PT_BTNODE).1 (encNode 3) hp
    have hf := (create_frame e { b with pr := (carve b.pr PT_BTNODE).2 } (carve b.pr PT_BTNODE).1 (encNode 3)).2.2.2.2.1
    split
    · rename_i b1 hc
      rw [hc] at ho2 hf
      have ho3 := own_dirtify ho2 (carve b.pr PT_BTNODE).1 hp
      exact ⟨⟨ho3.pv, ho3.cur, ho3.dq, ho3.cache⟩, by show (dirtify b1 _).segs = _; rw [dirtify_segs, hf]⟩
    · exact ⟨ho2, hf⟩
  · exact ⟨ho1, rfl⟩

theorem own_flush {q : Psid} {b : B} (ho : Own q b) (e : Env) : (∀ a, a ∈ (flush e b).2.dq → a.psid = q) ∧
    (∀ x, x ∈ (flush e b).2.cache → x.addr.psid = q) ∧ ∀ p, p ≠ q → (flush e b).2.segs p = b.segs p := by
  refine ⟨fun a ha => ho.dq a ((flush_frame e b.dq b ⟨0 :: q.pvid, 0⟩ ?_).2.2 a ha), fun x hx => ho.cache x ?_, fun p hp => ?_⟩
  · intro a ha h
    have := ho.dq a ha
    rw [h] at this
    have := congrArg (List.length ∘ Psid.pvid) this
    simp at this
  · rw [← (flush_frame e b.dq b ⟨0 :: q.pvid, 0⟩ ?_).2.1]; exact hx
    intro a ha h
    have := ho.dq a ha
    rw [h] at this
    have := congrArg (List.length ∘ Psid.pvid) this
    simp at this
  · exact (flush_frame e b.dq b p (fun a ha h => hp (h ▸ ho.dq a ha).symm.symm)).1

/-- mkfs touches its own segment only. -/
theorem format_frame (e : Env) (s : Segs) (ro : Bool) (pvid : List Nat) :
    (∀ a, a ∈ (format e (B.new s ro pvid)).2.dq → a.psid = psidOf pvid) ∧
    (∀ x, x ∈ (format e (B.new s ro pvid)).2.cache → x.addr.psid = psidOf pvid) ∧
    ∀ p, p ≠ psidOf pvid → (format e (B.new s ro pvid)).2.segs p = s p := by
  have ho : Own (psidOf pvid) (B.new s ro pvid) := ⟨rfl, rfl, fun a ha => (by cases ha), fun x hx => (by cases hx)⟩
  obtain ⟨o1, s1⟩ := own_spawnChkpt ho e
  unfold format
  split
  · rename_i b1 h1
    rw [h1] at o1 s1
    obtain ⟨o2, s2⟩ := own_spawnRoot o1 e
    split
    · rename_i b2 h2
      rw [h2] at o2 s2
      obtain ⟨o3, s3⟩ := own_spawnChkpt o2 e
      split
      · rename_i b3 h3
        rw [h3] at o3 s3
        obtain ⟨f1, f2, f3⟩ := own_flush o3 e
        exact ⟨f1, f2, fun p hp => (f3 p hp).trans ((s3 p hp).trans ((congrFun s2 p).trans (s1 p hp)))⟩
      · exact ⟨o3.dq, o3.cache, fun p hp => (s3 p hp).trans ((congrFun s2 p).trans (s1 p hp))⟩
    · exact ⟨o2.dq, o2.cache, fun p hp => (congrFun s2 p).trans (s1 p hp)⟩
  · exact ⟨o1.dq, o1.cache, s1⟩

/-- A segment that is there stops mkfs before it does anything. -/
theorem format_exists (e : Env) (s : Segs) (pvid : List Nat) (h : (s (psidOf pvid)).isSome = true) :
    (format e (B.new s false pvid)).1 ≠ .ok ∧ (format e (B.new s false pvid)).2.segs = s ∧ (format e (B.new s false pvid)).2.dq = [] ∧
    (format e (B.new s false pvid)).2.cache = [] := by
  have hc : segCreate false e s (psidOf pvid) = (.err SEEXIST, s) := by
    unfold segCreate
    rw [if_neg (by decide), if_pos h]
  have hs : spawnChkpt e (B.new s false pvid) = (.err SEEXIST, { B.new s false pvid with pr := (carve (prangeInit pvid) PT_CHKPT).2 }) := by
    unfold spawnChkpt
    have : (B.new s false pvid).pr.pos = 0 := rfl
    rw [if_pos this]
    show (match segCreate false e s (psidOf pvid) with
      | (Res.ok, s) => _
      | (r, s') => _) = _
    rw [hc]
    rfl
  unfold format
  rw [hs]
  exact ⟨(by intro h; cases h), rfl, rfl, rfl⟩

theorem isNull_false {q : Psid} {off : Int} {n t : Nat} (h1 : t ≠ 0) (h2 : n ≠ 0) (h3 : 0 ≤ off) (h4 : q.index ≠ 0) :
    isNull ⟨q, off, n, t⟩ = false := by
  unfold isNull PT_NONE
  simp [h1, h2, h4]
  omega

theorem lookup_cons_self (b : B) (a : Paddr) (d : List Nat) (l : List Ent) : lookup { b with cache := ⟨a, d⟩ :: l } a = some ⟨a, d⟩ := by
  unfold lookup
  simp

theorem lookup_cons_ne (b : B) {a c : Paddr} (h : a ≠ c) (d : List Nat) (l : List Ent) :
    lookup { b with cache := ⟨a, d⟩ :: l } c = lookup { b with cache := l } c := by
  unfold lookup
  simp [h]

theorem segCreate_ok {ro : Bool} {e : Env} {s s' : Segs} {p : Psid} (h : segCreate ro e s p = (.ok, s')) :
    s p = none ∧ s' = setSeg s p ⟨0, fun _ => 0⟩ := by
  unfold segCreate at h
  split at h
  · cases h
  · split at h
    · cases h
    · rename_i hn
      split at h
      · cases h
      · cases h
        refine ⟨?_, rfl⟩
        cases hs : s p with
        | none => rfl
        | some f => rw [hs] at hn; exact absurd rfl hn

/-- One step of mkfs, successful: the object is cached and dirty, after those which were. -/
theorem create_dirty {e : Env} {b b1 : B} {a : Paddr} {d : List Nat} (h : create e b a d = (.ok, b1)) (hn : a ∉ b.dq) :
    (dirtify b1 a).pr = b.pr ∧ (dirtify b1 a).root = b.root ∧ (dirtify b1 a).segs = b.segs ∧ (dirtify b1 a).ro = b.ro ∧
    (dirtify b1 a).dq = b.dq ++ [a] ∧ lookup (dirtify b1 a) a = some ⟨a, d⟩ ∧
    (∀ c, c ∈ b.dq → lookup (dirtify b1 a) c = lookup b c) ∧ ∀ x, x ∈ (dirtify b1 a).cache → x ∈ b.cache ∨ x = ⟨a, d⟩ := by
  obtain ⟨h1, h2, h3, h4, h5, h6, h7⟩ := evictAll_spec (e.evict a) b
  have hb := create_ok h
  have hd : dirtify b1 a = { b1 with dq := b1.dq ++ [a] } := by
    unfold dirtify
    rw [if_neg]
    rw [hb]
    show a ∉ (evictAll b (e.evict a)).dq
    rw [h4]; exact hn
  rw [hd, hb]
  refine ⟨h2, h3, h5, h1, ?_, ?_, fun c hc => ?_, fun x hx => (List.mem_cons.1 hx).symm.imp (h6 x) id⟩
  · show (evictAll b (e.evict a)).dq ++ [a] = _
    rw [h4]
  · unfold lookup; simp
  · have hac : a ≠ c := fun hh => hn (hh ▸ hc)
    rw [← h7 c hc]
    unfold lookup
    simp [hac]

/-- The first checkpoint of a new volume. -/
theorem spawnFirst {e : Env} {s : Segs} {pvid : List Nat} {b1 : B} (h : spawnChkpt e (B.new s false pvid) = (.ok, b1)) :
    b1.ro = false ∧ b1.pr = ⟨pvid, 1, 1, 4096⟩ ∧ b1.root = paddrNone ∧ b1.segs = setSeg s (psidOf pvid) ⟨0, fun _ => 0⟩ ∧ b1.dq = [firstOf pvid] ∧
    lookup b1 (firstOf pvid) = some ⟨firstOf pvid, encChkpt (firstOf pvid) paddrNone⟩ ∧
    ∀ x, x ∈ b1.cache → x = ⟨firstOf pvid, encChkpt (firstOf pvid) paddrNone⟩ := by
  unfold spawnChkpt at h
  rw [if_pos (show (B.new s false pvid).pr.pos = 0 from rfl)] at h
  split at h
  · rename_i s' hs
    obtain ⟨_, hs'⟩ := segCreate_ok hs
    split at h
    · rename_i b2 hc
      have hb : dirtify b2 (firstOf pvid) = b1 := congrArg Prod.snd h
      obtain ⟨g1, g2, g3, g4, g5, g6, _, g8⟩ := create_dirty (a := firstOf pvid) hc (fun hx => by cases hx)
      rw [hb] at g1 g2 g3 g4 g5 g6 g8
      exact ⟨g4, g1, g2, g3.trans hs', g5, g6, fun x hx => (g8 x hx).resolve_left (fun h => by cases h)⟩
    · rename_i hne
      exact (hne _ h).elim
  · rename_i hne _
    cases h
    exact absurd rfl hne

theorem spawnRoot_ok {e : Env} {b b2 : B} (h : spawnRoot e b = (.ok, b2)) (hn : (carve b.pr PT_BTNODE).1 ∉ b.dq) :
    b2.ro = b.ro ∧ b2.pr = (carve b.pr PT_BTNODE).2 ∧ b2.root = (carve b.pr PT_BTNODE).1 ∧ b2.segs = b.segs ∧
    b2.dq = b.dq ++ [(carve b.pr PT_BTNODE).1] ∧ lookup b2 (carve b.pr PT_BTNODE).1 = some ⟨(carve b.pr PT_BTNODE).1, encNode 3⟩ ∧
    (∀ c, c ∈ b.dq → lookup b2 c = lookup b c) ∧ ∀ x, x ∈ b2.cache → x ∈ b.cache ∨ x = ⟨(carve b.pr PT_BTNODE).1, encNode 3⟩ := by
  unfold spawnRoot at h
  split at h
  · split at h
    · rename_i b1 hc
      obtain ⟨g1, g2, g3, g4, g5, g6, g7, g8⟩ := create_dirty hc hn
      have hb : { dirtify b1 (carve b.pr PT_BTNODE).1 with root := (carve b.pr PT_BTNODE).1 } = b2 := congrArg Prod.snd h
      rw [← hb]
      exact ⟨g4, g1, rfl, g3, g5, g6, g7, g8⟩
    · rename_i hne
      exact (hne _ h).elim
  · rename_i hne
    exact (hne (congrArg Prod.fst h)).elim

theorem spawnNext_ok {e : Env} {b b2 : B} (h : spawnChkpt e b = (.ok, b2)) (hp : b.pr.pos ≠ 0) (hn : (carve b.pr PT_CHKPT).1 ∉ b.dq) :
    b2.ro = b.ro ∧ b2.pr = (carve b.pr PT_CHKPT).2 ∧ b2.root = b.root ∧ b2.segs = b.segs ∧
    b2.dq = b.dq ++ [(carve b.pr PT_CHKPT).1] ∧
    lookup b2 (carve b.pr PT_CHKPT).1 = some ⟨(carve b.pr PT_CHKPT).1, encChkpt (carve b.pr PT_CHKPT).1 b.root⟩ ∧
    (∀ c, c ∈ b.dq → lookup b2 c = lookup b c) ∧
    ∀ x, x ∈ b2.cache → x ∈ b.cache ∨ x = ⟨(carve b.pr PT_CHKPT).1, encChkpt (carve b.pr PT_CHKPT).1 b.root⟩ := by
  unfold spawnChkpt at h
  rw [if_neg hp] at h
  split at h
  · rename_i s' hs
    have hs' : b.segs = s' := congrArg Prod.snd hs
    subst hs'
    split at h
    · rename_i b1 hc
      obtain ⟨g1, g2, g3, g4, g5, g6, g7, g8⟩ := create_dirty hc hn
      have hb : dirtify b1 (carve b.pr PT_CHKPT).1 = b2 := congrArg Prod.snd h
      rw [← hb]
      exact ⟨g4, g1, g2, g3, g5, g6, g7, g8⟩
    · rename_i hne
      exact (hne _ h).elim
  · rename_i hne _
    cases h
    exact absurd rfl hne

theorem flush_cons_ok {e : Env} {b b2 : B} {a : Paddr} {as : List Paddr} {d : List Nat} (hl : lookup b a = some ⟨a, d⟩)
    (h : flushLoop e b (a :: as) = (.ok, b2)) :
    ∃ f, b.segs a.psid = some f ∧ flushLoop e { b with segs := setSeg b.segs a.psid (f.put a.off.toNat (d.take a.len)) } as = (.ok, b2) := by
  unfold flushLoop at h
  rw [hl] at h
  split at h
  · rename_i s hs
    obtain ⟨f, hf, hs'⟩ := segSave_ok hs
    refine ⟨f, hf, ?_⟩
    rw [hs'] at h
    exact h
  · rename_i hne _
    cases h
    exact absurd rfl hne

theorem setSeg_self (s : Segs) (p : Psid) (f : File) : setSeg s p f p = some f := by unfold setSeg; rw [if_pos rfl]

/-- What a successful mkfs leaves. -/
theorem format_ok {e : Env} {s : Segs} {pvid : List Nat} {b : B} (hp : IsBytes 16 pvid) (h : format e (B.new s false pvid) = (.ok, b)) :
    s (psidOf pvid) = none ∧ b.pr = rangeOf pvid ∧ b.root = rootOf pvid ∧ b.dq = [] ∧ b.ro = false ∧
    Img pvid (rootOf pvid) (encNode 3) b.segs ∧ lookup b (rootOf pvid) = some ⟨rootOf pvid, encNode 3⟩ ∧
    lookup b (lastOf pvid) = some ⟨lastOf pvid, encChkpt (lastOf pvid) (rootOf pvid)⟩ ∧
    ∀ x, x ∈ b.cache → x = ⟨firstOf pvid, encChkpt (firstOf pvid) paddrNone⟩ ∨ x = ⟨rootOf pvid, encNode 3⟩ ∨
      x = ⟨lastOf pvid, encChkpt (lastOf pvid) (rootOf pvid)⟩ := by
  have hnone : s (psidOf pvid) = none := by
    cases hs : s (psidOf pvid) with
    | none => rfl
    | some f =>
      have := (format_exists e s pvid (by rw [hs]; rfl)).1
      rw [h] at this
      exact absurd rfl this
  unfold format at h
  split at h
  · rename_i b1 h1
    obtain ⟨f0, f1, f2, f3, f4, f5, f6⟩ := spawnFirst h1
    have hc1 : (carve b1.pr PT_BTNODE).1 = rootOf pvid := by rw [f1]; rfl
    have hc1' : (carve b1.pr PT_BTNODE).2 = ⟨pvid, 1, 1, 8192⟩ := by rw [f1]; rfl
    split at h
    · rename_i b2 h2
      obtain ⟨g0, g1, g2, g3, g4, g5, g6, g7⟩ := spawnRoot_ok h2 (by
        rw [hc1, f4]; intro hx
        have := congrArg Paddr.off (List.mem_singleton.1 hx)
        exact absurd this (by show ¬ (4096 : Int) = 0; decide))
      rw [hc1] at g2 g4 g5 g7
      rw [hc1'] at g1
      have hc2 : (carve b2.pr PT_CHKPT).1 = lastOf pvid := by rw [g1]; rfl
      have hc2' : (carve b2.pr PT_CHKPT).2 = rangeOf pvid := by rw [g1]; rfl
      have n1 : firstOf pvid ≠ rootOf pvid := fun hx => absurd (congrArg Paddr.off hx) (by show ¬ (0 : Int) = 4096; decide)
      have n2 : firstOf pvid ≠ lastOf pvid := fun hx => absurd (congrArg Paddr.off hx) (by show ¬ (0 : Int) = 8192; decide)
      have n3 : rootOf pvid ≠ lastOf pvid := fun hx => absurd (congrArg Paddr.off hx) (by show ¬ (4096 : Int) = 8192; decide)
      split at h
      · rename_i b3 h3
        have hd2 : b2.dq = [firstOf pvid, rootOf pvid] := by rw [g4, f4]; rfl
        obtain ⟨k0, k1, k2, k3, k4, k5, k6, k7⟩ := spawnNext_ok h3 (by rw [g1]; show ¬ (8192 : Int) = 0; decide) (by
          rw [hc2, hd2]; intro hx
          rcases List.mem_cons.1 hx with hx | hx
          · exact n2 hx.symm
          · exact n3 (List.mem_singleton.1 hx).symm)
        rw [hc2] at k4 k5 k7
        rw [g2] at k7
        rw [hc2'] at k1
        have hd3 : b3.dq = [firstOf pvid, rootOf pvid, lastOf pvid] := by rw [k4, hd2]; rfl
        have l1 : lookup b3 (firstOf pvid) = some ⟨firstOf pvid, encChkpt (firstOf pvid) paddrNone⟩ := by
          rw [k6 _ (by rw [hd2]; exact List.mem_cons_self ..), g6 _ (by rw [f4]; exact List.mem_cons_self ..), f5]
        have l2 : lookup b3 (rootOf pvid) = some ⟨rootOf pvid, encNode 3⟩ := by
          rw [k6 _ (by rw [hd2]; exact List.mem_cons_of_mem _ (List.mem_cons_self ..)), g5]
        have l3 : lookup b3 (lastOf pvid) = some ⟨lastOf pvid, encChkpt (lastOf pvid) (rootOf pvid)⟩ := by
          rw [k5, g2]
        unfold flush at h
        rw [hd3] at h
        obtain ⟨x1, m1, h⟩ := flush_cons_ok l1 h
        have l2' : ∀ s, lookup { b3 with segs := s } (rootOf pvid) = some ⟨rootOf pvid, encNode 3⟩ := fun _ => l2
        have l3' : ∀ s, lookup { b3 with segs := s } (lastOf pvid) = some ⟨lastOf pvid, encChkpt (lastOf pvid) (rootOf pvid)⟩ := fun _ => l3
        obtain ⟨x2, m2, h⟩ := flush_cons_ok (l2' _) h
        obtain ⟨x3, m3, h⟩ := flush_cons_ok (l3' _) h
        have e2 : x2 = x1.put 0 ((encChkpt (firstOf pvid) paddrNone).take 4096) := by
          have : setSeg b3.segs (psidOf pvid) _ (psidOf pvid) = some x2 := m2
          rw [setSeg_self] at this
          exact (Option.some.inj this).symm
        have e3 : x3 = x2.put 4096 ((encNode 3).take 4096) := by
          have : setSeg _ (psidOf pvid) _ (psidOf pvid) = some x3 := m3
          rw [setSeg_self] at this
          exact (Option.some.inj this).symm
        unfold flushLoop at h
        have hb := (Prod.mk.inj h).2
        have hll : (encChkpt (lastOf pvid) (rootOf pvid)).length = 4096 := encChkpt_length _ _ hp.1 hp.1
        have t1 : (encNode 3).take 4096 = encNode 3 := List.take_of_length_le (by rw [encNode_length]; exact Nat.le_refl _)
        have t2 : (encChkpt (lastOf pvid) (rootOf pvid)).take 4096 = encChkpt (lastOf pvid) (rootOf pvid) :=
          List.take_of_length_le (by rw [hll]; exact Nat.le_refl _)
        rw [← hb]
        refine ⟨hnone, k1, k2.trans g2, rfl, k0.trans (g0.trans f0), ?_, l2, l3, fun x hx => ?_⟩
        refine ⟨x3.put 8192 ((encChkpt (lastOf pvid) (rootOf pvid)).take 4096), setSeg_self _ _ _, ?_, ?_⟩
        · rw [t2]
          have := holds_put_self x3 8192 (encChkpt (lastOf pvid) (rootOf pvid)) (fun hx => by rw [hx] at hll; cases hll)
          rw [hll] at this
          exact this
        · rw [t2]
          apply holds_put _ _ _ (.inr (by show 4096 + 4096 ≤ 8192; omega))
          rw [e3, t1]
          have := holds_put_self x2 4096 (encNode 3) (fun hx => by have := encNode_length 3; rw [hx] at this; cases this)
          rw [encNode_length] at this
          exact this
        · rcases k7 x hx with h1 | h1
          · rcases g7 x h1 with h2 | h2
            · exact .inl (f6 x h2)
            · exact .inr (.inl h2)
          · exact .inr (.inr h1)
      · rename_i hne
        exact (hne _ h).elim
    · rename_i hne
      exact (hne _ h).elim
  · rename_i hne
    exact (hne _ h).elim

/-! ### The theorems -/

theorem inv_new {pvid : List Nat} {s : Segs} (hi : Img pvid (rootOf pvid) (encNode 3) s) (ro : Bool) (p : List Nat) : Inv pvid (B.new s ro p) :=
  ⟨hi, fun a ha => (by cases ha), fun x hx => (by cases hx), fun x hx => (by cases hx)⟩

theorem inv_step {pvid : List Nat} (h : pvid.length = 16) {b : B} (hi : Inv pvid b) (e : Env) (op : Op) : Inv pvid (step e b op).2 := by
  cases op with
  | mkfs p =>
    show Inv pvid (format e (B.new b.segs false p)).2
    by_cases hp : p = pvid
    · subst hp
      obtain ⟨f, hf, hr⟩ := hi.img
      obtain ⟨_, h1, h2, h3⟩ := format_exists e b.segs p (by rw [hf]; rfl)
      exact ⟨(by rw [h1]; exact ⟨f, hf, hr⟩), fun a ha => (by rw [h2] at ha; cases ha), fun x hx => (by rw [h3] at hx; cases hx),
        fun x hx => (by rw [h3] at hx; cases hx)⟩
    · have hne : psidOf pvid ≠ psidOf p := fun hx => hp (congrArg Psid.pvid hx).symm
      obtain ⟨h1, h2, h3⟩ := format_frame e b.segs false p
      obtain ⟨f, hf, hr⟩ := hi.img
      refine ⟨⟨f, (h3 _ hne).trans hf, hr⟩, fun a ha hx => hne (hx.symm.trans (h1 a ha)), fun x hx hxa => ?_, fun x hx hxa => ?_⟩
      · exact absurd ((congrArg Paddr.psid hxa).symm.trans (h2 x hx)) hne
      · exact absurd ((congrArg Paddr.psid hxa).symm.trans (h2 x hx)) hne
  | mount ro p => exact inv_reload h (inv_new hi.img ro []) e p
  | reopen p => exact inv_reload h hi e p
  | relax l => exact inv_evictAll hi l
  | flush => exact inv_flush hi e
  | close =>
    show Inv pvid (close e b).2
    have hf := inv_flush hi e
    unfold close
    split
    · rename_i b1 hb
      rw [hb] at hf
      exact ⟨hf.img, hf.dq, fun x hx => (by cases hx), fun x hx => (by cases hx)⟩
    · exact hf
  | drop => exact ⟨hi.img, fun a ha => (by cases ha), fun x hx => (by cases hx), fun x hx => (by cases hx)⟩

theorem inv_run {pvid : List Nat} (h : pvid.length = 16) : ∀ (xs : List (Env × Op)) {b : B}, Inv pvid b → Inv pvid (run b xs)
  | [], _, hi => hi
  | x :: xs, _, hi => inv_run h xs (inv_step h hi x.1 x.2)

theorem inv_format {pvid : List Nat} {e : Env} {s : Segs} {b : B} (hp : IsBytes 16 pvid) (h : format e (B.new s false pvid) = (.ok, b)) : Inv pvid b := by
  obtain ⟨_, _, _, h4, _, h6, _, _, h9⟩ := format_ok hp h
  have n1 : firstOf pvid ≠ rootOf pvid := fun hx => absurd (congrArg Paddr.off hx) (by show ¬ (0 : Int) = 4096; decide)
  have n2 : firstOf pvid ≠ lastOf pvid := fun hx => absurd (congrArg Paddr.off hx) (by show ¬ (0 : Int) = 8192; decide)
  have n3 : rootOf pvid ≠ lastOf pvid := fun hx => absurd (congrArg Paddr.off hx) (by show ¬ (4096 : Int) = 8192; decide)
  refine ⟨h6, fun a ha => (by rw [h4] at ha; cases ha), fun x hx hxa => ?_, fun x hx hxa => ?_⟩
  · rcases h9 x hx with h | h | h
    · rw [h] at hxa; exact absurd hxa n2
    · rw [h] at hxa; exact absurd hxa n3
    · rw [h]
  · rcases h9 x hx with h | h | h
    · rw [h] at hxa; exact absurd hxa n1
    · rw [h]
    · rw [h] at hxa; exact absurd hxa.symm n3

/-! ### Mounting -/

theorem create_quiet {e : Env} (hq : Quiet e) (b : B) (a : Paddr) (d : List Nat) (ha : a.ptype = PT_CHKPT → a.off % 4096 = 0) :
    create e b a d = (.ok, { evictAll b (e.evict a) with cache := ⟨a, d⟩ :: (evictAll b (e.evict a)).cache }) := by
  unfold create
  rw [if_neg (fun h => h.2 (ha h.1)), if_neg (by rw [hq.2.2]; decide)]

/-- Staging what is there, when nothing goes wrong and the cache is right about it. -/
theorem stage_quiet {e : Env} (hq : Quiet e) {b : B} (hro : b.ro = false) {a : Paddr} {d : List Nat} (hh : hasAddr b.pr a = true)
    {f : File} (hf : b.segs a.psid = some f) (ht : a.ptype = PT_CHKPT ∨ a.ptype = PT_BTNODE) (hv : a.psid.pvid.length = 16)
    (hl : a.len = 4096) (h0 : 0 ≤ a.off) (hal : a.ptype = PT_CHKPT → a.off % 4096 = 0) (hd : Holds f a.off.toNat 4096 d)
    (hc : ∀ x, x ∈ b.cache → x.addr = a → x.data = d) :
    (stage e b true a).1 = .ok ∧ (stage e b true a).2.2 = d ∧ lookup (stage e b true a).2.1 a = some ⟨a, d⟩ := by
  unfold stage
  rw [if_pos rfl]
  cases hlk : lookup b a with
  | some x =>
    have hx := List.find?_some hlk
    have hm := List.mem_of_find?_eq_some hlk
    have hxa : x.addr = a := by simpa using hx
    have hxd := hc x hm hxa
    exact ⟨rfl, hxd, by rw [hlk, ← hxa, ← hxd]⟩
  | none =>
    have hn : (fresh a).length = 4096 := fresh_length a hv ht
    have hld : segLoad e b.segs a (fresh a) = (.ok, d) :=
      segLoad_quiet hq hf h0 (hl.trans hn.symm) (by rw [hn]; omega) (by rw [hn]; exact hd)
    have hst : segStage b.ro e b.segs a.psid = .ok := by
      unfold segStage
      rw [if_neg (by rw [hro]; decide), if_neg (by rw [hf]; intro h; cases h), if_neg (by rw [hq.1]; decide)]
    simp only [hh, Bool.true_eq_false, if_false, hst, hld, create_quiet hq b a d hal, if_true]
    exact ⟨trivial, trivial, lookup_cons_self ..⟩

/-- Opening a volume whose last checkpoint names a root without children. -/
theorem reload_quiet {e : Env} (hq : Quiet e) {pvid : List Nat} (hp : IsBytes 16 pvid) {b : B} (hro : b.ro = false) {r : Paddr} {d : List Nat}
    (hi : Img pvid r d b.segs) (hr : r.Fits) (hrp : r.psid = psidOf pvid) (hrt : r.ptype = PT_BTNODE) (hrl : r.len = 4096) (hr0 : 0 ≤ r.off)
    (hn : nodeNchilds d = 0)
    (h1 : ∀ x, x ∈ b.cache → x.addr = lastOf pvid → x.data = encChkpt (lastOf pvid) r)
    (h2 : ∀ x, x ∈ b.cache → x.addr = r → x.data = d) :
    (reload e b (rangeOf pvid)).1 = .ok ∧ (reload e b (rangeOf pvid)).2.root = r ∧
    lookup (reload e b (rangeOf pvid)).2 r = some ⟨r, d⟩ := by
  obtain ⟨f, hf, g1, g2⟩ := hi
  have ha : lastAddr (rangeOf pvid) PT_CHKPT = lastOf pvid := rfl
  have hnul : isNull (lastOf pvid) = false := isNull_false (by show PT_CHKPT ≠ PT_NONE; decide) (by show (4096:Nat) ≠ 0; decide) (by show (0:Int) ≤ 8192; decide) (by show (1:Nat) ≠ 0; decide)
  have hnur : isNull r = false := by
    unfold isNull
    rw [hrt, hrl, hrp]
    simp [PT_BTNODE, PT_NONE, psidOf]
    omega
  have hh1 : hasAddr (rangeOf pvid) (lastOf pvid) = true := by
    unfold hasAddr
    rw [hnul]
    simp [rangeOf, lastOf, psidOf]
  have hh2 : hasAddr (rangeOf pvid) r = true := by
    unfold hasAddr
    rw [hnur, hrp]
    simp [rangeOf, psidOf]
  obtain ⟨s1, s2, s3⟩ := stage_quiet (b := { b with pr := rangeOf pvid }) hq hro hh1 hf (.inl rfl) hp.1 rfl (by show (0 : Int) ≤ 8192; decide)
    (fun _ => rfl) g1 h1
  obtain ⟨t1, t2, _, _, t5, t6⟩ := stage_frame e { b with pr := rangeOf pvid } true (lastOf pvid)
  have hrest : ∀ x, x ∈ (stage e { b with pr := rangeOf pvid } true (lastOf pvid)).2.1.cache → x.addr = r → x.data = d := by
    intro x hx hxa
    rcases t6 x hx with h | ⟨h, _⟩
    · exact h2 x h hxa
    · have : lastOf pvid = r := h.symm.trans hxa
      exact absurd (congrArg Paddr.ptype this) (by rw [hrt]; show ¬ PT_CHKPT = PT_BTNODE; decide)
  have hsl : stageLast e { b with pr := rangeOf pvid } =
      (.ok, { (stage e { b with pr := rangeOf pvid } true (lastOf pvid)).2.1 with root := r }) := by
    unfold stageLast
    show (match stage e { b with pr := rangeOf pvid } true (lastOf pvid) with
      | (Res.ok, b1, d) => _
      | (r, b1, _) => _) = _
    cases hx : stage e { b with pr := rangeOf pvid } true (lastOf pvid) with
    | mk r1 q =>
      cases q with
      | mk b1 d1 =>
        rw [hx] at s1 s2
        cases s1
        have : d1 = encChkpt (lastOf pvid) r := s2
        subst this
        show (if _ then _ else _) = _
        rw [chkptRoot_enc _ _ hp.1 hr, if_neg (fun hx => hx hrt)]
  unfold reload
  rw [if_neg (by show ¬ ((_ : Bool) = false); unfold rangeValid; intro hx; cases hx), hsl]
  show (reloadRoot e _).1 = .ok ∧ _ ∧ _
  obtain ⟨u1, u2, u3⟩ := stage_quiet (b := { (stage e { b with pr := rangeOf pvid } true (lastOf pvid)).2.1 with root := r }) hq
    (t1.trans hro) (by show hasAddr _ r = true; rw [t2]; exact hh2) (by rw [hrp]; show (stage e _ true _).2.1.segs _ = _; rw [t5]; exact hf) (.inr hrt)
    hr.pvid.1 hrl hr0 (fun hx => by rw [hrt] at hx; cases hx) g2 hrest
  have hroot := (stage_frame e { (stage e { b with pr := rangeOf pvid } true (lastOf pvid)).2.1 with root := r } true r).2.2.1
  unfold reloadRoot
  simp only
  cases hx : stage e { (stage e { b with pr := rangeOf pvid } true (lastOf pvid)).2.1 with root := r } true r with
  | mk r1 q =>
    cases q with
    | mk b1 d1 =>
      rw [hx] at u1 u2 u3 hroot
      cases u1
      have : d1 = d := u2
      subst this
      show (stageChilds e d1 r (nodeNchilds d1) 0 b1).1 = _ ∧ (stageChilds e d1 r (nodeNchilds d1) 0 b1).2.root = r ∧
        lookup (stageChilds e d1 r (nodeNchilds d1) 0 b1).2 r = _
      rw [hn]
      exact ⟨rfl, hroot, u3⟩

/-- **C64.**  A file-system that was made can be mounted: after any history of the repository — other file-systems made, this one
mounted, closed, opened anew, its objects evicted, every step with whatever errors — opening the range that mkfs
left in the boot record succeeds when nothing goes wrong, in a new process or in the one at hand, and finds the root mkfs made. -/
theorem C64_mountable {e : Env} {b b' : B} {pvid : List Nat} (hp : IsBytes 16 pvid) (h : step e b (.mkfs pvid) = (.ok, b')) (xs : List (Env × Op))
    {e2 : Env} (hq : Quiet e2) (op : Op) (hop : op = .mount false b'.pr ∨ (op = .reopen b'.pr ∧ (run b' xs).ro = false)) :
    (step e2 (run b' xs) op).1 = .ok ∧ (step e2 (run b' xs) op).2.root = b'.root ∧
    ∃ x, lookup b' b'.root = some x ∧ lookup (step e2 (run b' xs) op).2 b'.root = some x := by
  obtain ⟨_, h2, h3, _, _, _, h7, _⟩ := format_ok hp h
  have hi := inv_run hp.1 xs (inv_format hp h)
  rw [h2] at hop
  rw [h3]
  have key : ∀ c : B, c.ro = false → Inv pvid c → _ := fun c hc hic =>
    reload_quiet hq hp hc hic.img (rootOf_fits hp) rfl rfl rfl (by show (0 : Int) ≤ 4096; decide) (encNode_nchilds 3) hic.last hic.root
  rcases hop with rfl | ⟨rfl, hro⟩
  · obtain ⟨k1, k2, k3⟩ := key _ rfl (inv_new hi.img false [])
    exact ⟨k1, k2, _, h7, k3⟩
  · obtain ⟨k1, k2, k3⟩ := key _ hro hi
    exact ⟨k1, k2, _, h7, k3⟩

/-- C64: making a file-system never disturbs another: no segment but the new one is touched, and one that is there is never taken. -/
theorem C64_mkfs_private (e : Env) (b : B) (pvid : List Nat) (q : Psid) (f : File) (hf : b.segs q = some f) :
    (step e b (.mkfs pvid)).2.segs q = some f ∧ (∀ a, a ∈ (step e b (.mkfs pvid)).2.dq → a.psid = q → (step e b (.mkfs pvid)).1 ≠ .ok) := by
  obtain ⟨h1, _, h3⟩ := format_frame e b.segs false pvid
  by_cases hq : q = psidOf pvid
  · subst hq
    obtain ⟨g1, g2, _, _⟩ := format_exists e b.segs pvid (by rw [hf]; rfl)
    exact ⟨(congrFun g2 _).trans hf, fun _ _ _ => g1⟩
  · exact ⟨(h3 q hq).trans hf, fun a ha hx => absurd (hx.symm.trans (h1 a ha)) hq⟩

/-- The first step of a mount: nothing is cached. -/
theorem mount_first (e : Env) (s : Segs) (ro : Bool) (p : Prange) (h : segStage ro e s ⟨p.pvid, p.curr⟩ ≠ .ok) :
    (reload e (B.new s ro []) p).1 ≠ .ok := by
  unfold reload
  split
  · intro hx; cases hx
  · have hs : (stageLast e { B.new s ro [] with pr := p }).1 ≠ .ok := by
      unfold stageLast stage
      rw [if_pos rfl]
      have hl : lookup { B.new s ro [] with pr := p } (lastAddr p PT_CHKPT) = none := rfl
      rw [hl]
      simp only
      split
      · rename_i heq
        split at heq
        · cases heq
        · cases hg : segStage ro e s ⟨p.pvid, p.curr⟩ with
          | ok => exact absurd hg h
          | err x =>
            have hg' : segStage (B.new s ro []).ro e (B.new s ro []).segs (lastAddr p PT_CHKPT).psid = .err x := hg
            rw [hg'] at heq; cases heq
          | undef =>
            have hg' : segStage (B.new s ro []).ro e (B.new s ro []).segs (lastAddr p PT_CHKPT).psid = .undef := hg
            rw [hg'] at heq; cases heq
      · rename_i hne heq
        intro hx
        have : _ = Res.ok := hx
        subst this
        exact hne rfl
    split
    · rename_i hx
      rw [hx] at hs
      exact absurd rfl hs
    · exact hs

/-- **C64 violated (read-only mounts).**  No file-system at all can be mounted read-only: opening the segment asks for a repository
which can be written. -/
theorem C64_readonly_violated (e : Env) (b : B) (p : Prange) : (step e b (.mount true p)).1 ≠ .ok :=
  mount_first e b.segs true p (by unfold segStage; rw [if_pos rfl]; intro h; cases h)

/-- **C64 violated (restored archives).**  Where the segment of the physical store is not there the file-system cannot be mounted.  An archive
holds the segments of the volume and the boot record only (lib/pack.c knows nothing of the physical store), so whatever is
restored into a repository other than the one it was archived from is of no use. -/
theorem C64_restored_violated (e : Env) (b : B) (ro : Bool) (p : Prange) (h : b.segs ⟨p.pvid, p.curr⟩ = none) :
    (step e b (.mount ro p)).1 ≠ .ok := by
  apply mount_first e b.segs ro p
  unfold segStage
  split
  · intro hx; cases hx
  · rw [if_pos (by rw [h]; rfl)]; intro hx; cases hx

theorem childs_segs (e : Env) (d : List Nat) (a : Paddr) : ∀ (k slot : Nat) (b : B), (stageChilds e d a k slot b).2.segs = b.segs
  | 0, _, _ => rfl
  | k + 1, slot, b => by
    unfold stageChilds
    split
    · rfl
    · split
      · rfl
      · split
        · have hs := (stage_frame e b ((nodeChild d slot).ptype == PT_BTNODE) (nodeChild d slot)).2.2.2.2.1
          split
          · rename_i b1 _ hx
            rw [hx] at hs
            exact (childs_segs e d a k (slot + 1) b1).trans hs
          · rename_i hx
            rw [hx] at hs
            exact hs
        · rfl

theorem childs_root (e : Env) (d : List Nat) (a : Paddr) : ∀ (k slot : Nat) (b : B), (stageChilds e d a k slot b).2.root = b.root
  | 0, _, _ => rfl
  | k + 1, slot, b => by
    unfold stageChilds
    split
    · rfl
    · split
      · rfl
      · split
        · have hs := (stage_frame e b ((nodeChild d slot).ptype == PT_BTNODE) (nodeChild d slot)).2.2.1
          split
          · rename_i b1 _ hx
            rw [hx] at hs
            exact (childs_root e d a k (slot + 1) b1).trans hs
          · rename_i hx
            rw [hx] at hs
            exact hs
        · rfl

theorem reload_segs (e : Env) (b : B) (p : Prange) : (reload e b p).2.segs = b.segs := by
  have h1 : (stageLast e { b with pr := p }).2.segs = b.segs := by
    have hs := (stage_frame e { b with pr := p } true (lastAddr p PT_CHKPT)).2.2.2.2.1
    unfold stageLast
    split
    · rename_i hx
      have hx' : stage e { b with pr := p } true (lastAddr p PT_CHKPT) = _ := hx
      rw [hx'] at hs
      split <;> exact hs
    · rename_i hx
      have hx' : stage e { b with pr := p } true (lastAddr p PT_CHKPT) = _ := hx
      rw [hx'] at hs
      exact hs
  have h2 : ∀ c : B, (reloadRoot e c).2.segs = c.segs := by
    intro c
    have hs := (stage_frame e c true c.root).2.2.2.2.1
    unfold reloadRoot
    split
    · rename_i hx
      rw [hx] at hs
      exact (childs_segs ..).trans hs
    · rename_i hx
      rw [hx] at hs
      exact hs
  unfold reload
  split
  · rfl
  · split
    · rename_i hx
      rw [hx] at h1
      exact (h2 _).trans h1
    · exact h1

theorem segSave_some (e : Env) (s : Segs) (a : Paddr) (d : List Nat) (ro : Bool) (q : Psid) (h : (s q).isSome = true) :
    ((segSave ro e s a d).2 q).isSome = true := by
  by_cases hq : a.psid = q
  · subst hq
    unfold segSave
    split
    · exact h
    · split
      · exact h
      · split
        · exact h
        · split
          · exact h
          · show (setSeg s a.psid _ a.psid).isSome = true
            rw [setSeg_self]
            rfl
  · rw [segSave_other e s a d ro q hq]
    exact h

theorem flushLoop_some (e : Env) (q : Psid) : ∀ (l : List Paddr) (b : B), (b.segs q).isSome = true → ((flushLoop e b l).2.segs q).isSome = true := by
  intro l
  induction l with
  | nil => intro b h; exact h
  | cons a as ih =>
    intro b h
    have hs := segSave_some e b.segs a (((lookup b a).map (·.data)).getD []) b.ro q h
    unfold flushLoop
    split
    · rename_i hx
      rw [hx] at hs
      exact ih _ hs
    · rename_i hx
      rw [hx] at hs
      exact hs

/-- **C64 violated (nothing is ever removed).**  No operation removes a segment, and there is no operation on the repository which does (rmfs,
lib/execlib.c, knows the segments of the volume only): what mkfs made of the physical store stays after the file-system was removed. -/
theorem C64_never_removed_violated (e : Env) (b : B) (op : Op) (q : Psid) (h : (b.segs q).isSome = true) : ((step e b op).2.segs q).isSome = true := by
  cases op with
  | mkfs pvid =>
    obtain ⟨f, hf⟩ := Option.isSome_iff_exists.1 h
    rw [(C64_mkfs_private e b pvid q f hf).1]
    rfl
  | mount ro p =>
    show ((reload e (B.new b.segs ro []) p).2.segs q).isSome = true
    rw [reload_segs]
    exact h
  | reopen p =>
    show ((reload e b p).2.segs q).isSome = true
    rw [reload_segs]
    exact h
  | relax l =>
    show ((evictAll b l).segs q).isSome = true
    rw [(evictAll_spec l b).2.2.2.2.1]
    exact h
  | flush => exact flushLoop_some e q b.dq b h
  | close =>
    have := flushLoop_some e q b.dq b h
    show ((close e b).2.segs q).isSome = true
    unfold close flush
    split
    · rename_i hx
      rw [hx] at this
      exact this
    · exact this
  | drop => exact h

/-- Staging what is not cached. -/
theorem stage_ok {e : Env} {b b1 : B} {hit : Bool} {a : Paddr} {d : List Nat} (hn : lookup b a = none) (h : stage e b hit a = (.ok, b1, d)) :
    hasAddr b.pr a = true ∧ segStage b.ro e b.segs a.psid = .ok ∧ b1.cache.any (fun x => x.addr == a) = true := by
  unfold stage at h
  have hl : (if hit then lookup b a else none) = none := by rw [hn]; cases hit <;> rfl
  rw [hl] at h
  simp only at h
  split at h
  · cases h
  · rename_i hh
    have hh : hasAddr b.pr a = true := by cases hx : hasAddr b.pr a with
      | true => rfl
      | false => exact absurd hx hh
    split at h
    · rename_i hs
      refine ⟨hh, hs, ?_⟩
      split at h
      · rename_i b2 hc
        split at h
        · have h2 : b2 = b1 := (Prod.mk.inj (Prod.mk.inj h).2).1
          subst h2
          rw [create_ok hc]
          simp
        · rename_i hne
          exact absurd (congrArg Prod.fst h) hne
      · rename_i hne hc
        have := congrArg Prod.fst h
        have : _ = Res.ok := this
        subst this
        exact (hne rfl).elim
    · rename_i hne
      have := congrArg Prod.fst h
      exact (hne this).elim

/-- C64: what a mount accepts is a root within the range of the boot record, in a segment that is there. -/
theorem C64_mount_sound {e : Env} {b b' : B} {ro : Bool} {p : Prange} (h : step e b (.mount ro p) = (.ok, b')) :
    ro = false ∧ (b.segs ⟨p.pvid, p.curr⟩).isSome = true ∧ b'.root.ptype = PT_BTNODE ∧ b'.root.psid.pvid = p.pvid ∧
    p.base ≤ b'.root.psid.index ∧ b'.root.psid.index ≤ p.curr ∧ (b.segs b'.root.psid).isSome = true := by
  have h : reload e (B.new b.segs ro []) p = (.ok, b') := h
  unfold reload at h
  split at h
  · cases h
  · split at h
    · rename_i b2 hx
      unfold stageLast at hx
      split at hx
      · rename_i b1 d1 h1
        have h1 : stage e { B.new b.segs ro [] with pr := p } true (lastAddr p PT_CHKPT) = (.ok, b1, d1) := h1
        have ho := stage_ok rfl h1
        obtain ⟨t1, t2, _, _, t5, t6⟩ := stage_frame e { B.new b.segs ro [] with pr := p } true (lastAddr p PT_CHKPT)
        rw [h1] at t1 t2 t5 t6
        split at hx
        · cases hx
        · rename_i hpt
          have hpt : (chkptRoot d1).ptype = PT_BTNODE := Decidable.not_not.1 hpt
          have hb2 := (Prod.mk.inj hx).2
          subst hb2
          have hs : segStage ro e b.segs ⟨p.pvid, p.curr⟩ = .ok := ho.2.1
          have hsg : ∀ q, segStage ro e b.segs q = .ok → ro = false ∧ (b.segs q).isSome = true := by
            intro q hq
            unfold segStage at hq
            split at hq
            · cases hq
            · rename_i hr
              split at hq
              · cases hq
              · rename_i hn
                refine ⟨by simpa using hr, ?_⟩
                cases hx : b.segs q with
                | none => rw [hx] at hn; exact absurd rfl hn
                | some f => rfl
          obtain ⟨a1, a2⟩ := hsg _ hs
          unfold reloadRoot at h
          split at h
          · rename_i b3 d3 h3
            have hlk : lookup { b1 with root := chkptRoot d1 } (chkptRoot d1) = none := by
              unfold lookup
              rw [List.find?_eq_none]
              intro x hx hxa
              have hxa : x.addr = chkptRoot d1 := by simpa using hxa
              rcases t6 x hx with hm | ⟨hm, _⟩
              · cases hm
              · have : (lastAddr p PT_CHKPT).ptype = PT_BTNODE := by rw [← hm, hxa]; exact hpt
                exact absurd this (by show ¬ PT_CHKPT = PT_BTNODE; decide)
            have ho3 := stage_ok hlk h3
            have hrt := (stage_frame e { b1 with root := chkptRoot d1 } true (chkptRoot d1)).2.2.1
            have h3' : stage e { b1 with root := chkptRoot d1 } true (chkptRoot d1) = _ := h3
            rw [h3'] at hrt
            have hr := childs_root e d3 (chkptRoot d1) (nodeNchilds d3) 0 b3
            have h : stageChilds e d3 (chkptRoot d1) (nodeNchilds d3) 0 b3 = (.ok, b') := h
            rw [h] at hr
            have hroot : b'.root = chkptRoot d1 := hr.trans hrt
            rw [hroot]
            have hh : hasAddr b1.pr (chkptRoot d1) = true := ho3.1
            have hs3 : segStage b1.ro e b1.segs (chkptRoot d1).psid = .ok := ho3.2.1
            have t1 : b1.ro = ro := t1
            have t2 : b1.pr = p := t2
            have t5 : b1.segs = b.segs := t5
            rw [t1, t5] at hs3
            rw [t2] at hh
            unfold hasAddr at hh
            simp only [Bool.and_eq_true, beq_iff_eq, decide_eq_true_eq] at hh
            exact ⟨a1, a2, hpt, hh.2.1.symm, hh.2.2.1, hh.2.2.2, (hsg _ hs3).2⟩
          · rename_i hne h3
            have := congrArg Prod.fst h
            have : _ = Res.ok := this
            subst this
            exact (hne rfl).elim
      · rename_i hne h3
        have := congrArg Prod.fst hx
        have : _ = Res.ok := this
        subst this
        exact (hne rfl).elim
    · rename_i hne
      exact (hne _ h).elim

/-- One byte of a segment damaged. -/
def damage (s : Segs) (p : Psid) (off v : Nat) : Segs := fun q => if q = p then (s q).map (fun f => f.put off [v]) else s q

theorem holds_set {f : File} {off n : Nat} {l : List Nat} (h : Holds f off n l) {i : Nat} (hi : i < n) (v : Nat) :
    Holds (f.put (off + i) [v]) off n (l.set i v) := by
  have hw := put_wrote f (off + i) [v]
  refine ⟨by rw [List.length_set]; exact h.1, fun h0 => ?_, fun j b hb => ?_⟩
  · rw [hw.1, if_neg (by simp)]
    have := h.2.1 h0
    simp only [List.length_cons, List.length_nil]
    omega
  · by_cases hj : j = i
    · subst hj
      have hl : j < l.length := by rw [h.1]; exact hi
      rw [List.getElem?_set_self hl] at hb
      cases hb
      exact hw.2.1 0 v rfl
    · rw [List.getElem?_set_ne (Ne.symm hj)] at hb
      rw [hw.2.2 (off + j) (by simp only [List.length_cons, List.length_nil]; omega)]
      exact h.2.2 j b hb

/-- **C64 violated (damage is not noticed).**  Whatever happens to any byte of the root — its magic number, its type, its size, its flags — but
the two bytes of the number of its children, it is mounted without complaint: there is no checksum, and nothing that is loaded is verified. -/
theorem C64_damage_violated {e : Env} {b b' : B} {pvid : List Nat} (hp : IsBytes 16 pvid) (h : step e b (.mkfs pvid) = (.ok, b')) (xs : List (Env × Op))
    {e2 : Env} (hq : Quiet e2) {i : Nat} (hi : i < 4096) (hn1 : i ≠ 22) (hn2 : i ≠ 23) (v : Nat) {c : B}
    (hc : c.segs = damage (run b' xs).segs b'.root.psid (b'.root.off.toNat + i) v) :
    (step e2 c (.mount false b'.pr)).1 = .ok ∧
    ∃ x y, lookup b' b'.root = some x ∧ lookup (step e2 c (.mount false b'.pr)).2 b'.root = some y ∧ y.data = x.data.set i v := by
  obtain ⟨_, h2, h3, _, _, _, h7, _⟩ := format_ok hp h
  obtain ⟨f, hf, g1, g2⟩ := (inv_run hp.1 xs (inv_format hp h)).img
  rw [h3] at hc
  have ho : (rootOf pvid).off.toNat = 4096 := rfl
  rw [ho] at g2 hc
  have himg : Img pvid (rootOf pvid) ((encNode 3).set i v) c.segs := by
    refine ⟨f.put (4096 + i) [v], ?_, ?_, ?_⟩
    · rw [hc]
      show (if psidOf pvid = psidOf pvid then _ else _) = _
      rw [if_pos rfl, hf]
      rfl
    · exact holds_put g1 _ _ (.inl (by simp only [List.length_cons, List.length_nil]; omega))
    · exact holds_set g2 hi v
  have hnc : nodeNchilds ((encNode 3).set i v) = 0 := by
    rw [← encNode_nchilds 3]
    unfold nodeNchilds
    congr 1
    apply List.ext_getElem?
    intro j
    simp only [List.getElem?_take, List.getElem?_drop]
    split
    · rw [List.getElem?_set_ne (by omega)]
    · rfl
  obtain ⟨k1, k2, k3⟩ := reload_quiet (b := B.new c.segs false []) hq hp rfl himg (rootOf_fits hp) rfl rfl rfl (by show (0 : Int) ≤ 4096; decide) hnc
    (fun x hx => (by cases hx)) (fun x hx => (by cases hx))
  rw [h2, h3]
  exact ⟨k1, _, _, h7, k3, rfl⟩

/-! ### A case -/

private def v0 : List Nat := List.replicate 16 7

/-- The file-system on an empty repository, nothing going wrong: made, then mounted by another process. -/
example : (step {} ⟨false, prangeInit [], paddrNone, [], [], fun _ => none⟩ (.mkfs v0)).1 = .ok := by decide +kernel

example : Quiet {} := ⟨fun _ => rfl, fun _ a ha => (by cases ha), fun _ => rfl⟩

/-- And with the disk full nothing is made. -/
example : (step { seg := fun _ => 28 } ⟨false, prangeInit [], paddrNone, [], [], fun _ => none⟩ (.mkfs v0)).1 = .err 28 := by decide +kernel

end Silofs.Bs
