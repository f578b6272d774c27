import Verif.Props.Pack
/-
C45: exporting a file-system and importing it elsewhere.
-/
set_option linter.unusedSimpArgs false
set_option linter.unusedVariables false
namespace Silofs.Pack
open Silofs Silofs.Addr

/-! ### Pack files -/

theorem savePack_self (pk : Caddr → Option Bytes) (c : Caddr) (x : Bytes) :
    savePack pk c x c = some (x ++ ((pk c).getD []).drop x.length) := by simp [savePack]

theorem savePack_other (pk : Caddr → Option Bytes) {c c' : Caddr} (x : Bytes) (h : c' ≠ c) :
    savePack pk c x c' = pk c' := by simp [savePack, h]

theorem sendPack_other (pk : Caddr → Option Bytes) {c c' : Caddr} (x : Bytes) (h : c' ≠ c) :
    sendPack pk c x c' = pk c' := by
  unfold sendPack
  cases pk c with
  | none => exact savePack_other pk x h
  | some y =>
    by_cases hl : y.length ≠ x.length
    · simp only [if_pos hl]; exact savePack_other pk x h
    · simp only [if_neg hl]

/-- The pack file of an address has the data, perhaps with more behind. -/
def Holds (pk : Caddr → Option Bytes) (c : Caddr) (x : Bytes) : Prop := ∃ t, pk c = some (x ++ t)

theorem send_holds (pk : Caddr → Option Bytes) (c : Caddr) (x : Bytes)
    (h : ∀ y, pk c = some y → y.length = x.length → y = x) : Holds (sendPack pk c x) c x := by
  unfold sendPack
  cases hp : pk c with
  | none => exact ⟨_, savePack_self pk c x⟩
  | some y =>
    by_cases hl : y.length ≠ x.length
    · simp only [if_pos hl]; exact ⟨_, savePack_self pk c x⟩
    · simp only [if_neg hl]
      exact ⟨[], by rw [List.append_nil, hp, h y hp (by omega)]⟩

theorem load_holds {pk : Caddr → Option Bytes} {c : Caddr} {x : Bytes} (h : Holds pk c x) :
    loadPack pk c x.length = .ok x := by
  obtain ⟨t, ht⟩ := h
  unfold loadPack
  rw [ht]
  simp

/-! ### Export -/

/-- No pack file of the right length has wrong data: neither those in the repository, nor are there two different ranges
of the same address. -/
structure Clean (h : Bytes → Bytes) (r : Repo) (bc : Caddr) (b0 : Bytes) : Prop where
  seg : ∀ a b y, r.read a = .ok b → r.pack (caddrOf h 3 b) = some y → y.length = b.length → y = b
  inj : ∀ a b a' b', r.read a = .ok b → r.read a' = .ok b' → caddrOf h 3 b = caddrOf h 3 b' → b = b'
  boot : ∀ y, r.pack bc = some y → y.length = b0.length → y = b0
  idx : ∀ c y, c.ctype = 2 → r.pack c = some y → y.length = c.size

/-- The data of an address: the boot record, or a range of a segment. -/
def Datum (r : Repo) (b0 : Bytes) (a : Laddr) (x : Bytes) : Prop :=
  (a.lsid.ltype = LTYPE_BOOTREC ∧ x = b0) ∨ (a.lsid.ltype ≠ LTYPE_BOOTREC ∧ r.read a = .ok x)

def keyOf (h : Bytes → Bytes) (bc : Caddr) (a : Laddr) (x : Bytes) : Caddr :=
  if a.lsid.ltype = LTYPE_BOOTREC then bc else caddrOf h 3 x

structure ExInv (h : Bytes → Bytes) (r : Repo) (bc : Caddr) (b0 : Bytes) (x : Ex) : Prop where
  descs : ∀ d ∈ x.descs, ∃ b, Datum r b0 d.laddr b ∧ d.caddr = keyOf h bc d.laddr b ∧ Holds x.pack d.caddr b
  seg : ∀ a b y, r.read a = .ok b → x.pack (caddrOf h 3 b) = some y → y.length = b.length → y = b
  boot : ∀ y, x.pack bc = some y → y.length = b0.length → y = b0
  idx : ∀ c, c.ctype = 2 → x.pack c = r.pack c

/-- What one more address adds. -/
def put (h : Bytes → Bytes) (bc : Caddr) (a : Laddr) (b : Bytes) (x : Ex) : Ex :=
  ⟨⟨keyOf h bc a b, a⟩ :: x.descs, sendPack x.pack (keyOf h bc a b) b⟩

theorem sendPack_self {pk : Caddr → Option Bytes} {c : Caddr} {x y : Bytes}
    (h : ∀ y, pk c = some y → y.length = x.length → y = x) (hy : sendPack pk c x c = some y)
    (hl : y.length = x.length) : y = x := by
  obtain ⟨t, ht⟩ := send_holds pk c x h
  rw [ht] at hy
  cases hy
  have : t = [] := by
    rw [List.length_append] at hl
    exact List.length_eq_zero_iff.1 (by omega)
  rw [this, List.append_nil]

theorem put_inv {h : Bytes → Bytes} {r : Repo} {bc : Caddr} {b0 : Bytes} (hc : Clean h r bc b0) (hbc : bc.ctype = 1)
    {x : Ex} (hx : ExInv h r bc b0 x) {a : Laddr} {b : Bytes} (hd : Datum r b0 a b) :
    ExInv h r bc b0 (put h bc a b x) := by
  have hct : ∀ b, (caddrOf h 3 b).ctype = 3 := fun _ => rfl
  have h3 : ∀ b, caddrOf h 3 b ≠ bc := by
    intro b he
    have := hct b
    rw [he, hbc] at this
    cases this
  -- the file that is written to has the data, or not its length
  have hkey : ∀ y, x.pack (keyOf h bc a b) = some y → y.length = b.length → y = b := by
    intro y hy hl
    rcases hd with ⟨ht, rfl⟩ | ⟨ht, hr⟩
    · rw [keyOf, if_pos ht] at hy; exact hx.boot y hy hl
    · rw [keyOf, if_neg ht] at hy; exact hx.seg a b y hr hy hl
  have hk2 : (keyOf h bc a b).ctype ≠ 2 := by
    unfold keyOf
    by_cases ht : a.lsid.ltype = LTYPE_BOOTREC
    · rw [if_pos ht, hbc]; decide
    · rw [if_neg ht]; exact fun e => absurd ((hct b).symm.trans e) (by decide)
  refine ⟨?_, ?_, ?_, ?_⟩
  · intro d hdm
    rcases List.mem_cons.1 hdm with rfl | hdm
    · exact ⟨b, hd, rfl, send_holds _ _ _ hkey⟩
    · obtain ⟨b', hd', hk', hh'⟩ := hx.descs d hdm
      refine ⟨b', hd', hk', ?_⟩
      by_cases he : d.caddr = keyOf h bc a b
      · -- then the data are the same
        have hbb : b' = b := by
          rw [hk'] at he
          unfold keyOf at he
          rcases hd with ⟨ht, rfl⟩ | ⟨ht, hr⟩ <;> rcases hd' with ⟨ht', rfl⟩ | ⟨ht', hr'⟩
          · rfl
          · rw [if_neg ht', if_pos ht] at he; exact absurd he (h3 b')
          · rw [if_pos ht', if_neg ht] at he; exact absurd he.symm (h3 b)
          · rw [if_neg ht', if_neg ht] at he; exact hc.inj _ _ _ _ hr' hr he
        rw [hbb, he]
        exact send_holds _ _ _ hkey
      · show Holds (sendPack x.pack _ b) _ _
        unfold Holds
        rw [sendPack_other _ _ he]
        exact hh'
  · intro a' b' y hr' hy hl
    by_cases he : caddrOf h 3 b' = keyOf h bc a b
    · have hbb : b' = b := by
        unfold keyOf at he
        rcases hd with ⟨ht, rfl⟩ | ⟨ht, hr⟩
        · rw [if_pos ht] at he; exact absurd he (h3 b')
        · rw [if_neg ht] at he; exact hc.inj _ _ _ _ hr' hr he
      rw [he] at hy
      rw [hbb] at hl ⊢
      exact sendPack_self hkey hy hl
    · have hy' : sendPack x.pack (keyOf h bc a b) b (caddrOf h 3 b') = some y := hy
      rw [sendPack_other _ _ he] at hy'
      exact hx.seg a' b' y hr' hy' hl
  · intro y hy hl
    by_cases he : bc = keyOf h bc a b
    · have hbb : b0 = b := by
        unfold keyOf at he
        rcases hd with ⟨ht, rfl⟩ | ⟨ht, hr⟩
        · rfl
        · rw [if_neg ht] at he; exact absurd he.symm (h3 b)
      have hy' : sendPack x.pack (keyOf h bc a b) b bc = some y := hy
      rw [← he] at hy' hkey
      rw [hbb] at hl ⊢
      exact sendPack_self hkey hy' hl
    · have hy' : sendPack x.pack (keyOf h bc a b) b bc = some y := hy
      rw [sendPack_other _ _ he] at hy'
      exact hx.boot y hy' hl
  · intro c hc2
    have : c ≠ keyOf h bc a b := fun e => hk2 (e ▸ hc2)
    show sendPack x.pack (keyOf h bc a b) b c = _
    rw [sendPack_other _ _ this]
    exact hx.idx c hc2

theorem export_put {e : Env} {r : Repo} {bc : Caddr} {b0 : Bytes} (h0 : r.boot bc = some b0)
    (h1 : caddrOf e.h 1 b0 = bc) (h2 : e.recode b0 = some b0) {a : Laddr} {b : Bytes} (hd : Datum r b0 a b) (x : Ex) :
    exportAddr e.h e.recode bc r a x = (put e.h bc a b x, none) := by
  unfold exportAddr put keyOf
  rcases hd with ⟨ht, rfl⟩ | ⟨ht, hr⟩
  · rw [if_pos ht, if_pos ht]
    unfold exportBoot
    rw [h0]
    simp [h1, h2]
  · rw [if_neg ht, if_neg ht]
    unfold exportSeg
    rw [hr]

theorem run_inv {e : Env} {r : Repo} {bc : Caddr} {b0 : Bytes} (hc : Clean e.h r bc b0) (h0 : r.boot bc = some b0)
    (h1 : caddrOf e.h 1 b0 = bc) (h2 : e.recode b0 = some b0) (L : List Laddr) :
    ∀ x, (∀ a ∈ L, ∃ b, Datum r b0 a b) → ExInv e.h r bc b0 x →
      ExInv e.h r bc b0 (run (exportAddr e.h e.recode bc r) L x) ∧
      (run (exportAddr e.h e.recode bc r) L x).descs.map Desc.laddr = L.reverse ++ x.descs.map Desc.laddr := by
  have hbc : bc.ctype = 1 := by rw [← h1]; rfl
  induction L with
  | nil => intro x _ hx; exact ⟨hx, by simp [run]⟩
  | cons a L ih =>
    intro x hL hx
    obtain ⟨b, hb⟩ := hL a (List.mem_cons_self ..)
    have e1 := export_put h0 h1 h2 hb x
    have := ih (put e.h bc a b x) (fun k hk => hL k (List.mem_cons_of_mem _ hk)) (put_inv hc hbc hx hb)
    have er : run (exportAddr e.h e.recode bc r) (a :: L) x = run (exportAddr e.h e.recode bc r) L (put e.h bc a b x) := by
      unfold run
      rw [List.foldl_cons, e1]
    rw [er]
    refine ⟨this.1, ?_⟩
    rw [this.2]
    simp [put]

/-! ### Import -/

theorem grown_ge (size pos len : Nat) : size ≤ grown size pos len ∧ pos + len ≤ grown size pos len := by
  unfold grown
  by_cases h : size ≥ max (pos + len) ((pos / 65536 + 1) * 65536)
  · rw [if_pos h]; omega
  · rw [if_neg h]; omega

/-- The bytes of a range are those of the source. -/
def Copied (s r : Repo) (a : Laddr) : Prop :=
  ∃ g gs, r.seg a.lsid = some g ∧ s.seg a.lsid = some gs ∧ a.pos + a.len ≤ g.size ∧
    ∀ p : Nat, a.pos ≤ p → (p : Int) < a.pos + a.len → g.dat p = gs.dat p

theorem getD_range {n : Nat} {f : Nat → Nat} {i : Nat} (h : i < n) : ((List.range n).map f).getD i 0 = f i := by
  simp [List.getD, h]

theorem save_copied {s r r' : Repo} {a : Laddr} {x : Bytes} (hs : s.read a = .ok x) (hr : r.save a x = .ok r') :
    Copied s r' a ∧ (∀ k, Copied s r k → Copied s r' k) ∧ (∀ l, l ≠ a.lsid → r'.seg l = r.seg l) ∧
      r'.boot = r.boot ∧ r'.pack = r.pack := by
  obtain ⟨gs, g1, g2, g3, rfl⟩ := read_ok.1 hs
  have hlen : ((List.range a.len).map fun i => gs.dat (a.pos.toNat + i)).length = a.len := by simp
  generalize hx : ((List.range a.len).map fun i => gs.dat (a.pos.toNat + i)) = x at hr hlen
  have hat : ∀ i, i < a.len → x.getD i 0 = gs.dat (a.pos.toNat + i) := by
    intro i hi; rw [← hx]; exact getD_range hi
  unfold Repo.save at hr
  by_cases hcc : a.pos < 0 ∨ (a.lsid.lsize : Int) + 65536 < a.pos + a.len
  · rw [if_pos hcc] at hr; cases hr
  · rw [if_neg hcc] at hr
    cases hr
    refine ⟨?_, ?_, ?_, rfl, rfl⟩
    · refine ⟨_, gs, by simp only [if_pos]; rfl, g1, ?_, ?_⟩
      · have := (grown_ge ((r.seg a.lsid).getD ⟨0, fun _ => 0⟩).size a.pos.toNat x.length).2
        show a.pos + a.len ≤ ((grown _ a.pos.toNat x.length : Nat) : Int)
        rw [hlen] at this ⊢
        omega
      · intro p hp1 hp2
        show (if a.pos.toNat ≤ p ∧ p < a.pos.toNat + x.length then x.getD (p - a.pos.toNat) 0 else _) = _
        rw [if_pos (by rw [hlen]; omega), hat _ (by omega)]
        congr 1
        omega
    · rintro k ⟨g, gs', k1, k2, k3, k4⟩
      by_cases hl : k.lsid = a.lsid
      · have : gs' = gs := by rw [hl, g1] at k2; cases k2; rfl
        subst this
        have hrs : r.seg a.lsid = some g := by rw [← hl]; exact k1
        refine ⟨g.write a.pos.toNat x, gs', ?_, k2, ?_, ?_⟩
        · simp only [hl, if_true, hrs, Option.getD_some]
        · have := (grown_ge g.size a.pos.toNat x.length).1
          show k.pos + k.len ≤ ((grown g.size a.pos.toNat x.length : Nat) : Int)
          omega
        · intro p hp1 hp2
          show (if a.pos.toNat ≤ p ∧ p < a.pos.toNat + x.length then x.getD (p - a.pos.toNat) 0
            else if p < g.size then g.dat p else 0) = _
          by_cases hc : a.pos.toNat ≤ p ∧ p < a.pos.toNat + x.length
          · rw [if_pos hc, hat _ (by omega)]
            congr 1
            omega
          · rw [if_neg hc, if_pos (by omega)]
            exact k4 p hp1 hp2
      · exact ⟨g, gs', by simp only [if_neg hl]; exact k1, k2, k3, k4⟩
    · intro l hl
      simp only [if_neg hl]

theorem copied_read {s r : Repo} {a k : Laddr} (h : Copied s r a) (hk : Ok s k) (hi : In k a) :
    r.read k = s.read k := by
  obtain ⟨g, gs, h1, h2, h3, h4⟩ := h
  obtain ⟨b, hb⟩ := hk.read
  rw [hb]
  obtain ⟨gs', q1, q2, q3, q4⟩ := read_ok.1 hb
  obtain ⟨i1, i2, i3⟩ := hi
  rw [i1, h2] at q1
  cases q1
  refine read_ok.2 ⟨g, by rw [i1]; exact h1, q2, by omega, ?_⟩
  rw [q4]
  apply List.map_congr_left
  intro i hi
  rw [List.mem_range] at hi
  exact (h4 _ (by omega) (by omega)).symm

/-- Importing descriptors whose pack files hold the data of the source. -/
theorem importAll_spec {e : Env} {s : Repo} {bc : Caddr} {b0 : Bytes} (h1 : caddrOf e.h 1 b0 = bc)
    (h2 : e.recode b0 = some b0) (h3 : b0.length = 1024) (ds : List Desc) :
    ∀ r : Repo, (∀ d ∈ ds, ∃ b, Datum s b0 d.laddr b ∧ d.caddr = keyOf e.h bc d.laddr b ∧ Holds r.pack d.caddr b) →
      (∀ d ∈ ds, d.laddr.lsid.ltype ≠ LTYPE_BOOTREC → Ok s d.laddr) →
      ∃ r', importAll e.h e.recode ds r = (r', none) ∧ r'.pack = r.pack ∧
        (∀ k, Copied s r k → Copied s r' k) ∧
        (∀ d ∈ ds, d.laddr.lsid.ltype ≠ LTYPE_BOOTREC → Copied s r' d.laddr) ∧
        (∀ c, c ≠ bc → r'.boot c = r.boot c) ∧ (r.boot bc = some b0 → r'.boot bc = some b0) ∧
        ((∃ d ∈ ds, d.laddr.lsid.ltype = LTYPE_BOOTREC) → r'.boot bc = some b0) ∧
        (∀ l, (∀ d ∈ ds, d.laddr.lsid ≠ l) → r'.seg l = r.seg l) := by
  induction ds with
  | nil =>
    intro r _ _
    exact ⟨r, rfl, rfl, fun _ h => h, fun d hd => (nomatch hd), fun _ _ => rfl, fun h => h,
      fun ⟨d, hd, _⟩ => (nomatch hd), fun _ _ => rfl⟩
  | cons d ds ih =>
    intro r hd hok
    obtain ⟨b, hb, hk, hh⟩ := hd d (List.mem_cons_self ..)
    rcases hb with ⟨ht, rfl⟩ | ⟨ht, hr⟩
    · rw [keyOf, if_pos ht] at hk
      have hl : loadPack r.pack d.caddr 1024 = .ok b := by rw [← h3]; exact load_holds hh
      have e1 : importDesc e.h e.recode d r =
          ({ r with boot := fun c => if c = bc then some b else r.boot c }, none) := by
        unfold importDesc importBoot
        rw [if_pos ht, hl]
        simp only [h2, h1, hk, if_true]
      obtain ⟨r', i0, i1, i2, i3, i4, i5, i6, i7⟩ := ih { r with boot := fun c => if c = bc then some b else r.boot c }
        (fun q hq => hd q (List.mem_cons_of_mem _ hq)) (fun q hq => hok q (List.mem_cons_of_mem _ hq))
      have hboot : r'.boot bc = some b := i5 (by simp)
      refine ⟨r', by rw [importAll, e1]; exact i0, i1, i2, ?_, ?_, fun _ => hboot, fun _ => hboot, ?_⟩
      · intro q hq hqt
        rcases List.mem_cons.1 hq with rfl | hq
        · exact absurd ht hqt
        · exact i3 q hq hqt
      · intro c hc
        rw [i4 c hc]
        simp [hc]
      · intro l hl
        exact i7 l (fun q hq => hl q (List.mem_cons_of_mem _ hq))
    · rw [keyOf, if_neg ht] at hk
      have hl : loadPack r.pack d.caddr d.laddr.len = .ok b := by rw [← read_length hr]; exact load_holds hh
      have ho := hok d (List.mem_cons_self ..) ht
      have hv := ho.valid
      have h0 := ho.fits.pos0
      obtain ⟨r1, hr1⟩ : ∃ r1, r.save d.laddr b = .ok r1 := by
        unfold Repo.save
        rw [if_neg (by omega)]
        exact ⟨_, rfl⟩
      have e1 : importDesc e.h e.recode d r = (r1, none) := by
        unfold importDesc importSeg
        rw [if_neg ht, hl]
        simp only [hr1]
      obtain ⟨c1, c2, c3, c4, c5⟩ := save_copied hr hr1
      obtain ⟨r', i0, i1, i2, i3, i4, i5, i6, i7⟩ := ih r1
        (fun q hq => by rw [c5]; exact hd q (List.mem_cons_of_mem _ hq)) (fun q hq => hok q (List.mem_cons_of_mem _ hq))
      refine ⟨r', by rw [importAll, e1]; exact i0, i1.trans c5, fun k hk => i2 k (c2 k hk), ?_,
        fun c hc => by rw [i4 c hc, c4], fun hb => i5 (by rw [c4]; exact hb), ?_, ?_⟩
      · intro q hq hqt
        rcases List.mem_cons.1 hq with rfl | hq
        · exact i2 _ c1
        · exact i3 q hq hqt
      · rintro ⟨q, hq, hqt⟩
        rcases List.mem_cons.1 hq with rfl | hq
        · exact absurd hqt ht
        · exact i6 ⟨q, hq, hqt⟩
      · intro l hl
        rw [i7 l (fun q hq => hl q (List.mem_cons_of_mem _ hq))]
        exact c3 l (fun e => hl d (List.mem_cons_self ..) e.symm)

/-! ### Round trip -/

/-- A file-system that is stored completely, in a repository whose pack files are sound. -/
structure Whole (e : Env) (s : Repo) (bc : Caddr) (b0 : Bytes) (sb br : Laddr) : Prop where
  tree : Tree e.slots s 6 sb
  boot : s.boot bc = some b0
  bootKey : caddrOf e.h 1 b0 = bc
  bootRec : e.recode b0 = some b0
  bootLen : b0.length = 1024
  brType : br.lsid.ltype = LTYPE_BOOTREC
  brFits : br.Fits
  clean : Clean e.h s bc b0
  /-- The limit on the size of the index: lib/pack.c:261-267. -/
  count : ∀ b, s.read sb = .ok b → (ranges e.slots s sb b).length < 1048572
  hash : ∀ x, IsBytes 32 (e.h x)
  csum : ∀ x, e.xs x < 18446744073709551616

/-- What the export gives: descriptors of the boot record and of all ranges, in reverse, each with its pack file; and an index
that is read back. -/
theorem pack_spec {e : Env} {s : Repo} {bc : Caddr} {b0 : Bytes} {sb br : Laddr} (hw : Whole e s bc b0 sb br)
    {b : Bytes} (hb : s.read sb = .ok b) :
    ∃ X : Ex, fsPack e bc sb br s = ({ s with
        pack := savePack X.pack (caddrOf e.h 2 (encode e.xs X.descs)) (encode e.xs X.descs) },
        some (caddrOf e.h 2 (encode e.xs X.descs))) ∧
      X.descs.map Desc.laddr = br :: (ranges e.slots s sb b).reverse ∧
      (∀ q ∈ X.descs, ∃ x, Datum s b0 q.laddr x ∧ q.caddr = keyOf e.h bc q.laddr x ∧
        Holds (savePack X.pack (caddrOf e.h 2 (encode e.xs X.descs)) (encode e.xs X.descs)) q.caddr x) ∧
      ∀ d : Repo, d.pack (caddrOf e.h 2 (encode e.xs X.descs)) =
          savePack X.pack (caddrOf e.h 2 (encode e.xs X.descs)) (encode e.xs X.descs)
            (caddrOf e.h 2 (encode e.xs X.descs)) →
        fsUnpack e (caddrOf e.h 2 (encode e.xs X.descs)) d =
          match importAll e.h e.recode X.descs d with
          | (r', some _) => .fail r'
          | (r', none) => .done r' bc := by
  have hbc : bc.ctype = 1 := by rw [← hw.bootKey]; rfl
  have hok := ranges_ok hw.tree hb
  have hdat : ∀ a ∈ ranges e.slots s sb b ++ [br], ∃ x, Datum s b0 a x := by
    intro a ha
    rcases List.mem_append.1 ha with ha | ha
    · obtain ⟨x, hx⟩ := (hok a ha).read
      exact ⟨x, Or.inr ⟨(hok a ha).ltype, hx⟩⟩
    · rw [List.mem_singleton] at ha
      exact ⟨b0, Or.inl ⟨by rw [ha]; exact hw.brType, rfl⟩⟩
  have hal : Always (exportAddr e.h e.recode bc s) (ranges e.slots s sb b ++ [br]) := by
    intro a ha x
    obtain ⟨y, hy⟩ := hdat a ha
    rw [export_put hw.boot hw.bootKey hw.bootRec hy]
  have hins := inspect_run (br := br) hw.tree hb hal ⟨[], s.pack⟩
  obtain ⟨hinv, hlad⟩ := run_inv hw.clean hw.boot hw.bootKey hw.bootRec (ranges e.slots s sb b ++ [br]) ⟨[], s.pack⟩ hdat
    ⟨fun d hd => (nomatch hd), hw.clean.seg, hw.clean.boot, fun _ _ => rfl⟩
  generalize hX : run (exportAddr e.h e.recode bc s) (ranges e.slots s sb b ++ [br]) ⟨[], s.pack⟩ = X at hins hinv hlad
  rw [List.map_nil, List.append_nil, List.reverse_append, List.reverse_singleton, List.singleton_append] at hlad
  have hmem : ∀ d ∈ X.descs, d.laddr = br ∨ d.laddr ∈ ranges e.slots s sb b := by
    intro d hd
    have := List.mem_map_of_mem (f := Desc.laddr) hd
    rw [hlad] at this
    rcases List.mem_cons.1 this with h | h
    · exact Or.inl h
    · exact Or.inr (List.mem_reverse.1 h)
  have hlen : X.descs.length = (ranges e.slots s sb b).length + 1 := by
    have := congrArg List.length hlad
    simpa using this
  have hcnt := hw.count b hb
  have hsz : sizeOk (indexSize X.descs.length) = true := by
    unfold sizeOk indexSize
    simp only [Bool.and_eq_true, decide_eq_true_eq]
    omega
  have hfit : ∀ d ∈ X.descs, d.Fits := by
    intro d hd
    obtain ⟨x, hx, hk, _⟩ := hinv.descs d hd
    have hlt : x.length % 4294967296 < 4294967296 := by omega
    refine ⟨?_, ?_⟩
    · rw [hk]
      unfold keyOf
      by_cases ht : d.laddr.lsid.ltype = LTYPE_BOOTREC
      · rw [if_pos ht, ← hw.bootKey]
        exact ⟨hw.hash _, by show b0.length % 4294967296 < 4294967296; omega, by show (1 : Nat) < _; decide⟩
      · rw [if_neg ht]
        exact ⟨hw.hash _, hlt, by show (3 : Nat) < _; decide⟩
    · rcases hmem d hd with h | h
      · rw [h]; exact hw.brFits
      · exact (hok _ h).fits
  have hel := encode_length e.xs hfit
  have hdec := C45_index_roundtrip e.h e.xs hw.csum X.descs hfit hsz
  refine ⟨X, by
    unfold fsPack
    rw [hb]
    simp only [hins]
    rw [if_neg (by rw [hsz]; decide)], hlad, ?_, ?_⟩
  · intro q hq
    obtain ⟨x, h1, h2, h3⟩ := hinv.descs q hq
    refine ⟨x, h1, h2, ?_⟩
    unfold Holds
    rw [savePack_other]
    · exact h3
    · intro he
      have h4 : q.caddr.ctype = 2 := by rw [he]; rfl
      rw [h2] at h4
      unfold keyOf at h4
      by_cases ht : q.laddr.lsid.ltype = LTYPE_BOOTREC
      · rw [if_pos ht, hbc] at h4; cases h4
      · rw [if_neg ht] at h4; cases h4
  intro d hd
  -- the index is read back
  have hidx : d.pack (caddrOf e.h 2 (encode e.xs X.descs)) = some (encode e.xs X.descs) := by
    rw [hd, savePack_self, hinv.idx _ rfl]
    cases hp : s.pack (caddrOf e.h 2 (encode e.xs X.descs)) with
    | none => simp
    | some y =>
      have := hw.clean.idx _ y rfl hp
      have hle : y.length ≤ (encode e.xs X.descs).length := by
        rw [this]
        show (encode e.xs X.descs).length % 4294967296 ≤ _
        omega
      rw [Option.getD_some, List.drop_eq_nil_of_le hle, List.append_nil]
  -- exactly one boot record
  obtain ⟨d0, D, hD, hd0⟩ : ∃ d0 D, X.descs = d0 :: D ∧ d0.laddr = br := by
    cases hxd : X.descs with
    | nil => rw [hxd] at hlen; simp at hlen
    | cons d0 D =>
      rw [hxd, List.map_cons] at hlad
      injection hlad with h1 h2
      exact ⟨d0, D, rfl, h1⟩
  have hDt : D.map Desc.laddr = (ranges e.slots s sb b).reverse := by
    rw [hD, List.map_cons] at hlad
    injection hlad
  have hfil : X.descs.filter (fun d => d.laddr.lsid.ltype = LTYPE_BOOTREC) = [d0] := by
    rw [hD, List.filter_cons_of_pos (by rw [hd0]; simp [hw.brType]), List.filter_eq_nil_iff.2]
    intro q hq
    have : q.laddr ∈ (ranges e.slots s sb b).reverse := by rw [← hDt]; exact List.mem_map_of_mem hq
    have := (hok _ (List.mem_reverse.1 this)).ltype
    simpa using this
  have hk0 : d0.caddr = bc := by
    obtain ⟨x, h1, h2, _⟩ := hinv.descs d0 (by rw [hD]; exact List.mem_cons_self ..)
    rw [h2, keyOf, if_pos (by rw [hd0]; exact hw.brType)]
  unfold fsUnpack
  rw [hidx]
  simp only [hdec, hfil, hk0]
  rcases importAll e.h e.recode X.descs d with ⟨r', _ | _⟩ <;> rfl

/-- The export gives an archive.  Importing it into any repository which has these pack files, whatever else it has, succeeds
with the boot record, and there everything in the file-system reads as it did in the source; boot records and segments that
are not of this file-system are left as they were. -/
theorem C45_roundtrip {e : Env} {s : Repo} {bc : Caddr} {b0 : Bytes} {sb br : Laddr} (hw : Whole e s bc b0 sb br) :
    ∃ P c, fsPack e bc sb br s = ({ s with pack := P }, some c) ∧ ∀ d : Repo, d.pack = P →
      ∃ d', fsUnpack e c d = .done d' bc ∧ d'.boot bc = some b0 ∧ d'.pack = P ∧
        (∀ p, at' e.slots d' 6 sb p = at' e.slots s 6 sb p) ∧
        (∀ c, c ≠ bc → d'.boot c = d.boot c) ∧
        (∀ l, l.ltype ≠ LTYPE_BOOTREC → s.seg l = none → d'.seg l = d.seg l) := by
  obtain ⟨b, hb⟩ := hw.tree.ok.read
  obtain ⟨X, hf, hlad, hdesc, hun⟩ := pack_spec hw hb
  have hok := ranges_ok hw.tree hb
  have hmem : ∀ d ∈ X.descs, d.laddr = br ∨ d.laddr ∈ ranges e.slots s sb b := by
    intro d hd
    have := List.mem_map_of_mem (f := Desc.laddr) hd
    rw [hlad] at this
    rcases List.mem_cons.1 this with h | h
    · exact Or.inl h
    · exact Or.inr (List.mem_reverse.1 h)
  refine ⟨_, _, hf, ?_⟩
  intro d hd
  obtain ⟨d', i0, i1, _, i3, i4, _, i6, i7⟩ := importAll_spec (e := e) (s := s) hw.bootKey hw.bootRec hw.bootLen X.descs d (by rw [hd]; exact hdesc)
    (fun q hq ht => by
      rcases hmem q hq with h | h
      · rw [h] at ht; exact absurd hw.brType ht
      · exact hok _ h)
  obtain ⟨d0, hd0, hl0⟩ : ∃ d0 ∈ X.descs, d0.laddr = br := by
    have : br ∈ X.descs.map Desc.laddr := by rw [hlad]; exact List.mem_cons_self ..
    obtain ⟨q, h1, h2⟩ := List.mem_map.1 this
    exact ⟨q, h1, h2⟩
  refine ⟨d', by rw [hun d (by rw [hd]), i0], i6 ⟨d0, hd0, by rw [hl0]; exact hw.brType⟩, i1.trans hd, ?_, i4, ?_⟩
  · intro p
    refine tree_same hw.tree hb (fun k hk hc => ?_) p
    obtain ⟨a, ha, hi⟩ := hc
    obtain ⟨q, hq, rfl⟩ : ∃ q ∈ X.descs, q.laddr = a := by
      have : a ∈ X.descs.map Desc.laddr := by rw [hlad]; exact List.mem_cons_of_mem _ (List.mem_reverse.2 ha)
      obtain ⟨q, h1, h2⟩ := List.mem_map.1 this
      exact ⟨q, h1, h2⟩
    exact copied_read (i3 q hq (hok _ ha).ltype) hk hi
  · intro l hl hs
    refine i7 l (fun q hq he => ?_)
    rcases hmem q hq with h | h
    · rw [h] at he
      rw [← he] at hl
      exact hl hw.brType
    · obtain ⟨x, hx⟩ := (hok _ h).read
      obtain ⟨g, g1, _⟩ := read_ok.1 hx
      rw [he, hs] at g1
      cases g1

end Silofs.Pack
