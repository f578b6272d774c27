import Verif.Props.PackRound
/-
C45: where archives do not keep what they should.
-/
set_option linter.unusedSimpArgs false
set_option linter.unusedVariables false
namespace Silofs.Pack
open Silofs Silofs.Addr

theorem importAll_append (h : Bytes → Bytes) (recode : Bytes → Option Bytes) (l l' : List Desc) :
    ∀ r r', importAll h recode l r = (r', none) → importAll h recode (l ++ l') r = importAll h recode l' r' := by
  induction l with
  | nil => intro r r' h; cases h; rfl
  | cons d l ih =>
    intro r r' hr
    rw [importAll] at hr
    rw [List.cons_append, importAll]
    cases hi : importDesc h recode d r with
    | mk r1 o =>
      rw [hi] at hr
      cases o with
      | none => exact ih r1 r' hr
      | some x => cases hr

/-- The import takes whatever the pack files have, as long as that is long enough. -/
theorem importAll_any {e : Env} {bc : Caddr} {b0 : Bytes} (h1 : caddrOf e.h 1 b0 = bc)
    (h2 : e.recode b0 = some b0) (h3 : b0.length = 1024) (ds : List Desc) :
    ∀ r : Repo, (∀ d ∈ ds, d.laddr.lsid.ltype = LTYPE_BOOTREC → d.caddr = bc ∧ Holds r.pack bc b0) →
      (∀ d ∈ ds, d.laddr.lsid.ltype ≠ LTYPE_BOOTREC → 0 ≤ d.laddr.pos ∧ d.laddr.pos + d.laddr.len ≤ d.laddr.lsid.lsize ∧
        ∃ y, r.pack d.caddr = some y ∧ d.laddr.len ≤ y.length) →
      ∃ r', importAll e.h e.recode ds r = (r', none) ∧ r'.pack = r.pack := by
  induction ds with
  | nil => intro r _ _; exact ⟨r, rfl, rfl⟩
  | cons d ds ih =>
    intro r hb hs
    by_cases ht : d.laddr.lsid.ltype = LTYPE_BOOTREC
    · obtain ⟨hk, hh⟩ := hb d (List.mem_cons_self ..) ht
      have hl : loadPack r.pack d.caddr 1024 = .ok b0 := by rw [← h3, hk]; exact load_holds hh
      have e1 : importDesc e.h e.recode d r =
          ({ r with boot := fun c => if c = bc then some b0 else r.boot c }, none) := by
        unfold importDesc importBoot
        rw [if_pos ht, hl]
        simp only [h2, h1, hk, if_true]
      obtain ⟨r', i1, i2⟩ := ih { r with boot := fun c => if c = bc then some b0 else r.boot c }
        (fun q hq => hb q (List.mem_cons_of_mem _ hq)) (fun q hq => hs q (List.mem_cons_of_mem _ hq))
      exact ⟨r', by rw [importAll, e1]; exact i1, i2⟩
    · obtain ⟨p0, p1, y, hy, hyl⟩ := hs d (List.mem_cons_self ..) ht
      have hl : loadPack r.pack d.caddr d.laddr.len = .ok (y.take d.laddr.len) := by
        unfold loadPack
        rw [hy]
        simp only
        rw [if_neg (by omega)]
      obtain ⟨r1, hr1, hp1⟩ : ∃ r1, r.save d.laddr (y.take d.laddr.len) = .ok r1 ∧ r1.pack = r.pack := by
        unfold Repo.save
        rw [if_neg (by omega)]
        exact ⟨_, rfl, rfl⟩
      have e1 : importDesc e.h e.recode d r = (r1, none) := by
        unfold importDesc importSeg
        rw [if_neg ht, hl]
        simp only [hr1]
      obtain ⟨r', i1, i2⟩ := ih r1 (fun q hq => by rw [hp1]; exact hb q (List.mem_cons_of_mem _ hq))
        (fun q hq => by rw [hp1]; exact hs q (List.mem_cons_of_mem _ hq))
      exact ⟨r', by rw [importAll, e1]; exact i1, i2.trans hp1⟩

theorem save_read {r r' : Repo} {a : Laddr} {x : Bytes} (hl : x.length = a.len) (h : r.save a x = .ok r') :
    r'.read a = .ok x := by
  unfold Repo.save at h
  by_cases hc : a.pos < 0 ∨ (a.lsid.lsize : Int) + 65536 < a.pos + a.len
  · rw [if_pos hc] at h; cases h
  · rw [if_neg hc] at h
    cases h
    refine read_ok.2 ⟨((r.seg a.lsid).getD ⟨0, fun _ => 0⟩).write a.pos.toNat x, by simp only [if_true], by omega, ?_, ?_⟩
    · have := (grown_ge ((r.seg a.lsid).getD ⟨0, fun _ => 0⟩).size a.pos.toNat x.length).2
      show a.pos + a.len ≤ ((grown _ a.pos.toNat x.length : Nat) : Int)
      omega
    · apply List.ext_getElem (by simp [hl])
      intro i h1 h2
      simp only [List.getElem_map, List.getElem_range, Seg.write]
      rw [if_pos (by omega), Nat.add_sub_cancel_left, List.getD_eq_getElem?_getD, List.getElem?_eq_getElem h1]
      rfl

/-- The data in an archive are not checked: for every file-system, there is a range such that an archive in which the pack file
of that range has any other bytes, as many, is restored without an error, and with these bytes. -/
theorem C45_tampered_violated {e : Env} {s : Repo} {bc : Caddr} {b0 : Bytes} {sb br : Laddr} (hw : Whole e s bc b0 sb br) :
    ∃ P c a x, fsPack e bc sb br s = ({ s with pack := P }, some c) ∧ Ok s a ∧ s.read a = .ok x ∧
      ∀ y : Bytes, y.length = x.length → ∀ d : Repo,
        (∀ k, d.pack k = if k = caddrOf e.h 3 x then some y else P k) →
        ∃ d', fsUnpack e c d = .done d' bc ∧ d'.read a = .ok y := by
  obtain ⟨b, hb⟩ := hw.tree.ok.read
  obtain ⟨X, hf, hlad, hdesc, hun⟩ := pack_spec hw hb
  have hok := ranges_ok hw.tree hb
  have hbc : bc.ctype = 1 := by rw [← hw.bootKey]; rfl
  obtain ⟨a, L, hL⟩ : ∃ a L, ranges e.slots s sb b = a :: L := by
    cases hr : ranges e.slots s sb b with
    | nil =>
      have : sb ∈ ranges e.slots s sb b := by simp [ranges]
      rw [hr] at this
      cases this
    | cons a L => exact ⟨a, L, rfl⟩
  rw [hL, List.reverse_cons] at hlad
  obtain ⟨D, q, hD, hq⟩ : ∃ D q, X.descs = D ++ [q] ∧ q.laddr = a := by
    have hne : X.descs ≠ [] := by intro h; rw [h] at hlad; cases hlad
    refine ⟨X.descs.dropLast, X.descs.getLast hne, (List.dropLast_concat_getLast hne).symm, ?_⟩
    have e1 : (X.descs.map Desc.laddr).getLast? = some a := by
      rw [hlad, ← List.cons_append, List.getLast?_append]; simp
    rw [List.getLast?_map, List.getLast?_eq_some_getLast hne] at e1
    simpa using e1
  have hoa := hok a (by rw [hL]; exact List.mem_cons_self ..)
  have hqd := hdesc q (by rw [hD]; simp)
  obtain ⟨x, hx, hqk, _⟩ := hqd
  have hqt : q.laddr.lsid.ltype ≠ LTYPE_BOOTREC := by rw [hq]; exact hoa.ltype
  have hxr : s.read a = .ok x := by
    rcases hx with ⟨ht, _⟩ | ⟨_, hr⟩
    · exact absurd ht hqt
    · rw [← hq]; exact hr
  rw [keyOf, if_neg hqt] at hqk
  refine ⟨_, _, a, x, hf, hoa, hxr, ?_⟩
  intro y hy d hd
  have hne2 : caddrOf e.h 2 (encode e.xs X.descs) ≠ caddrOf e.h 3 x := fun h => by
    have := congrArg Caddr.ctype h
    cases this
  have hnbc : bc ≠ caddrOf e.h 3 x := fun h => by
    rw [h] at hbc
    cases hbc
  have hmem : ∀ d ∈ X.descs, d.laddr = br ∨ d.laddr ∈ ranges e.slots s sb b := by
    intro d hd
    have := List.mem_map_of_mem (f := Desc.laddr) hd
    rw [hlad] at this
    rcases List.mem_cons.1 this with h | h
    · exact Or.inl h
    · refine Or.inr ?_
      rw [hL]
      rcases List.mem_append.1 h with h | h
      · exact List.mem_cons_of_mem _ (List.mem_reverse.1 h)
      · rw [List.mem_singleton] at h; rw [h]; exact List.mem_cons_self ..
  have hlong : ∀ k ∈ X.descs, ∃ z, d.pack k.caddr = some z ∧
      (k.laddr.lsid.ltype ≠ LTYPE_BOOTREC → k.laddr.len ≤ z.length) := by
    intro k hk
    obtain ⟨z, hz, hkk, t, ht⟩ := hdesc k hk
    rw [hd]
    by_cases he : k.caddr = caddrOf e.h 3 x
    · rw [if_pos he]
      refine ⟨y, rfl, fun hkt => ?_⟩
      rcases hz with ⟨h, _⟩ | ⟨_, hr⟩
      · exact absurd h hkt
      · rw [keyOf, if_neg hkt] at hkk
        have : z = x := hw.clean.inj _ _ _ _ hr hxr (hkk ▸ he)
        rw [hy, ← this, read_length hr]
        exact Nat.le_refl _
    · rw [if_neg he]
      refine ⟨_, ht, fun hkt => ?_⟩
      rcases hz with ⟨h, _⟩ | ⟨_, hr⟩
      · exact absurd h hkt
      · rw [List.length_append, read_length hr]; omega
  have hboot : ∀ k ∈ X.descs, k.laddr.lsid.ltype = LTYPE_BOOTREC → k.caddr = bc ∧ Holds d.pack bc b0 := by
    intro k hk hkt
    obtain ⟨z, hz, hkk, ht⟩ := hdesc k hk
    rcases hz with ⟨_, rfl⟩ | ⟨h, _⟩
    · rw [keyOf, if_pos hkt] at hkk
      refine ⟨hkk, ?_⟩
      unfold Holds
      rw [hd, if_neg hnbc, ← hkk]
      exact ht
    · exact absurd hkt h
  have hseg : ∀ k ∈ X.descs, k.laddr.lsid.ltype ≠ LTYPE_BOOTREC → 0 ≤ k.laddr.pos ∧
      k.laddr.pos + k.laddr.len ≤ k.laddr.lsid.lsize ∧ ∃ y, d.pack k.caddr = some y ∧ k.laddr.len ≤ y.length := by
    intro k hk hkt
    obtain ⟨z, hz, hzl⟩ := hlong k hk
    rcases hmem k hk with h | h
    · rw [h] at hkt; exact absurd hw.brType hkt
    · exact ⟨(hok _ h).fits.pos0, (hok _ h).valid, z, hz, hzl hkt⟩
  have hDX : ∀ k ∈ D, k ∈ X.descs := fun k hk => by rw [hD]; exact List.mem_append_left _ hk
  obtain ⟨r1, i1, i2⟩ := importAll_any hw.bootKey hw.bootRec hw.bootLen D d (fun k hk => hboot k (hDX k hk))
    (fun k hk => hseg k (hDX k hk))
  have hal : a.len = y.length := by rw [hy, read_length hxr]
  obtain ⟨d', hd'⟩ : ∃ d', r1.save a y = .ok d' := by
    have := hoa.valid
    have := hoa.fits.pos0
    unfold Repo.save
    rw [if_neg (by omega)]
    exact ⟨_, rfl⟩
  have hlast : importDesc e.h e.recode q r1 = (d', none) := by
    unfold importDesc importSeg loadPack
    rw [if_neg hqt, i2, hd, if_pos hqk]
    simp only
    rw [if_neg (by rw [hq]; omega), hq, hal, List.take_length]
    simp only [hd']
  refine ⟨d', ?_, save_read hal.symm hd'⟩
  rw [hun d (by rw [hd, if_neg hne2])]
  have : importAll e.h e.recode X.descs d = (d', none) := by
    rw [hD, importAll_append _ _ _ _ _ _ i1, importAll, hlast]
    rfl
  rw [this]

/-- Restoring an archive without any data fails, but leaves the boot record of the file-system. -/
theorem C45_order_violated {e : Env} {s : Repo} {bc : Caddr} {b0 : Bytes} {sb br : Laddr} (hw : Whole e s bc b0 sb br) :
    ∃ P c, fsPack e bc sb br s = ({ s with pack := P }, some c) ∧ ∀ d : Repo, d.pack bc = P bc → d.pack c = P c →
      (∀ k, k.ctype = 3 → d.pack k = none) →
      ∃ d', fsUnpack e c d = .fail d' ∧ d'.boot bc = some b0 ∧ d'.seg = d.seg := by
  obtain ⟨b, hb⟩ := hw.tree.ok.read
  obtain ⟨X, hf, hlad, hdesc, hun⟩ := pack_spec hw hb
  have hok := ranges_ok hw.tree hb
  refine ⟨_, _, hf, ?_⟩
  intro d h1 h2 h3
  generalize hc : caddrOf e.h 2 (encode e.xs X.descs) = c at h1 h2 hun hdesc ⊢
  obtain ⟨L, a, hL⟩ : ∃ L a, ranges e.slots s sb b = L ++ [a] := ⟨_, sb, by unfold ranges; rw [← List.append_assoc]⟩
  rw [hL, List.reverse_append, List.reverse_singleton] at hlad
  have hoa := hok a (by rw [hL]; simp)
  cases hxd : X.descs with
  | nil => rw [hxd] at hlad; cases hlad
  | cons q0 D =>
    cases D with
    | nil => rw [hxd] at hlad; cases hlad
    | cons q1 D =>
      have hq0 : q0.laddr = br := by rw [hxd] at hlad; injection hlad
      have hq1 : q1.laddr = a := by
        rw [hxd] at hlad
        injection hlad with _ h
        injection h
      obtain ⟨x0, hx0, hk0, hh0⟩ := hdesc q0 (by rw [hxd]; simp)
      obtain ⟨x1, hx1, hk1, _⟩ := hdesc q1 (by rw [hxd]; simp)
      have ht0 : q0.laddr.lsid.ltype = LTYPE_BOOTREC := by rw [hq0]; exact hw.brType
      have ht1 : q1.laddr.lsid.ltype ≠ LTYPE_BOOTREC := by rw [hq1]; exact hoa.ltype
      have hx0' : x0 = b0 := by
        rcases hx0 with ⟨_, h⟩ | ⟨h, _⟩
        · exact h
        · exact absurd ht0 h
      rw [keyOf, if_pos ht0] at hk0
      rw [keyOf, if_neg ht1] at hk1
      have hl : loadPack d.pack q0.caddr 1024 = .ok b0 := by
        rw [← hw.bootLen, ← hx0']
        apply load_holds
        unfold Holds
        rw [hk0, h1, ← hk0]
        exact hh0
      have e0 : importDesc e.h e.recode q0 d =
          ({ d with boot := fun c => if c = bc then some b0 else d.boot c }, none) := by
        unfold importDesc importBoot
        rw [if_pos ht0, hl]
        simp only [hw.bootRec, hw.bootKey, hk0, if_true]
      have e1 : importDesc e.h e.recode q1 { d with boot := fun c => if c = bc then some b0 else d.boot c } =
          ({ d with boot := fun c => if c = bc then some b0 else d.boot c }, some .noent) := by
        unfold importDesc importSeg loadPack
        rw [if_neg ht1]
        simp only [hk1, h3 (caddrOf e.h 3 x1) rfl]
      have ea : importAll e.h e.recode X.descs d =
          ({ d with boot := fun c => if c = bc then some b0 else d.boot c }, some .noent) := by
        rw [hxd, importAll, e0]
        simp only
        rw [importAll, e1]
      exact ⟨{ d with boot := fun c => if c = bc then some b0 else d.boot c }, by rw [hun d h2, ea], by simp, rfl⟩

/-- More ranges than the index can have: all of the file-system is written to pack files, then the export fails. -/
theorem C45_large_violated {e : Env} {s : Repo} {bc : Caddr} {b0 : Bytes} {sb br : Laddr} {b : Bytes}
    (ht : Tree e.slots s 6 sb) (hb : s.read sb = .ok b) (h0 : s.boot bc = some b0) (h1 : caddrOf e.h 1 b0 = bc)
    (h2 : e.recode b0 = some b0) (hbr : br.lsid.ltype = LTYPE_BOOTREC)
    (hn : 1048572 ≤ (ranges e.slots s sb b).length) : (fsPack e bc sb br s).2 = none := by
  have hok := ranges_ok ht hb
  have hdat : ∀ a ∈ ranges e.slots s sb b ++ [br], ∃ x, Datum s b0 a x := by
    intro a ha
    rcases List.mem_append.1 ha with ha | ha
    · obtain ⟨x, hx⟩ := (hok a ha).read
      exact ⟨x, Or.inr ⟨(hok a ha).ltype, hx⟩⟩
    · rw [List.mem_singleton] at ha
      exact ⟨b0, Or.inl ⟨by rw [ha]; exact hbr, rfl⟩⟩
  have hal : Always (exportAddr e.h e.recode bc s) (ranges e.slots s sb b ++ [br]) := by
    intro a ha x
    obtain ⟨y, hy⟩ := hdat a ha
    rw [export_put h0 h1 h2 hy]
  have hins := inspect_run (br := br) ht hb hal ⟨[], s.pack⟩
  have hlen : ∀ (L : List Laddr) (x : Ex), (∀ a ∈ L, ∃ y, Datum s b0 a y) →
      (run (exportAddr e.h e.recode bc s) L x).descs.length = L.length + x.descs.length := by
    intro L
    induction L with
    | nil => intro x _; simp [run]
    | cons a L ih =>
      intro x hL
      obtain ⟨y, hy⟩ := hL a (List.mem_cons_self ..)
      have := ih (put e.h bc a y x) (fun k hk => hL k (List.mem_cons_of_mem _ hk))
      have er : run (exportAddr e.h e.recode bc s) (a :: L) x = run (exportAddr e.h e.recode bc s) L (put e.h bc a y x) := by
        unfold run
        rw [List.foldl_cons, export_put h0 h1 h2 hy x]
      rw [er, this]
      simp only [put, List.length_cons]
      omega
  have hl := hlen _ ⟨[], s.pack⟩ hdat
  simp only [List.length_append, List.length_cons, List.length_nil] at hl
  unfold fsPack
  rw [hb]
  simp only [hins]
  rw [if_pos]
  unfold sizeOk indexSize
  simp only [Bool.and_eq_false_iff, decide_eq_false_iff_not]
  right
  omega

end Silofs.Pack
