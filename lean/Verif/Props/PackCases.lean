import Verif.Props.PackBad
/-
C45: a file-system that meets the hypotheses, and one with a segment missing.
-/
set_option linter.unusedSimpArgs false
set_option linter.unusedVariables false
namespace Silofs.Pack.Case
open Silofs Silofs.Addr Silofs.Pack

/-- A hash that tells short strings apart. -/
def h (x : Bytes) : Bytes := (x.map (· % 256) ++ List.replicate 31 0).take 31 ++ [x.length % 256]

/-- Segment `k` of a volume. -/
def lsid (k : Nat) : Lsid := ⟨List.replicate 16 0, 65536, k, 2, 0, 12⟩

def adr (k v : Nat) : Laddr := ⟨lsid k, v, 1⟩

def br : Laddr := ⟨⟨List.replicate 16 0, 65536, 0, 2, 0, 1⟩, 0, 1024⟩

/-- Each node has one child, the byte being its position. -/
def slots (_ : Nat) (b : Bytes) : List (Option Laddr) :=
  match b with
  | [v] => [some (adr 1 v), none]
  | _ => []

def e : Env := ⟨h, fun _ => 0, slots, some⟩

def b0 : Bytes := List.replicate 1024 7

/-- One segment of eight bytes. -/
def s : Repo where
  seg l := if l = lsid 1 then some ⟨8, fun p => p + 1⟩ else none
  boot c := if c = caddrOf h 1 b0 then some b0 else none
  pack _ := none

theorem h_bytes (x : Bytes) : IsBytes 32 (h x) := by
  refine ⟨?_, ?_⟩
  · simp only [h, List.length_append, List.length_take, List.length_map, List.length_replicate, List.length_cons,
      List.length_nil]
    omega
  · intro v hv
    simp only [h, List.mem_append, List.mem_singleton] at hv
    rcases hv with hv | hv
    · have := List.mem_of_mem_take hv
      rcases List.mem_append.1 this with hm | hm
      · obtain ⟨w, _, rfl⟩ := List.mem_map.1 hm
        exact Nat.mod_lt _ (by decide)
      · rw [(List.mem_replicate.1 hm).2]; decide
    · rw [hv]; exact Nat.mod_lt _ (by decide)

theorem h_inj {x y : Bytes} (hx : x.length ≤ 31) (hy : y.length ≤ 31) (hxb : ∀ v ∈ x, v < 256) (hyb : ∀ v ∈ y, v < 256)
    (he : h x = h y) : x = y := by
  have hm : ∀ z : Bytes, (∀ v ∈ z, v < 256) → z.map (· % 256) = z := by
    intro z hz
    conv => rhs; rw [← List.map_id z]
    apply List.map_congr_left
    intro v hv
    exact Nat.mod_eq_of_lt (hz v hv)
  unfold h at he
  rw [hm x hxb, hm y hyb] at he
  have hl := List.append_inj he (by simp)
  have hlen : x.length = y.length := by
    have := hl.2
    injection this with this
    omega
  have h1 := congrArg (List.take x.length) hl.1
  rw [List.take_take, List.take_take, Nat.min_eq_left hx, List.take_left] at h1
  rw [hlen] at h1
  rw [List.take_left] at h1
  exact h1

theorem lsid_fits (k : Nat) (hk : k < 4294967296) : (lsid k).Fits :=
  ⟨⟨by simp [lsid], by intro v hv; simp only [lsid] at hv; rw [(List.mem_replicate.1 hv).2]; decide⟩,
    by show (65536 : Nat) < _; decide, hk, by show (2 : Nat) < _; decide, by show (0 : Nat) < _; decide,
    by show (12 : Nat) < _; decide⟩

theorem read_adr (v : Nat) (hv : v < 8) : s.read (adr 1 v) = .ok [v + 1] :=
  read_ok.2 ⟨⟨8, fun p => p + 1⟩, by simp [s, adr], by simp [adr], by simp [adr]; omega, by
    simp [adr]⟩

theorem adr_ok (v : Nat) (hv : v < 8) : Ok s (adr 1 v) :=
  ⟨⟨lsid_fits 1 (by decide), by simp [adr], by show (v : Int) < _; omega, by show (1 : Nat) < _; decide⟩,
    by show (v : Int) + 1 ≤ 65536; omega, by show (12 : Nat) ≠ 1; decide, _, read_adr v hv⟩

theorem tree (n : Nat) : ∀ v, v + n < 8 → Tree slots s n (adr 1 v) := by
  induction n with
  | zero => intro v hv; exact adr_ok v hv
  | succ n ih =>
    intro v hv
    refine ⟨adr_ok v (by omega), ?_⟩
    intro b hb
    rw [read_adr v (by omega)] at hb
    cases hb
    refine ⟨fun _ _ => ⟨[adr 1 (v + 1)], 1, rfl⟩, ?_⟩
    intro k hk
    simp only [slots, List.mem_cons, Option.some.injEq, List.not_mem_nil, or_false] at hk
    rcases hk with rfl | hk
    · exact ih (v + 1) (by omega)
    · cases hk

theorem read_short {a : Laddr} {b : Bytes} (hr : s.read a = .ok b) : b.length ≤ 31 ∧ ∀ v ∈ b, v < 256 := by
  obtain ⟨g, h1, h2, h3, rfl⟩ := read_ok.1 hr
  have hg : g = ⟨8, fun p => p + 1⟩ := by
    simp only [s] at h1
    by_cases hl : a.lsid = lsid 1
    · rw [if_pos hl] at h1; cases h1; rfl
    · rw [if_neg hl] at h1; cases h1
  subst hg
  have h3 : a.pos + a.len ≤ (8 : Int) := h3
  refine ⟨by simp only [List.length_map, List.length_range]; omega, ?_⟩
  intro v hv
  obtain ⟨i, hi, rfl⟩ := List.mem_map.1 hv
  rw [List.mem_range] at hi
  show a.pos.toNat + i + 1 < 256
  omega

/-- The hypotheses of `C45_roundtrip` are met by a file-system with seven levels. -/
theorem whole : Whole e s (caddrOf h 1 b0) b0 (adr 1 0) br where
  tree := tree 6 0 (by decide)
  boot := by simp [s]
  bootKey := rfl
  bootRec := rfl
  bootLen := List.length_replicate
  brType := rfl
  brFits := ⟨⟨⟨by simp [br], by intro v hv; simp only [br] at hv; rw [(List.mem_replicate.1 hv).2]; decide⟩,
    by decide, by decide, by decide, by decide, by decide⟩, by decide, by decide, by decide⟩
  clean := ⟨fun a b y _ hp => (nomatch hp), fun a b a' b' h1 h2 he => by
      obtain ⟨p1, p2⟩ := read_short h1
      obtain ⟨q1, q2⟩ := read_short h2
      exact h_inj p1 q1 p2 q2 (congrArg Caddr.hash he), fun y hp => (nomatch hp), fun c y _ hp => (nomatch hp)⟩
  count := by
    intro b hb
    have : s.read (adr 1 0) = .ok [1] := read_adr 0 (by decide)
    rw [this] at hb
    cases hb
    decide +kernel
  hash := h_bytes
  csum := fun _ => by show (0 : Nat) < _; decide

example : at' slots s 6 (adr 1 0) [0, 0, 0, 0, 0, 0] = some [7] := by decide +kernel

/-! ### Restoring beside the original -/

/-- The same file-system later: the block of data has another value. -/
def later (P : Caddr → Option Bytes) : Repo where
  seg l := if l = lsid 1 then some ⟨8, fun p => if p = 6 then 99 else p + 1⟩ else none
  boot := s.boot
  pack := P

/-- **C45 is violated** when the archive is restored where the original still is: the restored file-system is no other one.
It has the boot record of the original, so that from then on the two names open the same file-system, and all of what was
changed in the original since the archive was made is lost: for every file-system, every later state of it, and every path
it reads as it did in the archive. -/
theorem _root_.Silofs.Pack.C45_rollback_violated {e : Env} {s : Repo} {bc : Caddr} {b0 : Bytes} {sb br : Laddr} (hw : Whole e s bc b0 sb br) :
    ∃ P c, fsPack e bc sb br s = ({ s with pack := P }, some c) ∧ ∀ d : Repo, d.pack = P → d.boot bc = some b0 →
      ∃ d', fsUnpack e c d = .done d' bc ∧ ∀ p, at' e.slots d 6 sb p ≠ at' e.slots s 6 sb p →
        at' e.slots d' 6 sb p ≠ at' e.slots d 6 sb p := by
  obtain ⟨P, c, h1, h2⟩ := C45_roundtrip hw
  refine ⟨P, c, h1, fun d hd _ => ?_⟩
  obtain ⟨d', h3, _, _, h4, _⟩ := h2 d hd
  exact ⟨d', h3, fun p hp he => hp (by rw [← he, h4])⟩

/-- A later state which differs. -/
example (P : Caddr → Option Bytes) : (later P).boot (caddrOf h 1 b0) = some b0 ∧
    at' slots (later P) 6 (adr 1 0) [0, 0, 0, 0, 0, 0] = some [99] ∧ at' slots s 6 (adr 1 0) [0, 0, 0, 0, 0, 0] = some [7] :=
  ⟨by simp [later, s], rfl, by decide +kernel⟩

/-! ### A segment that is missing -/

/-- The leaf has two blocks, in segments of their own. -/
def slots2 (d : Nat) (b : Bytes) : List (Option Laddr) :=
  if d = 0 then [some (adr 2 0), some (adr 3 0)] else slots d b

def e2 : Env := ⟨h, fun _ => 0, slots2, some⟩

/-- The first of them is missing. -/
def s2 : Repo where
  seg l := if l = lsid 1 then some ⟨8, fun p => p + 1⟩ else if l = lsid 3 then some ⟨8, fun p => p + 9⟩ else none
  boot c := if c = caddrOf h 1 b0 then some b0 else none
  pack _ := none

def x2 : Ex := (inspect slots2 s2 (exportAddr h some (caddrOf h 1 b0) s2) (adr 1 0) br [1] ⟨[], s2.pack⟩).1

theorem x2_ok : (inspect slots2 s2 (exportAddr h some (caddrOf h 1 b0) s2) (adr 1 0) br [1] ⟨[], s2.pack⟩).2 = none := by
  decide +kernel

theorem x2_laddrs : x2.descs.map Desc.laddr = [br, adr 1 0, adr 1 1, adr 1 2, adr 1 3, adr 1 4, adr 1 5] := by
  decide +kernel

theorem x2_packs : (x2.descs.all fun d => decide (d.caddr.ctype ≠ 2) && decide (d.caddr.hash.length = 32) &&
    d.caddr.hash.all (fun v => decide (v < 256)) && decide (d.caddr.size < 4294967296) && decide (d.caddr.ctype < 256) &&
    (if d.laddr.lsid.ltype = LTYPE_BOOTREC then decide (d.caddr = caddrOf h 1 b0) && decide (x2.pack d.caddr = some b0)
      else match x2.pack d.caddr with | some y => decide (d.laddr.len ≤ y.length) | none => false)) = true := by
  decide +kernel

theorem x2_boot : (x2.descs.filter fun d => d.laddr.lsid.ltype = LTYPE_BOOTREC).map Desc.caddr = [caddrOf h 1 b0] := by
  decide +kernel

/-! What every call keeps, the traversal keeps. -/

theorem cbList_keep {f : Laddr → Ex → Ex × Option Err} {Q : Ex → Prop} (hf : ∀ a x, Q x → Q (f a x).1) (l : List Laddr) :
    ∀ x, Q x → Q (cbList f l x).1 := by
  induction l with
  | nil => intro x hx; exact hx
  | cons a l ih =>
    intro x hx
    have := hf a x hx
    rw [cbList]
    cases hfa : f a x with
    | mk x' o =>
      rw [hfa] at this
      cases o with
      | none => exact ih x' this
      | some _ => exact this

theorem loop_keep {t : Laddr → Ex → Ex × Option Err} {Q : Ex → Prop} (hf : ∀ a x, Q x → Q (t a x).1)
    (l : List (Option Laddr)) : ∀ x, Q x → Q (loop t l x).1 := by
  induction l with
  | nil => intro x hx; exact hx
  | cons o l ih =>
    intro x hx
    cases o with
    | none => exact hx
    | some a =>
      have := hf a x hx
      rw [loop]
      cases hfa : t a x with
      | mk x' o =>
        rw [hfa] at this
        rcases o with _ | _ | _
        · exact ih x' this
        · exact ih x' this
        · exact this

theorem trav_keep {sl : Nat → Bytes → List (Option Laddr)} {r : Repo} {f : Laddr → Ex → Ex × Option Err} {Q : Ex → Prop}
    (hf : ∀ a x, Q x → Q (f a x).1) (d : Nat) : ∀ a x, Q x → Q (trav sl r f d a x).1 := by
  induction d with
  | zero =>
    intro a x hx
    unfold trav
    cases r.read a with
    | error _ => exact hx
    | ok b => exact cbList_keep hf _ x hx
  | succ d ih =>
    intro a x hx
    unfold trav
    cases r.read a with
    | error _ => exact hx
    | ok b =>
      simp only
      have := loop_keep ih (sl (d + 1) b) x hx
      cases hl : loop (trav sl r f d) (sl (d + 1) b) x with
      | mk x' o =>
        rw [hl] at this
        cases o with
        | none => exact cbList_keep hf _ x' this
        | some _ => exact this

theorem spaces_keep {t : Laddr → Ex → Ex × Option Err} {Q : Ex → Prop} (hf : ∀ a x, Q x → Q (t a x).1)
    (l : List (Option Laddr)) : ∀ x, Q x → Q (spaces t l x).1 := by
  induction l with
  | nil => intro x hx; exact hx
  | cons o l ih =>
    intro x hx
    cases o with
    | none => exact ih x hx
    | some a =>
      have := hf a x hx
      rw [spaces]
      cases hfa : t a x with
      | mk x' o =>
        rw [hfa] at this
        rcases o with _ | _ | _
        · exact ih x' this
        · exact ih x' this
        · exact this

theorem inspect_keep {sl : Nat → Bytes → List (Option Laddr)} {r : Repo} {f : Laddr → Ex → Ex × Option Err} {Q : Ex → Prop}
    (hf : ∀ a x, Q x → Q (f a x).1) (sb br : Laddr) (b : Bytes) (x : Ex) (hx : Q x) : Q (inspect sl r f sb br b x).1 := by
  unfold inspect
  have := spaces_keep (trav_keep (sl := sl) (r := r) hf 4) (sl 5 b) x hx
  cases hl : spaces (trav sl r f 4) (sl 5 b) x with
  | mk x' o =>
    rw [hl] at this
    cases o with
    | none => exact cbList_keep hf _ x' this
    | some _ => exact this

theorem export_idx {h : Bytes → Bytes} {recode : Bytes → Option Bytes} {bc : Caddr} (hbc : bc.ctype = 1) (r : Repo) (pk : Caddr → Option Bytes)
    (a : Laddr) (x : Ex) (hx : ∀ c, c.ctype = 2 → x.pack c = pk c) :
    ∀ c, c.ctype = 2 → (exportAddr h recode bc r a x).1.pack c = pk c := by
  intro c hc
  unfold exportAddr
  by_cases ht : a.lsid.ltype = LTYPE_BOOTREC
  · rw [if_pos ht]
    unfold exportBoot
    cases r.boot bc with
    | none => exact hx c hc
    | some b =>
      simp only
      by_cases h1 : caddrOf h 1 b ≠ bc
      · rw [if_pos h1]; exact hx c hc
      · rw [if_neg h1]
        cases recode b with
        | none => exact hx c hc
        | some b' =>
          simp only
          rw [sendPack_other _ _ (fun e => by rw [e, hbc] at hc; cases hc)]
          exact hx c hc
  · rw [if_neg ht]
    unfold exportSeg
    cases r.read a with
    | error _ => exact hx c hc
    | ok b =>
      simp only
      rw [sendPack_other _ _ (fun e => by rw [e] at hc; cases hc)]
      exact hx c hc

theorem x2_idx : ∀ c, c.ctype = 2 → x2.pack c = none :=
  inspect_keep (Q := fun x => ∀ c, c.ctype = 2 → x.pack c = (fun _ => none : Caddr → Option Bytes) c)
    (fun a x hx => export_idx rfl s2 _ a x hx) _ _ _ _ (fun _ _ => rfl)

theorem pair_eq {α β : Type} {p : α × β} {b : β} (h : p.2 = b) : p = (p.1, b) := by subst h; rfl

theorem importAll_seg (h : Bytes → Bytes) (recode : Bytes → Option Bytes) (l : Lsid) (ds : List Desc) :
    ∀ r, (∀ d ∈ ds, d.laddr.lsid ≠ l) → (importAll h recode ds r).1.seg l = r.seg l := by
  induction ds with
  | nil => intro r _; rfl
  | cons d ds ih =>
    intro r hl
    have h1 : (importDesc h recode d r).1.seg l = r.seg l := by
      unfold importDesc
      by_cases ht : d.laddr.lsid.ltype = LTYPE_BOOTREC
      · rw [if_pos ht]
        unfold importBoot
        cases loadPack r.pack d.caddr 1024 with
        | error e => rfl
        | ok x =>
          simp only
          cases recode x <;> rfl
      · rw [if_neg ht]
        unfold importSeg
        cases loadPack r.pack d.caddr d.laddr.len with
        | error e => rfl
        | ok x =>
          simp only
          unfold Repo.save
          by_cases hc : d.laddr.pos < 0 ∨ (d.laddr.lsid.lsize : Int) + 65536 < d.laddr.pos + d.laddr.len
          · rw [if_pos hc]
          · rw [if_neg hc]
            simp only
            rw [if_neg (fun e => hl d (List.mem_cons_self ..) e.symm)]
    rw [importAll]
    cases hi : importDesc h recode d r with
    | mk r' o =>
      rw [hi] at h1
      cases o with
      | none => exact (ih r' (fun q hq => hl q (List.mem_cons_of_mem _ hq))).trans h1
      | some x => exact h1

/-- With a segment missing, export and import both succeed; but another block, which is there and reachable in the source, is
not in the archive and cannot be read after the import. -/
theorem C45_missing_violated : ∃ (e : Env) (s : Repo) (bc : Caddr) (sb br a : Laddr) (P : Caddr → Option Bytes) (c : Caddr),
    (∀ x, IsBytes 32 (e.h x)) ∧
    fsPack e bc sb br s = ({ s with pack := P }, some c) ∧
    at' e.slots s 6 sb [0, 0, 0, 0, 0, 1] = some [9] ∧ s.read a = .ok [9] ∧
    ∀ d : Repo, d.pack = P → d.seg = (fun _ => none) →
      ∃ d', fsUnpack e c d = .done d' bc ∧ d'.read a = .error .noent := by
  have hall := x2_packs
  rw [List.all_eq_true] at hall
  have hlen : x2.descs.length = 7 := by
    have := congrArg List.length x2_laddrs
    simpa using this
  have hlad : ∀ d ∈ x2.descs, d.laddr = br ∨ ∃ v, v < 8 ∧ d.laddr = adr 1 v := by
    intro d hd
    have := List.mem_map_of_mem (f := Desc.laddr) hd
    rw [x2_laddrs] at this
    simp only [List.mem_cons, List.not_mem_nil, or_false] at this
    rcases this with h | h | h | h | h | h | h
    · exact Or.inl h
    · exact Or.inr ⟨0, by decide, h⟩
    · exact Or.inr ⟨1, by decide, h⟩
    · exact Or.inr ⟨2, by decide, h⟩
    · exact Or.inr ⟨3, by decide, h⟩
    · exact Or.inr ⟨4, by decide, h⟩
    · exact Or.inr ⟨5, by decide, h⟩
  have hfit : ∀ d ∈ x2.descs, d.Fits := by
    intro d hd
    have := hall d hd
    simp only [Bool.and_eq_true, decide_eq_true_eq, List.all_eq_true] at this
    obtain ⟨⟨⟨⟨⟨_, g1⟩, g2⟩, g3⟩, g4⟩, _⟩ := this
    refine ⟨⟨⟨g1, fun v hv => by simpa using g2 v hv⟩, g3, g4⟩, ?_⟩
    rcases hlad d hd with h | ⟨v, hv, h⟩
    · rw [h]; exact whole.brFits
    · rw [h]; exact (adr_ok v hv).fits
  have hsz : sizeOk (indexSize x2.descs.length) = true := by rw [hlen]; decide
  have hdec := C45_index_roundtrip h (fun _ => 0) (fun _ => by decide) x2.descs hfit hsz
  have hread : s2.read (adr 1 0) = .ok [1] := by rfl
  refine ⟨e2, s2, caddrOf h 1 b0, adr 1 0, br, adr 3 0,
    savePack x2.pack (caddrOf h 2 (encode (fun _ => 0) x2.descs)) (encode (fun _ => 0) x2.descs),
    caddrOf h 2 (encode (fun _ => 0) x2.descs), h_bytes, ?_, by decide +kernel, by rfl, ?_⟩
  · have hi : inspect slots2 s2 (exportAddr h some (caddrOf h 1 b0) s2) (adr 1 0) br [1] ⟨[], s2.pack⟩ = (x2, none) :=
      pair_eq x2_ok
    generalize hcc : caddrOf h 1 b0 = bc at hi
    unfold fsPack
    rw [hread]
    show (match inspect slots2 s2 (exportAddr h some bc s2) (adr 1 0) br [1] ⟨[], s2.pack⟩ with
      | (x, some _) => ({ s2 with pack := x.pack }, none)
      | (x, none) => _) = _
    rw [hi]
    simp only
    rw [if_neg (by rw [hsz]; decide)]
    rfl
  · intro d hd hds
    have hmem : ∀ q ∈ x2.descs, d.pack q.caddr = x2.pack q.caddr := by
      intro q hq
      have := hall q hq
      simp only [Bool.and_eq_true, decide_eq_true_eq, List.all_eq_true] at this
      obtain ⟨⟨⟨⟨⟨g0, _⟩, _⟩, _⟩, _⟩, _⟩ := this
      rw [hd, savePack_other]
      intro he
      rw [he] at g0
      exact g0 rfl
    obtain ⟨d', i1, i2⟩ := importAll_any (e := e2) (bc := caddrOf h 1 b0) (b0 := b0) rfl rfl List.length_replicate x2.descs d
      (by
        intro q hq ht
        have h0 := hmem q hq
        have := hall q hq
        simp only [Bool.and_eq_true, decide_eq_true_eq, if_pos ht] at this
        obtain ⟨_, g1, g2⟩ := this
        refine ⟨g1, [], ?_⟩
        rw [List.append_nil, ← g1, h0, g2])
      (by
        intro q hq ht
        have h0 := hmem q hq
        have := hall q hq
        simp only [Bool.and_eq_true, decide_eq_true_eq, if_neg ht] at this
        obtain ⟨_, g1⟩ := this
        rcases hlad q hq with h | ⟨v, hv, h⟩
        · rw [h] at ht; exact absurd rfl ht
        · have ho := adr_ok v hv
          rw [h] at g1 ⊢
          refine ⟨ho.fits.pos0, ho.valid, ?_⟩
          cases hp : x2.pack q.caddr with
          | none => rw [hp] at g1; cases g1
          | some y =>
            rw [hp] at g1
            exact ⟨y, by rw [h0, hp], by simpa using g1⟩)
    have hseg : d'.seg (lsid 3) = none := by
      have := importAll_seg e2.h e2.recode (lsid 3) x2.descs d (by
        intro q hq
        rcases hlad q hq with h | ⟨v, _, h⟩
        · rw [h]; decide
        · rw [h]; show lsid 1 ≠ lsid 3; decide)
      rw [i1] at this
      rw [this, hds]
    refine ⟨d', ?_, ?_⟩
    · have hidx : d.pack (caddrOf h 2 (encode (fun _ => 0) x2.descs)) = some (encode (fun _ => 0) x2.descs) := by
        rw [hd, savePack_self]
        have : x2.pack (caddrOf h 2 (encode (fun _ => 0) x2.descs)) = none := by
          exact x2_idx _ rfl
        rw [this]
        simp
      have hfil : ∃ q, x2.descs.filter (fun d => d.laddr.lsid.ltype = LTYPE_BOOTREC) = [q] ∧ q.caddr = caddrOf h 1 b0 := by
        have := x2_boot
        cases hx : x2.descs.filter (fun d => d.laddr.lsid.ltype = LTYPE_BOOTREC) with
        | nil => rw [hx] at this; cases this
        | cons q D =>
          rw [hx, List.map_cons] at this
          injection this with t1 t2
          rw [List.map_eq_nil_iff] at t2
          exact ⟨q, by rw [t2], t1⟩
      obtain ⟨q, hq1, hq2⟩ := hfil
      have hdec' : decode e2.h e2.xs (caddrOf h 2 (encode (fun _ => 0) x2.descs)) (encode (fun _ => 0) x2.descs) =
        .ok x2.descs := hdec
      generalize caddrOf h 2 (encode (fun _ => 0) x2.descs) = c at hidx hdec' ⊢
      generalize caddrOf h 1 b0 = bc at hq2 ⊢
      unfold fsUnpack
      rw [hidx]
      simp only [hdec', i1, hq1, hq2]
    · unfold Repo.read
      show (match d'.seg (lsid 3) with | none => _ | some g => _) = _
      rw [hseg]

/-! ### More ranges than an index can have -/

/-- Each node has its child 256 times. -/
def slots3 (_ : Nat) (b : Bytes) : List (Option Laddr) :=
  match b with
  | [v] => List.replicate 256 (some (adr 1 v))
  | _ => []

def e3 : Env := ⟨h, fun _ => 0, slots3, some⟩

theorem lmap_same (v n : Nat) (acc : List Laddr) :
    ((List.replicate n (adr 1 v)).foldl lmapAdd (adr 1 v :: acc)).length = n + 1 + acc.length := by
  induction n generalizing acc with
  | zero => simp; omega
  | succ n ih =>
    have hn : isNext (adr 1 v) (adr 1 v) = false := by
      simp only [isNext, adr, Bool.and_eq_false_iff, decide_eq_false_iff_not]
      left; right
      refine decide_eq_false ?_
      omega
    rw [List.replicate_succ, List.foldl_cons, lmapAdd, hn, if_neg (by decide), ih]
    simp only [List.length_cons]
    omega

theorem filterMap_same (a : Laddr) (n : Nat) : (List.replicate n (some a)).filterMap id = List.replicate n a := by
  induction n with
  | zero => rfl
  | succ n ih => rw [List.replicate_succ, List.filterMap_cons_some (b := a) (by rfl), ih, List.replicate_succ]

theorem flatMap_same (f : Laddr → List Laddr) (a : Laddr) (n : Nat) :
    ((List.replicate n a).flatMap f).length = n * (f a).length := by
  induction n with
  | zero => simp
  | succ n ih => rw [List.replicate_succ, List.flatMap_cons, List.length_append, ih, Nat.add_mul]; omega

theorem visit3 (d : Nat) : ∀ v, v + d < 8 → 256 ^ (d + 1) ≤ (visit slots3 s d (adr 1 v)).length := by
  induction d with
  | zero =>
    intro v hv
    unfold visit
    rw [read_adr v (by omega)]
    show 256 ≤ (lmap (List.replicate 256 (some (adr 1 (v + 1))))).length
    unfold lmap
    rw [filterMap_same, List.length_reverse, List.replicate_succ, List.foldl_cons]
    show 256 ≤ ((List.replicate 255 (adr 1 (v + 1))).foldl lmapAdd [adr 1 (v + 1)]).length
    rw [lmap_same]
    decide
  | succ d ih =>
    intro v hv
    unfold visit
    rw [read_adr v (by omega)]
    show 256 ^ (d + 2) ≤ (((List.replicate 256 (some (adr 1 (v + 1)))).filterMap id).flatMap (visit slots3 s d) ++ _).length
    rw [filterMap_same, List.length_append, flatMap_same]
    have := ih (v + 1) (by omega)
    have : 256 * 256 ^ (d + 1) ≤ 256 * (visit slots3 s d (adr 1 (v + 1))).length := Nat.mul_le_mul_left _ this
    rw [Nat.pow_succ, Nat.mul_comm]
    omega

theorem tree3 (n : Nat) : ∀ v, v + n < 8 → Tree slots3 s n (adr 1 v) := by
  induction n with
  | zero => intro v hv; exact adr_ok v hv
  | succ n ih =>
    intro v hv
    refine ⟨adr_ok v (by omega), ?_⟩
    intro b hb
    rw [read_adr v (by omega)] at hb
    cases hb
    refine ⟨fun _ _ => ⟨List.replicate 256 (adr 1 (v + 1)), 0, by
      show List.replicate 256 (some (adr 1 (v + 1))) = _
      rw [List.map_replicate, List.replicate_zero, List.append_nil]⟩, ?_⟩
    intro k hk
    have : some k = some (adr 1 (v + 1)) := (List.mem_replicate.1 hk).2
    cases this
    exact ih (v + 1) (by omega)

/-- A file-system with nodes of 256 children for which the export fails, all of it being stored. -/
theorem C45_large_case : Tree slots3 s 6 (adr 1 0) ∧ (fsPack e3 (caddrOf h 1 b0) (adr 1 0) br s).2 = none := by
  refine ⟨tree3 6 0 (by decide), C45_large_violated (e := e3) (b0 := b0) (tree3 6 0 (by decide)) (read_adr 0 (by decide))
    (by simp [s]) rfl rfl rfl ?_⟩
  show 1048572 ≤ (((List.replicate 256 (some (adr 1 1))).filterMap id).flatMap (visit slots3 s 4) ++ _).length
  rw [filterMap_same, List.length_append, flatMap_same]
  have := visit3 4 1 (by decide)
  have e1 : (256 : Nat) ^ 5 = 1099511627776 := by decide
  rw [e1] at this
  omega

end Silofs.Pack.Case
