import Verif.Props.EmitDir
import Verif.Props.EmitXattr
/-
C52: lists of entries and of names of attributes arrive whole.
-/
set_option linter.unusedSimpArgs false
set_option linter.unusedVariables false

namespace Silofs.Emit
open Silofs.Fuse

/-! ### What is offered -/

theorem mem_scanFrom (i : Nat) (pos : Int) (k : Nat) (l : List (Option Dir.Ent)) (x : Dir.Item)
    (h : x ∈ Dir.scanFrom i pos k l) :
    ∃ j e, l[j]? = some (some e) ∧ x = ⟨e.name, e.ino, e.dt, Dir.mkDoff i (k + j)⟩ := by
  induction l generalizing k with
  | nil => simp [Dir.scanFrom] at h
  | cons a l ih =>
    have hrec : x ∈ Dir.scanFrom i pos (k + 1) l →
        ∃ j e, (a :: l)[j]? = some (some e) ∧ x = ⟨e.name, e.ino, e.dt, Dir.mkDoff i (k + j)⟩ := fun h => by
      obtain ⟨j, e, h1, h2⟩ := ih (k + 1) h
      exact ⟨j + 1, e, by simpa using h1, by rw [h2, show k + 1 + j = k + (j + 1) by omega]⟩
    cases a with
    | none => exact hrec (by simpa [Dir.scanFrom] using h)
    | some e =>
      rw [Dir.scanFrom] at h
      split at h
      · rcases List.mem_cons.1 h with h | h
        · exact ⟨0, e, by simp, by rw [h]; rfl⟩
        · exact hrec h
      · exact hrec h

/-- An entry of the directory, with its own offset. -/
def OfEnt (d : Dir.Dir) (x : Dir.Item) : Prop :=
  ∃ i s e, Dir.EntAt d.nodes i s e ∧ x = ⟨e.name, e.ino, e.dt, Dir.mkDoff i s⟩

theorem stageWalk_node (nodes : Nat → Option Dir.Node) (i j : Nat) (n : Dir.Node)
    (h : Dir.stageWalk nodes i = some (j, n)) : nodes j = some n := by
  rw [Dir.stageWalk] at h
  split at h
  · simp only [Option.map_eq_some_iff, Prod.mk.injEq] at h
    obtain ⟨m, h1, h2, h3⟩ := h
    rw [← h2, ← h3, h1]
  · split at h
    · cases h
    · simp only [Option.map_eq_some_iff, Prod.mk.injEq] at h
      obtain ⟨m, h1, h2, h3⟩ := h
      rw [← h2, ← h3, h1]

theorem mem_iterNodes (d : Dir.Dir) (last idx : Nat) (pos : Int) (x : Dir.Item)
    (h : x ∈ Dir.iterNodes d.nodes last idx pos) : OfEnt d x := by
  induction idx, pos using Dir.iterNodes.induct d.nodes last with
  | case1 idx pos hc => rw [Dir.iterNodes, dif_pos hc] at h; simp at h
  | case2 idx pos hc hs ih =>
    rw [Dir.iterNodes, dif_neg hc] at h
    split at h
    · exact ih h
    · rename_i i n hs2; rw [hs] at hs2; cases hs2
  | case3 idx pos hc i n hs ih =>
    rw [Dir.iterNodes, dif_neg hc] at h
    split at h
    · rename_i hs2; rw [hs] at hs2; cases hs2
    · rename_i i' n' hs2
      rw [hs] at hs2
      simp only [Option.some.injEq, Prod.mk.injEq] at hs2
      obtain ⟨rfl, rfl⟩ := hs2
      rcases List.mem_append.1 h with h | h
      · obtain ⟨j, e, h1, h2⟩ := mem_scanFrom _ _ _ _ _ h
        rw [List.getElem?_drop] at h1
        have hn : d.nodes i = some n := by
          unfold Dir.stageByIndex at hs
          split at hs
          · cases hs
          · exact stageWalk_node _ _ _ _ hs
        exact ⟨i, _, e, ⟨n, hn, h1⟩, h2⟩
      · exact ih h

/-- Whatever position is asked for, only entries of the directory are offered, and the two that every directory has. -/
theorem mem_offers (d : Dir.Dir) (selfIno upIno : Nat) (pos : Int) (x : Dir.Item)
    (h : x ∈ Dir.offers d selfIno upIno pos) :
    x = ⟨[46], selfIno, 4, 0⟩ ∨ x = ⟨[46, 46], upIno, 4, 1⟩ ∨ OfEnt d x := by
  unfold Dir.offers at h
  simp only [List.mem_append] at h
  rcases h with (h | h) | h
  · left; split at h <;> simp at h; exact h
  · right; left
    split at h
    · exact List.mem_singleton.1 h
    · simp at h; exact h.2
  · right; right
    generalize (if (if pos = 0 then 1 else pos) = 1 then 2 else if pos = 0 then 1 else pos) = q at h
    split at h
    · simp at h
    · split at h
      · simp at h
      · exact mem_iterNodes d _ _ _ x h

/-! ### One reply -/

/-- An entry as the kernel allows it: an inode's number, a type, and a name without a slash. -/
structure Good (name : List Nat) (ino dt : Nat) : Prop where
  ino0 : 0 < ino
  ino : ino < 2 ^ 64
  dt : dt < 2 ^ 32
  slash : 47 ∉ name

/-- All entries of a directory are such. -/
def AllGood (d : Dir.Dir) : Prop := ∀ i s e, Dir.EntAt d.nodes i s e → Good e.name e.ino e.dt

/-- The attributes are those of inodes that the directory names: number and type agree. -/
def Attrs (d : Dir.Dir) (selfIno upIno : Nat) (attr : Nat → St) : Prop :=
  (∀ ino, ino < 2 ^ 64 → (attr ino).Fits ∧ (attr ino).ino = ino) ∧
  iftodt (attr selfIno).mode = 4 ∧ iftodt (attr upIno).mode = 4 ∧
  ∀ i s e, Dir.EntAt d.nodes i s e → iftodt (attr e.ino).mode = e.dt

/-- An entry as a program gets it. -/
def kent (p : Dir.Item × Int) : KEnt := ⟨p.1.name, p.1.ino, p.1.dt, p.2⟩

theorem offered_good {d : Dir.Dir} (hv : Dir.Inv d) (hg : AllGood d) (selfIno upIno : Nat) (hs : 0 < selfIno ∧ selfIno < 2 ^ 64)
    (hu : 0 < upIno ∧ upIno < 2 ^ 64) (pos : Int) (x : Dir.Item) (h : x ∈ Dir.offers d selfIno upIno pos) :
    Good x.name x.ino x.dt ∧ 0 < x.name.length ∧ x.name.length ≤ 255 ∧ IsI64 x.off := by
  rcases mem_offers d selfIno upIno pos x h with rfl | rfl | ⟨i, s, e, he, rfl⟩
  · exact ⟨⟨hs.1, hs.2, (by decide : (4 : Nat) < 2 ^ 32), (by decide : 47 ∉ ([46] : List Nat))⟩,
      (by decide : 0 < ([46] : List Nat).length), (by decide : ([46] : List Nat).length ≤ 255),
      (by decide : (-9223372036854775808 : Int) ≤ 0), (by decide : (0 : Int) < 9223372036854775808)⟩
  · exact ⟨⟨hu.1, hu.2, (by decide : (4 : Nat) < 2 ^ 32), (by decide : 47 ∉ ([46, 46] : List Nat))⟩,
      (by decide : 0 < ([46, 46] : List Nat).length), (by decide : ([46, 46] : List Nat).length ≤ 255),
      (by decide : (-9223372036854775808 : Int) ≤ 1), (by decide : (1 : Int) < 9223372036854775808)⟩
  · have h1 := hv.ents i s e he
    have h2 := he.slot_lt hv
    obtain ⟨n, hn, _⟩ := id he
    have h3 := Dir.C12_doff_roundtrip i s (hv.range i n hn).2.1 (by omega)
    refine ⟨hg i s e he, h1.2.2.1, h1.2.2.2, ?_, ?_⟩
    · show _ ≤ ((Dir.mkDoff i s : Nat) : Int); omega
    · show ((Dir.mkDoff i s : Nat) : Int) < _; have := h3.2.2.2.2.2; omega

theorem annotate_mem (l : List Dir.Item) (p : Dir.Item × Int) (h : p ∈ Dir.annotate l) :
    p.1 ∈ l ∧ (p.2 = -1 ∨ ∃ y ∈ l, p.2 = y.off) := by
  induction l with
  | nil => simp [Dir.annotate] at h
  | cons x l ih =>
    rcases List.mem_cons.1 h with rfl | h
    · refine ⟨by simp, ?_⟩
      cases l with
      | nil => exact Or.inl rfl
      | cons y l => exact Or.inr ⟨y, by simp, rfl⟩
    · obtain ⟨h1, h2⟩ := ih h
      refine ⟨by simp [h1], ?_⟩
      rcases h2 with h2 | ⟨y, hy, h2⟩
      · exact Or.inl h2
      · exact Or.inr ⟨y, by simp [hy], h2⟩

theorem readdir_mem (d : Dir.Dir) (selfIno upIno hdr bsz : Nat) (pos : Int) (p : Dir.Item × Int)
    (h : p ∈ Dir.readdir d selfIno upIno hdr bsz pos) :
    p.1 ∈ Dir.offers d selfIno upIno pos ∧ (p.2 = -1 ∨ ∃ y ∈ Dir.offers d selfIno upIno pos, p.2 = y.off) := by
  unfold Dir.readdir at h
  obtain ⟨k, hk, _⟩ := Dir.feed_none hdr bsz (Dir.offers d selfIno upIno pos)
  rw [hk] at h
  exact annotate_mem _ p (List.mem_of_mem_take h)

theorem Attrs.type {d : Dir.Dir} {selfIno upIno : Nat} {attr : Nat → St} (h : Attrs d selfIno upIno attr) (pos : Int)
    (x : Dir.Item) (hx : x ∈ Dir.offers d selfIno upIno pos) : iftodt (attr x.ino).mode = x.dt := by
  rcases mem_offers d selfIno upIno pos x hx with rfl | rfl | ⟨i, s, e, he, rfl⟩
  · exact h.2.1
  · exact h.2.2.1
  · exact h.2.2.2 i s e he

/-- **C52** (attributes).  A reply of the longer kind (READDIRPLUS) tells with each entry the attributes of its own inode. -/
theorem C52_attributes {d : Dir.Dir} (hv : Dir.Inv d) (hg : AllGood d) (selfIno upIno : Nat) (hs : 0 < selfIno ∧ selfIno < 2 ^ 64)
    (hu : 0 < upIno ∧ upIno < 2 ^ 64) (attr : Nat → St) (ha : Attrs d selfIno upIno attr) (size : Nat) (pos : Int) :
    kdirplus (readdir d selfIno upIno true attr size pos).length (readdir d selfIno upIno true attr size pos) =
      some ((Dir.readdir d selfIno upIno 152 (min size 8192) pos).map fun p => (kent p, attr p.1.ino)) := by
  have hgood := offered_good hv hg selfIno upIno hs hu pos
  refine kdirplus_of _ ?_ _ _ ?_ (by omega)
  · intro e he
    obtain ⟨p, hp, rfl⟩ := List.mem_map.1 he
    obtain ⟨h1, h2⟩ := readdir_mem _ _ _ _ _ _ _ hp
    obtain ⟨g1, g2, g3, g4⟩ := hgood _ h1
    refine ⟨⟨g1.ino, g1.dt, ?_, g2, by show p.1.name.length ≤ 1024; omega, g1.slash⟩, (ha.1 _ g1.ino).1⟩
    rcases h2 with h2 | ⟨y, hy, h2⟩
    · show IsI64 p.2; rw [h2]; exact ⟨by decide, by decide⟩
    · show IsI64 p.2; rw [h2]; exact (hgood y hy).2.2.2
  · rw [readdir_bytes _ _ _ _ _ _ _ (fun x hx => ⟨(hgood x hx).1.ino0, (hgood x hx).2.1, by have := (hgood x hx).2.2.1; omega⟩),
      List.map_map]
    refine congrArg List.flatten (List.map_congr_left fun p hp => ?_)
    obtain ⟨h1, _⟩ := readdir_mem _ _ _ _ _ _ _ hp
    simp only [entBytes, if_true, Function.comp, kent]
    rw [(ha.1 p.1.ino (hgood _ h1).1.ino).2, ha.type pos p.1 h1]

/-- **C52** (one reply).  For every directory whose entries are good, every position and every size: what the kernel takes
from the bytes of a reply, of either kind, is exactly the entries that the listing gives, in order, each with its inode,
type and the offset to continue from; no byte is taken for something else, and it is never an error. -/
theorem C52_reply {d : Dir.Dir} (hv : Dir.Inv d) (hg : AllGood d) (selfIno upIno : Nat) (hs : 0 < selfIno ∧ selfIno < 2 ^ 64)
    (hu : 0 < upIno ∧ upIno < 2 ^ 64) (plus : Bool) (attr : Nat → St) (ha : plus = true → Attrs d selfIno upIno attr)
    (size : Nat) (pos : Int) :
    (readdir d selfIno upIno plus attr size pos).length ≤ size ∧
    kdir plus (readdir d selfIno upIno plus attr size pos) =
      some ((Dir.readdir d selfIno upIno (hdrLen plus) (min size 8192) pos).map kent) := by
  have hgood := offered_good hv hg selfIno upIno hs hu pos
  have hbytes := readdir_bytes d selfIno upIno plus attr size pos
    (fun x hx => ⟨(hgood x hx).1.ino0, (hgood x hx).2.1, by have := (hgood x hx).2.2.1; omega⟩)
  refine ⟨?_, ?_⟩
  · rw [hbytes]
    have hroom : ∀ (l : List Dir.Item) (p : Option Dir.Item) (rem : Nat),
        ((Dir.feed (hdrLen plus) rem p l).map (entBytes plus attr)).flatten.length ≤ rem := by
      intro l
      induction l with
      | nil =>
        intro p rem
        cases p with
        | none => simp [Dir.feed]
        | some x =>
          simp only [Dir.feed]
          split
          · rename_i hf
            simp only [Dir.fits, Bool.and_eq_true, decide_eq_true_eq] at hf
            simp [entBytes_length]; exact hf.2
          · simp
      | cons y l ih =>
        intro p rem
        cases p with
        | none => exact ih (some y) rem
        | some x =>
          simp only [Dir.feed]
          split
          · rename_i hf
            simp only [Dir.fits, Bool.and_eq_true, decide_eq_true_eq] at hf
            have := ih (some y) (rem - Dir.entSize (hdrLen plus) x.name)
            simp only [List.map_cons, List.flatten_cons, List.length_append, entBytes_length]
            omega
          · simp
    have := hroom (Dir.offers d selfIno upIno pos) none (min size 8192)
    unfold Dir.readdir
    omega
  · unfold kdir
    cases plus with
    | true =>
      rw [if_pos rfl, C52_attributes hv hg selfIno upIno hs hu attr (ha rfl) size pos, Option.map_some, List.map_map]
      rfl
    | false =>
      rw [if_neg (by decide)]
      refine kdirents_of _ ?_ _ _ ?_ (by omega)
      · intro e he
        obtain ⟨p, hp, rfl⟩ := List.mem_map.1 he
        obtain ⟨h1, h2⟩ := readdir_mem _ _ _ _ _ _ _ hp
        obtain ⟨g1, g2, g3, g4⟩ := hgood _ h1
        refine ⟨g1.ino, g1.dt, ?_, g2, by show p.1.name.length ≤ 1024; omega, g1.slash⟩
        rcases h2 with h2 | ⟨y, hy, h2⟩
        · show IsI64 p.2; rw [h2]; exact ⟨by decide, by decide⟩
        · show IsI64 p.2; rw [h2]; exact (hgood y hy).2.2.2
      · rw [hbytes, List.map_map]
        exact congrArg List.flatten (List.map_congr_left fun p hp => rfl)

/-! ### A whole listing -/

/-- What happens during a listing: another request changes the directory, or the kernel asks for the next part, with
some size and at a time when the inodes have some attributes. -/
inductive KEv where
  | op (op : Dir.Op) (o : Dir.Orc)
  | read (size : Nat) (attr : Nat → St)

/-- A program that lists a directory: position, what it has got, whether it has seen the end, and whether an error. -/
structure KSess where
  d : Dir.Dir
  pos : Int
  rep : List KEnt
  eod : Bool
  bad : Bool

/-- The position of a program after a reply. -/
def lastOff (pos : Int) (l : List KEnt) : Int := match l.getLast? with
  | none => pos
  | some e => e.off

def KSess.step (selfIno upIno : Nat) (plus : Bool) (c : KSess) : KEv → KSess
  | .op op o => { c with d := (Dir.step c.d o op).2 }
  | .read size attr =>
    match kdir plus (readdir c.d selfIno upIno plus attr size c.pos) with
    | none => { c with bad := true }
    | some l => { c with pos := lastOff c.pos l, rep := c.rep ++ l, eod := c.eod || l.isEmpty }

def KSess.run (selfIno upIno : Nat) (plus : Bool) (c : KSess) : List KEv → KSess
  | [] => c
  | e :: es => KSess.run selfIno upIno plus (c.step selfIno upIno plus e) es

def KSess.start (d : Dir.Dir) : KSess := ⟨d, 0, [], false, false⟩

/-- What is asked of the events: no storage error while a node is dropped, good names, attributes that agree with
the directory at that time. -/
def Runs (selfIno upIno : Nat) (plus : Bool) (c : KSess) : List KEv → Prop
  | [] => True
  | .op op o :: es =>
    o.drop = false ∧ (∀ nm ino dt, op = .add nm ino dt → Good nm ino dt) ∧
      Runs selfIno upIno plus (c.step selfIno upIno plus (.op op o)) es
  | .read size attr :: es =>
    (plus = true → Attrs c.d selfIno upIno attr) ∧ Runs selfIno upIno plus (c.step selfIno upIno plus (.read size attr)) es

/-- The same events for the listing without bytes. -/
def evOf : KEv → Dir.Ev
  | .op op o => .op op o
  | .read size _ => .read (min size 8192)

/-- Both listings are at the same place. -/
def Match (k : KSess) (c : Dir.Sess) : Prop :=
  k.d = c.d ∧ k.pos = c.pos ∧ k.eod = c.eod ∧ k.bad = false ∧
  k.rep.map (fun e => (e.name, e.ino, e.dt)) = c.rep.map (fun x => (x.name, x.ino, x.dt)) ∧
  ∀ x ∈ c.rep, 2 ≤ x.off ∨ x.name = [46] ∨ x.name = [46, 46]

theorem lastOff_kent (pos : Int) (r : List (Dir.Item × Int)) : lastOff pos (r.map kent) = Dir.nextPos pos r := by
  unfold lastOff Dir.nextPos
  rw [List.getLast?_map]
  cases r.getLast? <;> rfl

theorem allGood_step {d : Dir.Dir} (hv : Dir.Inv d) (hg : AllGood d) (o : Dir.Orc) (op : Dir.Op) (ho : o.drop = false)
    (hop : ∀ nm ino dt, op = .add nm ino dt → Good nm ino dt) :
    Dir.Inv (Dir.step d o op).2 ∧ AllGood (Dir.step d o op).2 := by
  -- the map that the directory holds
  have hex : ∃ m, Dir.Repr d m := by
    classical
    refine ⟨fun nm => if h : ∃ v : Nat × Nat, ∃ i s e, Dir.EntAt d.nodes i s e ∧ e.name = nm ∧ e.ino = v.1 ∧ e.dt = v.2
      then some h.choose else none, fun nm ino dt => ?_⟩
    constructor
    · intro h
      simp only at h
      split at h
      · rename_i hh
        have := hh.choose_spec
        simp only [Option.some.injEq] at h
        rw [h] at this
        exact this
      · cases h
    · rintro ⟨i, s, e, h1, h2, h3, h4⟩
      have hh : ∃ v : Nat × Nat, ∃ i s e, Dir.EntAt d.nodes i s e ∧ e.name = nm ∧ e.ino = v.1 ∧ e.dt = v.2 :=
        ⟨(ino, dt), i, s, e, h1, h2, h3, h4⟩
      simp only
      rw [dif_pos hh]
      obtain ⟨i', s', e', g1, g2, g3, g4⟩ := hh.choose_spec
      have hu := hv.uniq i s e i' s' e' h1 g1 (by rw [h2, g2])
      obtain ⟨rfl, rfl⟩ := hu
      have := h1.unique g1
      subst this
      congr 1
      exact Prod.ext (by rw [← g3, h3]) (by rw [← g4, h4])
  obtain ⟨m, hm⟩ := hex
  obtain ⟨h1, h2, _⟩ := Dir.step_spec hv hm o op ho
  refine ⟨h1, fun i s e he => ?_⟩
  have hin : Dir.specStep m op (Dir.step d o op).1 e.name = some (e.ino, e.dt) := (h2 _ _ _).2 ⟨i, s, e, he, rfl, rfl, rfl⟩
  have hold : m e.name = some (e.ino, e.dt) → Good e.name e.ino e.dt := fun h => by
    obtain ⟨i', s', e', g1, g2, g3, g4⟩ := (hm _ _ _).1 h
    have := hg i' s' e' g1
    rwa [g2, g3, g4] at this
  cases op with
  | add nm ino dt =>
    cases hr : (Dir.step d o (.add nm ino dt)).1 with
    | ok u =>
      rw [hr] at hin
      simp only [Dir.specStep] at hin
      split at hin
      · rename_i hn
        simp only [Option.some.injEq, Prod.mk.injEq] at hin
        rw [hn, ← hin.1, ← hin.2]
        exact hop nm ino dt rfl
      · exact hold hin
    | _ => rw [hr] at hin; exact hold hin
  | remove nm =>
    cases hr : (Dir.step d o (.remove nm)).1 with
    | ok u =>
      rw [hr] at hin
      simp only [Dir.specStep] at hin
      split at hin
      · cases hin
      · exact hold hin
    | _ => rw [hr] at hin; exact hold hin

theorem run_match (selfIno upIno : Nat) (hs : 0 < selfIno ∧ selfIno < 2 ^ 64) (hu : 0 < upIno ∧ upIno < 2 ^ 64) (plus : Bool)
    (evs : List KEv) (k : KSess) (c : Dir.Sess) (hv : Dir.Inv k.d) (hg : AllGood k.d) (hm : Match k c)
    (hr : Runs selfIno upIno plus k evs) :
    Match (k.run selfIno upIno plus evs) (c.run selfIno upIno (hdrLen plus) (evs.map evOf)) := by
  induction evs generalizing k c with
  | nil => exact hm
  | cons ev evs ih =>
    obtain ⟨m1, m2, m3, m4, m5, m6⟩ := hm
    cases ev with
    | op op o =>
      obtain ⟨r1, r2, r3⟩ := hr
      obtain ⟨g1, g2⟩ := allGood_step hv hg o op r1 r2
      exact ih _ _ g1 g2 ⟨by show (Dir.step k.d o op).2 = _; rw [m1]; rfl, m2, m3, m4, m5, m6⟩ r3
    | read size attr =>
      obtain ⟨r1, r2⟩ := hr
      have hk := (C52_reply hv hg selfIno upIno hs hu plus attr r1 size k.pos).2
      have hstep : k.step selfIno upIno plus (.read size attr) =
          { k with
            pos := Dir.nextPos k.pos (Dir.readdir k.d selfIno upIno (hdrLen plus) (min size 8192) k.pos)
            rep := k.rep ++ (Dir.readdir k.d selfIno upIno (hdrLen plus) (min size 8192) k.pos).map kent
            eod := k.eod || (Dir.readdir k.d selfIno upIno (hdrLen plus) (min size 8192) k.pos).isEmpty } := by
        simp only [KSess.step, hk, lastOff_kent]
        congr 2
        cases Dir.readdir k.d selfIno upIno (hdrLen plus) (min size 8192) k.pos <;> rfl
      refine ih _ _ ?_ ?_ ?_ r2
      · rw [hstep]; exact hv
      · rw [hstep]; exact hg
      · rw [hstep]
        refine ⟨m1, ?_, ?_, m4, ?_, ?_⟩
        · show Dir.nextPos k.pos _ = Dir.nextPos c.pos _; rw [m1, m2]
        · show (k.eod || _) = (c.eod || _); rw [m1, m2, m3]
        · show (k.rep ++ _).map _ = (c.rep ++ _).map _
          rw [List.map_append, List.map_append, m5, m1, m2, List.map_map, List.map_map]
          rfl
        · intro x hx
          rcases List.mem_append.1 hx with hx | hx
          · exact m6 x hx
          · obtain ⟨p, hp, rfl⟩ := List.mem_map.1 hx
            rw [← m1] at hp
            rcases mem_offers _ _ _ _ _ (readdir_mem _ _ _ _ _ _ _ hp).1 with h | h | ⟨i, s, e, he, h⟩
            · exact Or.inr (Or.inl (by rw [h]))
            · exact Or.inr (Or.inr (by rw [h]))
            · left
              rw [h]
              show (2 : Int) ≤ ((Dir.mkDoff i s : Nat) : Int)
              have hl := he.slot_lt hv
              obtain ⟨n, hn, _⟩ := he
              have := (Dir.C12_doff_roundtrip i s (hv.range i n hn).2.1 (by omega)).2.2.2.2.1
              omega

/-- A history of good names leaves a directory of good entries. -/
theorem allGood_run (hash : Dir.Name → Nat) (ops : List (Dir.Op × Dir.Orc)) (hd : ∀ x ∈ ops, x.2.drop = false)
    (hop : ∀ x ∈ ops, ∀ nm ino dt, x.1 = .add nm ino dt → Good nm ino dt) :
    Dir.Inv (Dir.run (Dir.Dir.fresh hash) ops).2 ∧ AllGood (Dir.run (Dir.Dir.fresh hash) ops).2 := by
  have key : ∀ (ops : List (Dir.Op × Dir.Orc)) (d : Dir.Dir), (∀ x ∈ ops, x.2.drop = false) →
      (∀ x ∈ ops, ∀ nm ino dt, x.1 = .add nm ino dt → Good nm ino dt) → Dir.Inv d → AllGood d →
      Dir.Inv (Dir.run d ops).2 ∧ AllGood (Dir.run d ops).2 := by
    intro ops
    induction ops with
    | nil => intro d _ _ hv hg; exact ⟨hv, hg⟩
    | cons x ops ih =>
      intro d h1 h2 hv hg
      obtain ⟨op, o⟩ := x
      obtain ⟨g1, g2⟩ := allGood_step hv hg o op (h1 (op, o) (by simp)) (h2 (op, o) (by simp))
      exact ih _ (fun y hy => h1 y (by simp [hy])) (fun y hy => h2 y (by simp [hy])) g1 g2
  exact key ops _ hd hop (Dir.Inv.fresh hash) (fun i s e he => by simp [Dir.Dir.fresh, Dir.EntAt] at he)

/-- What a program keeps of an entry. -/
def seen (e : KEnt) : List Nat × Nat × Nat := (e.name, e.ino, e.dt)

theorem runs_reads (selfIno upIno : Nat) (hs : 0 < selfIno ∧ selfIno < 2 ^ 64) (hu : 0 < upIno ∧ upIno < 2 ^ 64) (plus : Bool)
    (rs : List (Nat × (Nat → St))) (k : KSess) (hr : ∀ r ∈ rs, plus = true → Attrs k.d selfIno upIno r.2) :
    Runs selfIno upIno plus k (rs.map fun r => .read r.1 r.2) := by
  induction rs generalizing k with
  | nil => trivial
  | cons r rs ih =>
    refine ⟨hr r (by simp), ih _ fun q hq => ?_⟩
    have hd : (k.step selfIno upIno plus (.read r.1 r.2)).d = k.d := by
      simp only [KSess.step]; split <;> rfl
    rw [hd]
    exact hr q (by simp [hq])

/-- **C52** (listing).  A program lists a directory that was built by any history of good names, by replies of
either kind and of any sizes of at least 414 bytes, while nothing changes the names.  From the bytes that it gets it sees `.`, `..`
and the names that the directory has, each once, with inode and type, and never an error; after as many requests as
there are names, and three, it has seen the end. -/
theorem C52_listing_partial (hash : Dir.Name → Nat) (ops : List (Dir.Op × Dir.Orc)) (hd : ∀ x ∈ ops, x.2.drop = false)
    (hop : ∀ x ∈ ops, ∀ nm ino dt, x.1 = .add nm ino dt → Good nm ino dt)
    (hshallow : ∀ i n, (Dir.run (Dir.Dir.fresh hash) ops).2.nodes i = some n → Dir.depth i < 4)
    (selfIno upIno : Nat) (hs : 0 < selfIno ∧ selfIno < 2 ^ 64) (hu : 0 < upIno ∧ upIno < 2 ^ 64) (plus : Bool) :
    ∃ rest : List (List Nat × Nat × Nat),
      (∀ nm ino dt, (nm, ino, dt) ∈ rest ↔
        Dir.specRun (fun _ => none) ops (Dir.run (Dir.Dir.fresh hash) ops).1 nm = some (ino, dt)) ∧
      (rest.map (·.1)).Nodup ∧
      ∀ rs : List (Nat × (Nat → St)),
        (∀ r ∈ rs, 414 ≤ r.1 ∧ (plus = true → Attrs (Dir.run (Dir.Dir.fresh hash) ops).2 selfIno upIno r.2)) →
        let c := (KSess.start (Dir.run (Dir.Dir.fresh hash) ops).2).run selfIno upIno plus (rs.map fun r => .read r.1 r.2)
        c.bad = false ∧
        (∃ k, c.rep.map seen = (([46], selfIno, 4) :: ([46, 46], upIno, 4) :: rest).take k) ∧
        (c.eod = true → c.rep.map seen = ([46], selfIno, 4) :: ([46, 46], upIno, 4) :: rest) ∧
        (rest.length + 3 ≤ rs.length → c.eod = true) := by
  obtain ⟨l, h1, h2, h3⟩ := Dir.C09_quiet_partial hash ops hd hshallow selfIno upIno (hdrLen plus)
  obtain ⟨hv, hg⟩ := allGood_run hash ops hd hop
  refine ⟨l.map fun x => (x.name, x.ino, x.dt), fun nm ino dt => ?_, by rw [List.map_map]; exact h2, fun rs hrs => ?_⟩
  · rw [← h1 nm ino dt, List.mem_map]
    constructor
    · rintro ⟨x, hx, he⟩
      simp only [Prod.mk.injEq] at he
      exact ⟨x, hx, he.1, he.2.1, he.2.2⟩
    · rintro ⟨x, hx, e1, e2, e3⟩
      exact ⟨x, hx, by rw [e1, e2, e3]⟩
  · have hm := run_match selfIno upIno hs hu plus (rs.map fun r => .read r.1 r.2) (KSess.start _)
      (Dir.Sess.start (Dir.run (Dir.Dir.fresh hash) ops).2) hv hg ⟨rfl, rfl, rfl, rfl, rfl, by simp [Dir.Sess.start]⟩
      (runs_reads selfIno upIno hs hu plus rs _ fun r hr => (hrs r hr).2)
    have hevs : (rs.map fun r => KEv.read r.1 r.2).map evOf = (rs.map fun r => min r.1 8192).map .read := by
      rw [List.map_map, List.map_map]; rfl
    rw [hevs] at hm
    have h9 := h3 (rs.map fun r => min r.1 8192) (fun b hb => by
      obtain ⟨r, hr, rfl⟩ := List.mem_map.1 hb
      have := (hrs r hr).1
      unfold Dir.Big hdrLen
      cases plus <;> simp <;> omega)
    obtain ⟨m1, m2, m3, m4, m5, m6⟩ := hm
    simp only at h9
    obtain ⟨⟨k, hk⟩, h9b, h9c⟩ := h9
    simp only
    refine ⟨m4, ⟨k, ?_⟩, fun he => ?_, fun hl => ?_⟩
    · refine Eq.trans m5 ?_
      rw [hk, List.map_take]
      rfl
    · refine Eq.trans m5 ?_
      rw [h9b (by rw [← m3]; exact he)]
      rfl
    · rw [m3]
      exact h9c (by simpa using hl)

/-- **C52** (listing while names change).  A name that was there before the listing and is not removed during it is seen exactly
once by a program that has seen the end, whatever other names come and go. -/
theorem C52_stable_partial (hash : Dir.Name → Nat) (ops : List (Dir.Op × Dir.Orc)) (hd : ∀ x ∈ ops, x.2.drop = false)
    (hop : ∀ x ∈ ops, ∀ nm ino dt, x.1 = .add nm ino dt → Good nm ino dt)
    (i s : Nat) (e : Dir.Ent) (he : Dir.EntAt (Dir.run (Dir.Dir.fresh hash) ops).2.nodes i s e) (h4 : Dir.depth i < 4)
    (selfIno upIno : Nat) (hs : 0 < selfIno ∧ selfIno < 2 ^ 64) (hu : 0 < upIno ∧ upIno < 2 ^ 64) (plus : Bool)
    (evs : List KEv) (hr : Runs selfIno upIno plus (KSess.start (Dir.run (Dir.Dir.fresh hash) ops).2) evs)
    (hev : ∀ ev ∈ evs, match ev with
      | .op op _ => op ≠ .remove e.name
      | .read size _ => 414 ≤ size)
    (hdot : e.name ≠ [46] ∧ e.name ≠ [46, 46])
    (hend : ((KSess.start (Dir.run (Dir.Dir.fresh hash) ops).2).run selfIno upIno plus evs).eod = true) :
    ((KSess.start (Dir.run (Dir.Dir.fresh hash) ops).2).run selfIno upIno plus evs).bad = false ∧
    (((KSess.start (Dir.run (Dir.Dir.fresh hash) ops).2).run selfIno upIno plus evs).rep.map seen).filter (fun x => x.1 = e.name) =
      [(e.name, e.ino, e.dt)] := by
  obtain ⟨hv, hg⟩ := allGood_run hash ops hd hop
  have hm := run_match selfIno upIno hs hu plus evs (KSess.start _)
      (Dir.Sess.start (Dir.run (Dir.Dir.fresh hash) ops).2) hv hg ⟨rfl, rfl, rfl, rfl, rfl, by simp [Dir.Sess.start]⟩ hr
  obtain ⟨m1, m2, m3, m4, m5, m6⟩ := hm
  have hrun : ∀ (evs : List KEv) (k : KSess), Runs selfIno upIno plus k evs → ∀ op o, .op op o ∈ evs → o.drop = false := by
    intro evs
    induction evs with
    | nil => intro k _ op o h; cases h
    | cons ev evs ih =>
      intro k hr op o h
      cases ev with
      | op op' o' =>
        rcases List.mem_cons.1 h with h | h
        · cases h; exact hr.1
        · exact ih _ hr.2.2 op o h
      | read size attr =>
        rcases List.mem_cons.1 h with h | h
        · cases h
        · exact ih _ hr.2 op o h
  have h10 := Dir.C10_stable_partial hash ops hd e.name e.ino e.dt i s e he rfl ⟨rfl, rfl⟩ h4 selfIno upIno (hdrLen plus)
    (evs.map evOf) (fun ev hm => by
      obtain ⟨kv, hk, rfl⟩ := List.mem_map.1 hm
      have := hev kv hk
      cases kv with
      | op op o => exact ⟨this, hrun evs _ hr op o hk⟩
      | read size attr =>
        show Dir.Big _ _
        have h : 414 ≤ size := this
        unfold Dir.Big hdrLen
        cases plus <;> simp <;> omega) (by rw [← m3]; exact hend)
  obtain ⟨off, h10⟩ := h10
  refine ⟨m4, ?_⟩
  rw [show (List.map seen _) = _ from m5, List.filter_map]
  have hf : ((Dir.Sess.start (Dir.run (Dir.Dir.fresh hash) ops).2).run selfIno upIno (hdrLen plus) (evs.map evOf)).rep.filter
      ((fun x : List Nat × Nat × Nat => decide (x.1 = e.name)) ∘ fun x => (x.name, x.ino, x.dt)) = [⟨e.name, e.ino, e.dt, off⟩] := by
    rw [← h10]
    apply List.filter_congr
    intro x hx
    simp only [Function.comp]
    rw [Bool.eq_iff_iff]
    simp only [decide_eq_true_eq]
    constructor
    · intro hn
      refine ⟨hn, ?_⟩
      rcases m6 x hx with h | h | h
      · exact h
      · exact absurd (hn.symm.trans h) hdot.1
      · exact absurd (hn.symm.trans h) hdot.2
    · exact fun h => h.1
  rw [hf]
  rfl

/-! ### A case -/

/-- A directory of one file. -/
def ops0 : List (Dir.Op × Dir.Orc) := [(.add [97] 7 8, Dir.Orc.good (fun _ => 0))]
def dir0 : Dir.Dir := (Dir.run (Dir.Dir.fresh (fun _ => 0)) ops0).2
/-- Inode 7 is a regular file, all others are directories. -/
def attr0 (ino : Nat) : St := { stZero ino with mode := if ino = 7 then 33188 else 16877, nlink := 1 }

theorem dir0_ents (i s : Nat) (e : Dir.Ent) (h : Dir.EntAt dir0.nodes i s e) : e.name = [97] ∧ e.ino = 7 ∧ e.dt = 8 := by
  have hr := (Dir.run_spec (Dir.Inv.fresh (fun _ => 0)) (Dir.Repr.fresh (fun _ => 0)) ops0 (by decide)).2.1
  have := (hr e.name e.ino e.dt).2 ⟨i, s, e, h, rfl, rfl, rfl⟩
  have hres : (Dir.run (Dir.Dir.fresh (fun _ => 0)) ops0).1 = [.ok ()] := by decide
  rw [hres] at this
  simp only [ops0, Dir.specRun, Dir.specStep] at this
  split at this
  · rename_i hn
    simp only [Option.some.injEq, Prod.mk.injEq] at this
    exact ⟨hn, this.1.symm, this.2.symm⟩
  · cases this

example : ∀ x ∈ ops0, ∀ nm ino dt, x.1 = .add nm ino dt → Good nm ino dt := by
  intro x hx nm ino dt h
  simp only [ops0, List.mem_singleton] at hx
  subst hx
  cases h
  exact ⟨by decide, by decide, by decide, by decide⟩

theorem attrs0 : Attrs dir0 1 1 attr0 := by
  have z : (0 : Nat) < 2 ^ 64 := by decide
  have y : (0 : Nat) < 2 ^ 32 := by decide
  have i0 : IsI64 0 := ⟨by decide, by decide⟩
  refine ⟨fun ino h => ⟨⟨h, z, z, i0, i0, i0, y, y, y, ?_, (by decide : 1 < 2 ^ 32), y, y, y, y, z⟩, rfl⟩,
    by decide, by decide, fun i s e he => ?_⟩
  · show (if ino = 7 then 33188 else 16877) < 2 ^ 32
    split <;> decide
  · obtain ⟨_, h2, h3⟩ := dir0_ents i s e he
    rw [h2, h3]; decide

example : ∃ i s e, Dir.EntAt dir0.nodes i s e ∧ Dir.depth i < 4 :=
  ⟨1, 0, ⟨0, [97], 7, 8⟩, ⟨_, rfl, by decide⟩, by rw [Dir.depth_le_one 1 (by omega)]; omega⟩

example : Runs 1 1 true (KSess.start dir0) [.read 4096 attr0] := ⟨fun _ => attrs0, trivial⟩

/-- Bytes of an entry and what the kernel takes. -/
example : kdirents 2 (direntBytes 7 (-1) 8 [97, 98] 6) = some [⟨[97, 98], 7, 8, -1⟩] := by decide
example : kdirents 2 (direntBytes 7 (-1) 8 [97, 47] 6) = none := by decide
example : unpack [] [97, 98, 0, 99, 0] = [[97, 98], [99]] := by decide

end Silofs.Emit
