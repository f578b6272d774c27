import Verif.Model.Idsmap
/-
C34: the mapping of ids, against the table as configured; C41: who may use a mounted file system.
-/
set_option linter.unusedSimpArgs false
set_option linter.unusedVariables false
namespace Silofs.Ids

/-! ### Specification -/

/-- The last entry of the configured table for a host id. -/
def lastHost (es : List Ent) (id : Nat) : Option Ent := es.reverse.find? (fun e => e.host == id)
/-- The last entry for a file-system id. -/
def lastFs (es : List Ent) (id : Nat) : Option Ent := es.reverse.find? (fun e => e.fs == id)

/-- No id stands in two entries. -/
def Injective (es : List Ent) : Prop :=
  (∀ a ∈ es, ∀ b ∈ es, a.host = b.host → a = b) ∧ (∀ a ∈ es, ∀ b ∈ es, a.fs = b.fs → a = b)

/-- The file-system ids of the table are not host ids that pass through. -/
def NoOverlap (es : List Ent) : Prop := ∀ a ∈ es, (∃ b ∈ es, b.host = a.fs)

/-! ### Bins -/

theorem scanHost_eq (id : Nat) (l : List Ent) : scanHost id l = l.find? (fun e => e.host == id) := by
  induction l with
  | nil => rfl
  | cons e es ih =>
    simp only [scanHost, List.find?_cons, ih]
    by_cases h : e.host = id
    · simp [h]
    · rw [if_neg h, show (e.host == id) = false by simpa using h]

theorem scanFs_eq (id : Nat) (l : List Ent) : scanFs id l = l.find? (fun e => e.fs == id) := by
  induction l with
  | nil => rfl
  | cons e es ih =>
    simp only [scanFs, List.find?_cons, ih]
    by_cases h : e.fs = id
    · simp [h]
    · rw [if_neg h, show (e.fs == id) = false by simpa using h]

/-- A table holds a configuration: every bin has its entries, the newest first. -/
def Holds (t : Tab) (es : List Ent) : Prop :=
  (∀ i, t.htof i = es.reverse.filter (fun e => slot e.host == i)) ∧
  (∀ i, t.ftoh i = es.reverse.filter (fun e => slot e.fs == i)) ∧ t.size = es.length

theorem holds_empty : Holds Tab.empty [] := ⟨fun _ => rfl, fun _ => rfl, rfl⟩

theorem holds_insert (t : Tab) (es : List Ent) (e : Ent) (h : Holds t es) : Holds (t.insert e) (es ++ [e]) := by
  obtain ⟨h1, h2, h3⟩ := h
  refine ⟨fun i => ?_, fun i => ?_, ?_⟩
  · show (if i = slot e.host then e :: t.htof i else t.htof i) = _
    rw [h1, List.reverse_append]
    by_cases hi : i = slot e.host
    · subst hi; simp
    · have : ¬ slot e.host = i := fun h => hi h.symm
      simp [hi, this]
  · show (if i = slot e.fs then e :: t.ftoh i else t.ftoh i) = _
    rw [h2, List.reverse_append]
    by_cases hi : i = slot e.fs
    · subst hi; simp
    · have : ¬ slot e.fs = i := fun h => hi h.symm
      simp [hi, this]
  · show t.size + 1 = _
    simp [h3]

theorem holds_populate (t t' : Tab) (es : List Ent) (l : List (Ent × Bool)) (h : Holds t es)
    (hp : populate t l = some t') : Holds t' (es ++ l.map (·.1)) := by
  induction l generalizing t es with
  | nil =>
    simp only [populate, Option.some.injEq] at hp
    subst hp
    simpa using h
  | cons x l ih =>
    obtain ⟨e, mem⟩ := x
    simp only [populate] at hp
    split at hp
    · have := ih _ _ (holds_insert t es e h) hp
      simpa using this
    · cases hp

theorem find_filter (p q : Ent → Bool) (l : List Ent) (h : ∀ e, p e = true → q e = true) :
    (l.filter q).find? p = l.find? p := by
  induction l with
  | nil => rfl
  | cons e es ih =>
    by_cases hq : q e = true
    · rw [List.filter_cons_of_pos hq, List.find?_cons, List.find?_cons, ih]
    · rw [List.filter_cons_of_neg hq, ih, List.find?_cons]
      have : p e = false := by
        cases hp : p e with
        | false => rfl
        | true => exact absurd (h e hp) hq
      rw [this]

theorem lookup_host (t : Tab) (es : List Ent) (h : Holds t es) (id : Nat) :
    scanHost id (t.htof (slot id)) = lastHost es id := by
  rw [scanHost_eq, h.1, find_filter]
  · rfl
  · intro e he
    simp only [beq_iff_eq] at he ⊢
    rw [he]

theorem lookup_fs (t : Tab) (es : List Ent) (h : Holds t es) (id : Nat) :
    scanFs id (t.ftoh (slot id)) = lastFs es id := by
  rw [scanFs_eq, h.2.1, find_filter]
  · rfl
  · intro e he
    simp only [beq_iff_eq] at he ⊢
    rw [he]

/-! ### C34 -/

/-- What mapping an id must give for a configured table: the other id of the last entry with it; without an entry, the
id itself if the policy allows, a refusal otherwise; the null id is not touched. -/
def MapSpec (look : Nat → Option Ent) (other : Ent → Nat) (allow : Bool) (id : Option Nat) (out : Out) : Prop :=
  match id with
  | none => out = ⟨none, true⟩
  | some id =>
    match look id with
    | some e => out = ⟨some (other e), true⟩
    | none => out = ⟨some id, allow⟩

/-- C34. For every configured table (duplicates or not) and every id, in both directions. -/
theorem C34_map (l : List (Ent × Bool)) (t : Tab) (allow : Bool) (id : Option Nat)
    (h : populate Tab.empty l = some t) :
    MapSpec (lastHost (l.map (·.1))) (·.fs) allow id (t.map allow id) ∧
    MapSpec (lastFs (l.map (·.1))) (·.host) allow id (t.rmap allow id) := by
  have hh := holds_populate Tab.empty t [] l holds_empty h
  rw [List.nil_append] at hh
  cases id with
  | none => exact ⟨rfl, rfl⟩
  | some id =>
    simp only [MapSpec, Tab.map, Tab.rmap, lookup_host t _ hh, lookup_fs t _ hh]
    constructor
    · cases lastHost (l.map (·.1)) id <;> rfl
    · cases lastFs (l.map (·.1)) id <;> rfl

/-- Mapping there and back. -/
def RoundTrip (t : Tab) (allow : Bool) : Prop :=
  ∀ h f, t.map allow (some h) = ⟨some f, true⟩ → t.rmap allow (some f) = ⟨some h, true⟩

theorem last_mem {p : Ent → Bool} {es : List Ent} {e : Ent} (h : es.reverse.find? p = some e) : e ∈ es ∧ p e = true :=
  ⟨List.mem_reverse.1 (List.mem_of_find?_eq_some h), List.find?_some h⟩

theorem last_none {p : Ent → Bool} {es : List Ent} (h : es.reverse.find? p = none) : ∀ e ∈ es, p e = false := by
  intro e he
  have := List.find?_eq_none.1 h e (List.mem_reverse.2 he)
  simpa using this

/-- C34 (partial). Ids round-trip if no id stands in two entries, and, if ids without an entry pass through, the
table permutes its ids.  Missing: other tables, which the configuration accepts. -/
theorem C34_roundtrip_partial (l : List (Ent × Bool)) (t : Tab) (allow : Bool)
    (h : populate Tab.empty l = some t) (hi : Injective (l.map (·.1)))
    (ho : allow = true → NoOverlap (l.map (·.1))) : RoundTrip t allow := by
  have hh := holds_populate Tab.empty t [] l holds_empty h
  rw [List.nil_append] at hh
  generalize l.map (·.1) = es at hh hi ho
  intro h f hm
  simp only [Tab.map, Tab.rmap, lookup_host t _ hh, lookup_fs t _ hh] at hm ⊢
  cases e1 : lastHost es h with
  | some e =>
    simp only [e1, Out.mk.injEq, Option.some.injEq, and_true] at hm
    obtain ⟨m1, p1⟩ := last_mem e1
    simp only [beq_iff_eq] at p1
    cases e2 : lastFs es f with
    | none =>
      have := last_none e2 e m1
      simp [hm] at this
    | some e' =>
      obtain ⟨m2, p2⟩ := last_mem e2
      simp only [beq_iff_eq] at p2
      have : e' = e := hi.2 e' m2 e m1 (by rw [p2, hm])
      rw [this]
      simp [p1]
  | none =>
    simp only [e1, Out.mk.injEq, Option.some.injEq] at hm
    obtain ⟨hf, ha⟩ := hm
    subst hf
    cases e2 : lastFs es h with
    | none => simp [ha]
    | some e' =>
      obtain ⟨m2, p2⟩ := last_mem e2
      simp only [beq_iff_eq] at p2
      obtain ⟨b, hb, hbh⟩ := ho ha e' m2
      have := last_none e1 b hb
      simp only [beq_eq_false_iff_ne, ne_eq] at this
      exact absurd (hbh.trans p2) this

/-- Different host users are different users of the file system. -/
def Separate (t : Tab) (allow : Bool) : Prop :=
  ∀ h h' f, t.map allow (some h) = ⟨some f, true⟩ → t.map allow (some h') = ⟨some f, true⟩ → h = h'

/-- C34 (partial). Under the same conditions. -/
theorem C34_separate_partial (l : List (Ent × Bool)) (t : Tab) (allow : Bool)
    (h : populate Tab.empty l = some t) (hi : Injective (l.map (·.1)))
    (ho : allow = true → NoOverlap (l.map (·.1))) : Separate t allow := by
  intro a b f ha hb
  have r := C34_roundtrip_partial l t allow h hi ho
  have e := (r a f ha).symm.trans (r b f hb)
  simpa using e

/-- C34 (violated). Two entries with one host id: the owner of a file is shown as another user's id.  Table: 5 ↔ 7,
6 ↔ 7; host user 5 appears as 6. -/
theorem C34_duplicate_violated : ∃ (l : List (Ent × Bool)) (t : Tab),
    populate Tab.empty l = some t ∧ ¬ RoundTrip t false ∧ ¬ Separate t false := by
  refine ⟨[(⟨5, 7⟩, true), (⟨6, 7⟩, true)], _, rfl, ?_, ?_⟩
  · intro h
    exact absurd (h 5 7 (by decide)) (by decide)
  · intro h
    exact absurd (h 5 6 7 (by decide) (by decide)) (by decide)

/-- C34 (violated). One entry 5 ↔ 6 with pass-through: host users 5 and 6 are one user of the file system. -/
theorem C34_overlap_violated : ∃ (l : List (Ent × Bool)) (t : Tab),
    populate Tab.empty l = some t ∧ Injective (l.map (·.1)) ∧ ¬ RoundTrip t true ∧ ¬ Separate t true := by
  refine ⟨[(⟨5, 6⟩, true)], _, rfl, ?_, ?_, ?_⟩
  · constructor <;> intro a ha b hb _ <;> simp at ha hb <;> rw [ha, hb]
  · intro h
    exact absurd (h 6 6 (by decide)) (by decide)
  · intro h
    exact absurd (h 5 6 6 (by decide) (by decide)) (by decide)

/-- What is shown as owner of a file is a host user whose id in the file system is the owner's. -/
def ShownRight (m : Map) : Prop :=
  ∀ uid gid h, (m.shown uid gid).1 = some h → m.u.map m.allow (some h) = ⟨some uid, true⟩

/-- C34 (violated). An owner without an entry is shown under the same number although no host user maps to it, also
without pass-through: with the table 5 ↔ 7, a file of user 5 in the file system is shown as one of host user 5. -/
theorem C34_shown_violated : ∃ m : Map, m.allow = false ∧
    populate Tab.empty [(⟨5, 7⟩, true)] = some m.u ∧ ¬ ShownRight m := by
  refine ⟨⟨_, Tab.empty, false⟩, rfl, rfl, ?_⟩
  intro h
  exact absurd (h 5 0 5 (by decide)) (by decide)

/-- C34 (partial). Right for owners with an entry, if no id stands in two. -/
theorem C34_shown_partial (l : List (Ent × Bool)) (m : Map) (h : populate Tab.empty l = some m.u)
    (hi : Injective (l.map (·.1))) (uid gid : Nat) (hs : ∃ e ∈ l.map (·.1), e.fs = uid) :
    ∃ hid, (m.shown uid gid).1 = some hid ∧ m.u.map m.allow (some hid) = ⟨some uid, true⟩ := by
  have hh := holds_populate Tab.empty m.u [] l holds_empty h
  rw [List.nil_append] at hh
  generalize l.map (·.1) = es at hh hi hs
  obtain ⟨e, he, hf⟩ := hs
  simp only [Map.shown, Tab.map, Tab.rmap, lookup_host m.u _ hh, lookup_fs m.u _ hh]
  cases e2 : lastFs es uid with
  | none =>
    have := last_none e2 e he
    simp [hf] at this
  | some e' =>
    obtain ⟨m2, p2⟩ := last_mem e2
    simp only [beq_iff_eq] at p2
    refine ⟨e'.host, rfl, ?_⟩
    cases e1 : lastHost es e'.host with
    | none =>
      have := last_none e1 e' m2
      simp at this
    | some e'' =>
      obtain ⟨m3, p3⟩ := last_mem e1
      simp only [beq_iff_eq] at p3
      have : e'' = e' := hi.1 e'' m3 e' m2 p3
      rw [this]
      simp [p2]

example : Injective [⟨5, 7⟩, ⟨7, 5⟩, ⟨514, 9⟩] ∧ NoOverlap [⟨5, 7⟩, ⟨7, 5⟩] := by
  constructor
  · constructor <;> intro a ha b hb <;> simp at ha hb <;>
      rcases ha with h | h | h <;> rcases hb with h' | h' | h' <;> subst h <;> subst h' <;> simp
  · intro a ha
    simp at ha
    rcases ha with h | h <;> subst h <;> simp

/-- Ids in the same bin: 5 and 514. -/
example : ((populate Tab.empty [(⟨5, 7⟩, true), (⟨514, 8⟩, true)]).map (fun t => (t.map false (some 5)).id)) =
    some (some 7) := by decide

/-! ### C41 -/

/-- Who may use a mount: its owner; root, if root is allowed; everybody, if others are allowed. -/
def Allowed (m : Mnt) (uid : Nat) : Prop := uid = m.owner ∨ (m.admin = true ∧ uid = 0) ∨ m.other = true

/-- C41. A request of a process runs exactly if the mount is open to its user and both of its ids map, and then with
the mapped ids. -/
theorem C41_process (m : Mnt) (r : Req) (hk : r.kwrite = false) (hp : r.pid ≠ 0) (u g : Option Nat) :
    start m r = some (u, g) ↔
      Allowed m r.uid ∧ m.ids.u.map m.ids.allow (some r.uid) = ⟨u, true⟩ ∧
        m.ids.g.map m.ids.allow (some r.gid) = ⟨g, true⟩ := by
  have hkn : isKernel r = false := by simp [isKernel, hk, hp]
  have ha : authorize m r = true ↔ Allowed m r.uid := by
    simp [authorize, hkn, Allowed, or_assoc]
  simp only [start, mapCreds, hkn, Map.both]
  by_cases h : authorize m r = true
  · rw [if_pos h]
    generalize m.ids.u.map m.ids.allow (some r.uid) = a
    generalize m.ids.g.map m.ids.allow (some r.gid) = b
    obtain ⟨ai, aok⟩ := a
    obtain ⟨bi, bok⟩ := b
    simp [← ha, h]
    cases aok <;> cases bok <;> simp
  · rw [if_neg h]
    simp [← ha, h]

/-- C41. A process runs as root of the file system only if its user maps to root: a user of the host without privileges
gets them only by an entry of the table. -/
theorem C41_root (m : Mnt) (r : Req) (l : List (Ent × Bool)) (ht : populate Tab.empty l = some m.ids.u)
    (hk : r.kwrite = false) (hp : r.pid ≠ 0) (g : Option Nat) (hs : start m r = some (some 0, g)) (hu : r.uid ≠ 0) :
    ⟨r.uid, 0⟩ ∈ l.map (·.1) := by
  have h := ((C41_process m r hk hp _ _).1 hs).2.1
  have hh := holds_populate Tab.empty m.ids.u [] l holds_empty ht
  rw [List.nil_append] at hh
  simp only [Tab.map, lookup_host _ _ hh] at h
  cases e1 : lastHost (l.map (·.1)) r.uid with
  | none =>
    simp only [e1, Out.mk.injEq, Option.some.injEq] at h
    exact absurd h.1 hu
  | some e =>
    obtain ⟨m1, p1⟩ := last_mem e1
    simp only [beq_iff_eq] at p1
    simp only [e1, Out.mk.injEq, Option.some.injEq] at h
    have : e = ⟨r.uid, 0⟩ := by
      cases e
      simp_all
    rw [← this]
    exact m1

/-- A request without a process that is not of the kernel's own ids is checked like any other. -/
theorem C41_no_pid (m : Mnt) (r : Req) (hk : r.kwrite = false) (hu : r.uid ≠ 0 ∨ r.gid ≠ 0)
    (hs : (start m r).isSome = true) : Allowed m r.uid := by
  have hkn : isKernel r = false := by
    simp only [isKernel, hk]
    by_cases hp : r.pid = 0
    · rcases hu with h | h <;> simp [hp, h]
    · simp [hp]
  simp only [start] at hs
  split at hs
  · rename_i h
    simpa [authorize, hkn, Allowed, or_assoc] using h
  · cases hs

example : start ⟨5, false, false, ⟨Tab.empty.insert ⟨5, 7⟩, Tab.empty.insert ⟨6, 8⟩, false⟩⟩ ⟨5, 6, 99, false⟩ =
    some (some 7, some 8) := by decide
example : start ⟨5, false, false, ⟨Tab.empty, Tab.empty, true⟩⟩ ⟨4, 6, 99, false⟩ = none := by decide

end Silofs.Ids
