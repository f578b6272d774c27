import Verif.Model.Strview
import Verif.Model.Mntconf
import Verif.Spec.Text
set_option linter.unusedSimpArgs false
set_option linter.unusedVariables false
/-
C59: the functions which cut texts read only inside their text and cut where the specification says.
-/
namespace Silofs.Sv

/-- `n` characters at `p`. -/
def bytesAt (b : Buf) (p n : Nat) : List Nat := (b.drop p).take n

/-- The characters of a view. -/
def bytes (b : Buf) (v : View) : List Nat := bytesAt b v.pos v.len

/-- The view lies inside the object, and is not longer than an object can be. -/
def Inside (b : Buf) (v : View) : Prop := v.pos + v.len ≤ b.length ∧ v.len < npos

/-- One view lies inside another. -/
def Within (u v : View) : Prop := v.pos ≤ u.pos ∧ u.pos + u.len ≤ v.pos + v.len

theorem Within.inside {b : Buf} {u v : View} (w : Within u v) (h : Inside b v) : Inside b u := by
  unfold Within at w
  unfold Inside at *
  omega

theorem length_bytesAt {b : Buf} {p n : Nat} (h : p + n ≤ b.length) : (bytesAt b p n).length = n := by
  simp [bytesAt]
  omega

theorem length_bytes {b : Buf} {v : View} (h : Inside b v) : (bytes b v).length = v.len :=
  length_bytesAt h.1

theorem bytesAt_succ {b : Buf} {p n : Nat} (h : p + (n + 1) ≤ b.length) :
    ∃ x, b[p]? = some x ∧ bytesAt b p (n + 1) = x :: bytesAt b (p + 1) n := by
  have hp : p < b.length := by omega
  refine ⟨b[p], List.getElem?_eq_getElem hp, ?_⟩
  simp only [bytesAt]
  rw [List.drop_eq_getElem_cons hp, List.take_succ_cons]

theorem bytesAt_last {b : Buf} {p n : Nat} (h : p + (n + 1) ≤ b.length) :
    ∃ x, b[p + n]? = some x ∧ bytesAt b p (n + 1) = bytesAt b p n ++ [x] := by
  have hp : p + n < b.length := by omega
  refine ⟨b[p + n], List.getElem?_eq_getElem hp, ?_⟩
  simp only [bytesAt]
  rw [List.take_succ, List.getElem?_drop, List.getElem?_eq_getElem hp]
  rfl

theorem bytesAt_add (b : Buf) (p i n : Nat) : bytesAt b (p + i) n = (bytesAt b p (i + n)).drop i := by
  simp only [bytesAt]
  rw [List.drop_take, List.drop_drop]
  congr 1
  omega

theorem bytesAt_take (b : Buf) (p k n : Nat) (h : k ≤ n) : bytesAt b p k = (bytesAt b p n).take k := by
  simp only [bytesAt, List.take_take]
  congr 1
  omega

/-- The forward loop finds the first character which passes. -/
theorem scan_eq (b : Buf) (f : Nat → Bool) (n p : Nat) (h : p + n ≤ b.length) :
    scan b f n p = some (if ((bytesAt b p n).takeWhile (fun x => !f x)).length < n
      then some (p + ((bytesAt b p n).takeWhile (fun x => !f x)).length) else none) := by
  induction n generalizing p with
  | zero => simp [scan]
  | succ n ih =>
    obtain ⟨x, hx, hb⟩ := bytesAt_succ h
    rw [scan, hx, hb]
    simp only
    by_cases hf : f x = true
    · simp [hf, List.takeWhile_cons]
    · rw [if_neg hf, ih (p + 1) (by omega)]
      have : (!f x) = true := by simpa using hf
      simp only [List.takeWhile_cons, this, if_true, List.length_cons]
      by_cases hl : ((bytesAt b (p + 1) n).takeWhile (fun x => !f x)).length < n
      · rw [if_pos hl, if_pos (by omega)]
        congr 2
        omega
      · rw [if_neg hl, if_neg (by omega)]

/-- The backward loop finds the last character which passes. -/
theorem scanBack_eq (b : Buf) (f : Nat → Bool) (n p : Nat) (h : p + n ≤ b.length) :
    scanBack b f n p = some (if ((bytesAt b p n).reverse.takeWhile (fun x => !f x)).length < n
      then some (p + n - 1 - ((bytesAt b p n).reverse.takeWhile (fun x => !f x)).length) else none) := by
  induction n generalizing p with
  | zero => simp [scanBack]
  | succ n ih =>
    obtain ⟨x, hx, hb⟩ := bytesAt_last h
    rw [scanBack, hx, hb]
    simp only [List.reverse_append, List.reverse_cons, List.reverse_nil, List.nil_append, List.singleton_append]
    by_cases hf : f x = true
    · simp [hf, List.takeWhile_cons]
    · rw [if_neg hf, ih p (by omega)]
      have : (!f x) = true := by simpa using hf
      simp only [List.takeWhile_cons, this, if_true, List.length_cons]
      by_cases hl : ((bytesAt b p n).reverse.takeWhile (fun x => !f x)).length < n
      · rw [if_pos hl, if_pos (by omega)]
        congr 2
        omega
      · rw [if_neg hl, if_neg (by omega)]

/-- The place of the first character at or after `pos` which passes. -/
theorem scan_offset {b : Buf} {v : View} (h : Inside b v) (f : Nat → Bool) (pos : Nat) (hp : pos < v.len) :
    ∃ r, scan b f (v.len - pos) (v.pos + pos) = some r ∧
      offset v r = (if (((bytes b v).drop pos).takeWhile (fun x => !f x)).length < v.len - pos
        then pos + (((bytes b v).drop pos).takeWhile (fun x => !f x)).length else npos) := by
  have hb : bytesAt b (v.pos + pos) (v.len - pos) = (bytes b v).drop pos := by
    rw [bytesAt_add]
    unfold bytes
    congr 2
    omega
  refine ⟨_, scan_eq b f _ _ (by unfold Inside at h; omega), ?_⟩
  rw [hb]
  by_cases hl : (((bytes b v).drop pos).takeWhile (fun x => !f x)).length < v.len - pos
  · rw [if_pos hl, if_pos hl]
    simp only [offset]
    rw [if_neg (by omega), if_neg (by omega)]
    omega
  · rw [if_neg hl, if_neg hl]
    rfl

theorem contains_one (s : List Nat) (h : s.length = 1) (x : Nat) : s.contains x = (x == s.headD 0) := by
  match s, h with
  | [a], _ =>
    show (x == a || false) = (x == a)
    exact Bool.or_false _

theorem findFirstOf_eq {b : Buf} {v : View} (h : Inside b v) (pos : Nat) (s : List Nat) (hs : s ≠ []) (hp : pos < v.len) :
    findFirstOf b v pos s = some (if (((bytes b v).drop pos).takeWhile (fun x => !s.contains x)).length < v.len - pos
        then pos + (((bytes b v).drop pos).takeWhile (fun x => !s.contains x)).length else npos) := by
  have hl : s.length ≠ 0 := fun e => hs (List.length_eq_zero_iff.mp e)
  unfold findFirstOf
  rw [if_pos ⟨hl, hp⟩]
  by_cases h1 : s.length = 1
  · rw [if_pos h1]
    obtain ⟨r, hr, ho⟩ := scan_offset h (fun x => x == s.headD 0) pos hp
    rw [hr]
    simp only [ho, contains_one s h1]
  · rw [if_neg h1]
    obtain ⟨r, hr, ho⟩ := scan_offset h (fun x => s.contains x) pos hp
    rw [hr]
    simp only [ho]

theorem findFirstNotOf_eq {b : Buf} {v : View} (h : Inside b v) (pos : Nat) (s : List Nat) (hs : s ≠ []) (hp : pos < v.len) :
    findFirstNotOf b v pos s = some (if (((bytes b v).drop pos).takeWhile (fun x => s.contains x)).length < v.len - pos
        then pos + (((bytes b v).drop pos).takeWhile (fun x => s.contains x)).length else npos) := by
  have hl : s.length ≠ 0 := fun e => hs (List.length_eq_zero_iff.mp e)
  unfold findFirstNotOf
  rw [if_pos hp, if_neg hl]
  by_cases h1 : s.length = 1
  · rw [if_pos h1]
    obtain ⟨r, hr, ho⟩ := scan_offset h (fun x => !(x == s.headD 0)) pos hp
    rw [hr]
    simp only [ho, contains_one s h1, Bool.not_not]
  · rw [if_neg h1]
    obtain ⟨r, hr, ho⟩ := scan_offset h (fun x => !s.contains x) pos hp
    rw [hr]
    simp only [ho, Bool.not_not]

theorem findChr_eq {b : Buf} {v : View} (h : Inside b v) (c : Nat) :
    findChr b v 0 c = some (if ((bytes b v).takeWhile (· != c)).length < v.len
        then ((bytes b v).takeWhile (· != c)).length else npos) := by
  unfold findChr
  by_cases hp : 0 < v.len
  · rw [if_pos hp]
    obtain ⟨r, hr, ho⟩ := scan_offset h (fun x => x == c) 0 hp
    rw [hr]
    simp only [ho, List.drop_zero, Nat.zero_add, Nat.sub_zero]
    rfl
  · rw [if_neg hp]
    simp only [offset]
    rw [if_neg (by omega)]

theorem findLastNotOf_eq {b : Buf} {v : View} (h : Inside b v) (s : List Nat) (hs : s ≠ []) :
    findLastNotOf b v v.len s = some (if ((bytes b v).reverse.takeWhile (fun x => s.contains x)).length < v.len
        then v.len - 1 - ((bytes b v).reverse.takeWhile (fun x => s.contains x)).length else npos) := by
  have hl : s.length ≠ 0 := fun e => hs (List.length_eq_zero_iff.mp e)
  have key : ∀ f : Nat → Bool, 0 < v.len → ∃ r, scanBack b f v.len v.pos = some r ∧
      offset v r = (if ((bytes b v).reverse.takeWhile (fun x => !f x)).length < v.len
        then v.len - 1 - ((bytes b v).reverse.takeWhile (fun x => !f x)).length else npos) := by
    intro f h0
    refine ⟨_, scanBack_eq b f _ _ h.1, ?_⟩
    show offset v (if ((bytes b v).reverse.takeWhile (fun x => !f x)).length < v.len
      then some (v.pos + v.len - 1 - ((bytes b v).reverse.takeWhile (fun x => !f x)).length) else none) = _
    by_cases hl : ((bytes b v).reverse.takeWhile (fun x => !f x)).length < v.len
    · rw [if_pos hl, if_pos hl]
      simp only [offset]
      rw [if_neg (by omega), if_neg (by omega)]
      omega
    · rw [if_neg hl, if_neg hl]
      rfl
  unfold findLastNotOf
  by_cases h0 : v.len = 0
  · rw [if_neg (by omega)]
    simp only [offset]
    rw [if_neg (by omega)]
  · rw [if_pos h0, if_neg hl, if_neg (Nat.lt_irrefl _)]
    by_cases h1 : s.length = 1
    · rw [if_pos h1]
      obtain ⟨r, hr, ho⟩ := key (fun x => !(x == s.headD 0)) (by omega)
      rw [hr]
      simp only [ho, contains_one s h1, Bool.not_not]
    · rw [if_neg h1]
      obtain ⟨r, hr, ho⟩ := key (fun x => !s.contains x) (by omega)
      rw [hr]
      simp only [ho, Bool.not_not]

/-- Part of a view. -/
theorem sub_within (v : View) (i n : Nat) : Within (sub v i n) v := by
  unfold Within sub
  simp only
  omega

theorem bytes_sub {b : Buf} {v : View} (h : Inside b v) (i n : Nat) :
    bytes b (sub v i n) = ((bytes b v).drop i).take n := by
  have hl := length_bytes h
  unfold Inside at h
  simp only [bytes, sub, bytesAt]
  rw [List.drop_take, List.take_take, List.drop_drop]
  by_cases hi : i ≤ v.len
  · rw [Nat.min_eq_left hi]
  · have e1 : min n (v.len - min i v.len) = 0 := by omega
    have e2 : min n (v.len - i) = 0 := by omega
    rw [e1, e2, List.take_zero, List.take_zero]

theorem takeWhile_len_le (p : Nat → Bool) (l : List Nat) : (l.takeWhile p).length ≤ l.length :=
  List.Sublist.length_le (List.takeWhile_sublist p)

theorem take_takeWhile (p : Nat → Bool) (l : List Nat) : l.take (l.takeWhile p).length = l.takeWhile p := by
  induction l with
  | nil => rfl
  | cons x l ih =>
    by_cases h : p x = true
    · simp [List.takeWhile_cons, h, ih]
    · simp [List.takeWhile_cons, h]

theorem drop_takeWhile (p : Nat → Bool) (l : List Nat) : l.drop (l.takeWhile p).length = l.dropWhile p := by
  induction l with
  | nil => rfl
  | cons x l ih =>
    by_cases h : p x = true
    · simp [List.takeWhile_cons, List.dropWhile_cons, h, ih]
    · simp [List.takeWhile_cons, List.dropWhile_cons, h]

theorem takeWhile_all {p : Nat → Bool} {l : List Nat} (h : l.length ≤ (l.takeWhile p).length) : l.takeWhile p = l ∧ l.dropWhile p = [] := by
  have e := drop_takeWhile p l
  rw [List.drop_eq_nil_of_le h] at e
  have t := take_takeWhile p l
  rw [List.take_of_length_le h] at t
  exact ⟨t.symm, e.symm⟩

/-- Cutting at a character. -/
theorem splitChr_spec {b : Buf} {v : View} (h : Inside b v) (c : Nat) :
    ∃ p, splitChr b v c = some p ∧ Within p.1 v ∧ Within p.2 v ∧
      (bytes b p.1, bytes b p.2) = Mnt.splitChr c (bytes b v) := by
  have hl := length_bytes h
  unfold splitChr
  rw [findChr_eq h]
  refine ⟨_, rfl, sub_within _ _ _, sub_within _ _ _, ?_⟩
  simp only [mkPair]
  rw [bytes_sub h, bytes_sub h, List.drop_zero]
  unfold Mnt.splitChr
  have hle := takeWhile_len_le (· != c) (bytes b v)
  by_cases hc : ((bytes b v).takeWhile (· != c)).length < v.len
  · simp only [if_pos hc]
    rw [take_takeWhile, List.take_of_length_le (by simp; omega), ← List.drop_drop, drop_takeWhile]
  · simp only [if_neg hc]
    have hall := takeWhile_all (p := (· != c)) (l := bytes b v) (by omega)
    unfold Inside at h
    rw [if_neg (by omega), List.take_of_length_le (by omega), List.drop_eq_nil_of_le (by omega), hall.1, hall.2, List.take_nil, List.drop_nil]

/-- Cutting at separators. -/
theorem split_spec {b : Buf} {v : View} (h : Inside b v) (seps : List Nat) (hs : seps ≠ []) :
    ∃ p, split b v seps = some p ∧ Within p.1 v ∧ Within p.2 v ∧
      bytes b p.1 = (bytes b v).takeWhile (fun x => !seps.contains x) ∧
      bytes b p.2 = ((bytes b v).dropWhile (fun x => !seps.contains x)).dropWhile (fun x => seps.contains x) := by
  have hl := length_bytes h
  have hle := takeWhile_len_le (fun x => !seps.contains x) (bytes b v)
  unfold split
  by_cases h0 : v.len = 0
  · have hb : bytes b v = [] := List.length_eq_zero_iff.mp (by omega)
    have hf : findFirstOf b v 0 seps = some npos := by
      unfold findFirstOf
      rw [if_neg (by omega)]
      rfl
    rw [hf]
    simp only
    rw [if_neg (by unfold Inside at h; omega)]
    refine ⟨_, rfl, sub_within _ _ _, sub_within _ _ _, ?_⟩
    simp only [mkPair]
    rw [bytes_sub h, bytes_sub h, hb]
    simp
  · rw [findFirstOf_eq h 0 seps hs (by omega)]
    simp only [List.drop_zero, Nat.zero_add, Nat.sub_zero]
    by_cases hc : ((bytes b v).takeWhile (fun x => !seps.contains x)).length < v.len
    · simp only [if_pos hc]
      rw [findFirstNotOf_eq h _ seps hs hc, drop_takeWhile]
      refine ⟨_, rfl, sub_within _ _ _, sub_within _ _ _, ?_⟩
      simp only [mkPair]
      rw [bytes_sub h, bytes_sub h, List.drop_zero, take_takeWhile]
      refine ⟨rfl, ?_⟩
      have hdl : ((bytes b v).dropWhile (fun x => !seps.contains x)).length
          = v.len - ((bytes b v).takeWhile (fun x => !seps.contains x)).length := by
        rw [← drop_takeWhile, List.length_drop, hl]
      by_cases hd : (((bytes b v).dropWhile (fun x => !seps.contains x)).takeWhile (fun x => seps.contains x)).length
          < v.len - ((bytes b v).takeWhile (fun x => !seps.contains x)).length
      · rw [if_pos hd, List.take_of_length_le (by simp; omega), ← List.drop_drop, drop_takeWhile, drop_takeWhile]
      · rw [if_neg hd]
        have hall := takeWhile_all (p := fun x => seps.contains x) (l := (bytes b v).dropWhile (fun x => !seps.contains x)) (by omega)
        rw [hall.2]
        unfold Inside at h
        rw [List.drop_eq_nil_of_le (by omega), List.take_nil]
    · simp only [if_neg hc]
      rw [if_neg (by unfold Inside at h; omega)]
      refine ⟨_, rfl, sub_within _ _ _, sub_within _ _ _, ?_⟩
      simp only [mkPair]
      have hall := takeWhile_all (p := fun x => !seps.contains x) (l := bytes b v) (by omega)
      rw [bytes_sub h, bytes_sub h, List.drop_zero, hall.1, hall.2]
      unfold Inside at h
      rw [List.take_of_length_le (by omega), List.drop_eq_nil_of_le (by omega), List.take_nil]
      exact ⟨rfl, rfl⟩

theorem trim_spec {b : Buf} {v : View} (h : Inside b v) (set : List Nat) (hs : set ≠ []) :
    ∃ u, trim b v set = some u ∧ Within u v ∧ bytes b u = (bytes b v).dropWhile (fun x => set.contains x) := by
  have hl := length_bytes h
  have hle := takeWhile_len_le (fun x => set.contains x) (bytes b v)
  unfold trim
  by_cases h0 : v.len = 0
  · have hb : bytes b v = [] := List.length_eq_zero_iff.mp (by omega)
    have hf : findFirstNotOf b v 0 set = some npos := by
      unfold findFirstNotOf
      rw [if_neg (by omega)]
      rfl
    rw [hf]
    refine ⟨_, rfl, sub_within _ _ _, ?_⟩
    rw [bytes_sub h, hb]
    simp
  · rw [findFirstNotOf_eq h 0 set hs (by omega)]
    simp only [List.drop_zero, Nat.zero_add, Nat.sub_zero]
    refine ⟨_, rfl, sub_within _ _ _, ?_⟩
    rw [bytes_sub h, List.take_of_length_le (by simp; omega)]
    by_cases hc : ((bytes b v).takeWhile (fun x => set.contains x)).length < v.len
    · rw [if_pos hc, drop_takeWhile]
    · have hall := takeWhile_all (p := fun x => set.contains x) (l := bytes b v) (by omega)
      unfold Inside at h
      rw [if_neg hc, hall.2, List.drop_eq_nil_of_le (by omega)]

theorem chop_spec {b : Buf} {v : View} (h : Inside b v) (set : List Nat) (hs : set ≠ []) :
    ∃ u, chop b v set = some u ∧ Within u v ∧
      bytes b u = ((bytes b v).reverse.dropWhile (fun x => set.contains x)).reverse := by
  have hl := length_bytes h
  have hle := takeWhile_len_le (fun x => set.contains x) (bytes b v).reverse
  rw [List.length_reverse, hl] at hle
  unfold chop
  rw [findLastNotOf_eq h set hs]
  refine ⟨_, rfl, sub_within _ _ _, ?_⟩
  rw [bytes_sub h, List.drop_zero, ← drop_takeWhile, List.drop_reverse, List.reverse_reverse, hl]
  by_cases hc : ((bytes b v).reverse.takeWhile (fun x => set.contains x)).length < v.len
  · simp only [if_pos hc]
    rw [if_pos (by omega)]
    congr 1
    omega
  · simp only [if_neg hc]
    rw [if_neg (by unfold Inside at h; omega)]
    congr 1
    omega

/-- Stripping. -/
theorem strip_spec {b : Buf} {v : View} (h : Inside b v) (set : List Nat) (hs : set ≠ []) :
    ∃ u, strip b v set = some u ∧ Within u v ∧
      bytes b u = (((bytes b v).dropWhile (fun x => set.contains x)).reverse.dropWhile (fun x => set.contains x)).reverse := by
  obtain ⟨u, hu, wu, eu⟩ := trim_spec h set hs
  obtain ⟨w, hw, ww, ew⟩ := chop_spec (wu.inside h) set hs
  refine ⟨w, ?_, ?_, ?_⟩
  · unfold strip
    rw [hu]
    exact hw
  · unfold Within at *
    omega
  · rw [ew, eu]

theorem isWs_contains (x : Nat) : ([32, 10, 9, 13, 11, 12] : List Nat).contains x = Mnt.isWs x := by
  simp only [List.contains_cons, List.contains_nil, Mnt.isWs, Bool.or_false, Bool.or_assoc]

theorem stripWs_spec {b : Buf} {v : View} (h : Inside b v) :
    ∃ u, stripWs b v = some u ∧ Within u v ∧ bytes b u = Mnt.stripWs (bytes b v) := by
  obtain ⟨u, hu, wu, eu⟩ := strip_spec h [32, 10, 9, 13, 11, 12] (fun e => nomatch e)
  refine ⟨u, hu, wu, ?_⟩
  rw [eu]
  unfold Mnt.stripWs
  have : (fun x => ([32, 10, 9, 13, 11, 12] : List Nat).contains x) = Mnt.isWs := funext isWs_contains
  rw [this]

theorem isSep_contains (x : Nat) : ([32, 9] : List Nat).contains x = Mnt.isSep x := by
  simp only [List.contains_cons, List.contains_nil, Mnt.isSep, Bool.or_false]

theorem splitSep_spec {b : Buf} {v : View} (h : Inside b v) :
    ∃ p, split b v [32, 9] = some p ∧ Within p.1 v ∧ Within p.2 v ∧
      (bytes b p.1, bytes b p.2) = Mnt.splitSep (bytes b v) := by
  obtain ⟨p, hp, w1, w2, e1, e2⟩ := split_spec h [32, 9] (fun e => nomatch e)
  refine ⟨p, hp, w1, w2, ?_⟩
  rw [e1, e2]
  unfold Mnt.splitSep
  simp only [isSep_contains]

theorem same_eq {b : Buf} {p : Nat} {s : List Nat} (h : p + s.length ≤ b.length) :
    same b p s = some (bytesAt b p s.length == s) := by
  unfold same
  rw [if_pos h]
  rfl

/-- The search finds the first place. -/
theorem findLoop_eq (b : Buf) (s : List Nat) (n p : Nat) (h : p + n + s.length ≤ b.length + 1) :
    ∃ r, findLoop b s n p = some r ∧
      match r with
      | none => ∀ i, i < n → bytesAt b (p + i) s.length ≠ s
      | some q => ∃ i, i < n ∧ q = p + i ∧ bytesAt b (p + i) s.length = s ∧ ∀ k, k < i → bytesAt b (p + k) s.length ≠ s := by
  induction n generalizing p with
  | zero => exact ⟨none, rfl, fun i hi => absurd hi (Nat.not_lt_zero i)⟩
  | succ n ih =>
    rw [findLoop, same_eq (by omega)]
    by_cases hb : bytesAt b p s.length = s
    · have : (bytesAt b p s.length == s) = true := by simpa using hb
      rw [this]
      exact ⟨some p, rfl, 0, by omega, rfl, hb, fun k hk => absurd hk (Nat.not_lt_zero k)⟩
    · have : (bytesAt b p s.length == s) = false := by simpa using hb
      rw [this]
      obtain ⟨r, hr, hm⟩ := ih (p + 1) (by omega)
      refine ⟨r, hr, ?_⟩
      cases r with
      | none =>
        intro i hi
        cases i with
        | zero => exact hb
        | succ i =>
          have := hm i (by omega)
          rwa [show p + (i + 1) = p + 1 + i by omega]
      | some q =>
        obtain ⟨i, hi, hq, he, hk⟩ := hm
        refine ⟨i + 1, by omega, by omega, ?_, ?_⟩
        · rwa [show p + (i + 1) = p + 1 + i by omega]
        · intro k hlt
          cases k with
          | zero => exact hb
          | succ k =>
            have := hk k (by omega)
            rwa [show p + (k + 1) = p + 1 + k by omega]

/-- An occurrence in the text of a view, by place. -/
theorem at_iff {b : Buf} {v : View} (h : Inside b v) (s : List Nat) (i : Nat) :
    (i + s.length ≤ v.len ∧ bytesAt b (v.pos + i) s.length = s) ↔
      (i ≤ v.len ∧ Text.At s (bytes b v) ((bytes b v).take i)) := by
  have hl := length_bytes h
  constructor
  · rintro ⟨h1, h2⟩
    refine ⟨by omega, (bytes b v).drop (i + s.length), ?_⟩
    have e : ((bytes b v).drop i).take s.length = s := by
      have e := h2
      rw [bytesAt_add, bytesAt_take _ _ _ v.len h1, List.drop_take, Nat.add_sub_cancel_left] at e
      exact e
    have e2 : (bytes b v).drop i = s ++ (bytes b v).drop (i + s.length) := by
      have := (List.take_append_drop s.length ((bytes b v).drop i)).symm
      rwa [e, List.drop_drop] at this
    have e3 := (List.take_append_drop i (bytes b v)).symm
    rwa [e2, ← List.append_assoc] at e3
  · rintro ⟨hi, r, hr⟩
    have hlen := congrArg List.length hr
    simp only [List.length_append, List.length_take] at hlen
    have hle : i + s.length ≤ v.len := by omega
    refine ⟨hle, ?_⟩
    rw [bytesAt_add, bytesAt_take _ _ _ v.len (by omega)]
    show (List.take (i + s.length) (bytes b v)).drop i = s
    have hti : ((bytes b v).take i).length = i := by
      rw [List.length_take]
      omega
    generalize (bytes b v).take i = t at hr hti
    rw [hr, List.take_left' (by simp; omega), List.drop_left' hti]

theorem at_take {s t h : List Nat} (a : Text.At s t h) : h = t.take h.length := by
  obtain ⟨r, hr⟩ := a
  rw [hr, List.append_assoc, List.take_left]

/-- Searching a text. -/
theorem find_spec {b : Buf} {v : View} (h : Inside b v) (s : List Nat) (hs : 1 < s.length) :
    ∃ i, find b v 0 s = some i ∧
      ((i < v.len ∧ Text.First s (bytes b v) ((bytes b v).take i)) ∨ (i = npos ∧ ∀ k, ¬ Text.At s (bytes b v) k)) := by
  have hl := length_bytes h
  have short : ∀ k, Text.At s (bytes b v) k → k.length + s.length ≤ v.len := by
    rintro k ⟨r, hr⟩
    have := congrArg List.length hr
    simp only [List.length_append] at this
    omega
  unfold find
  by_cases hp : 0 < v.len
  · rw [if_pos hp, if_pos hs]
    unfold strFind
    by_cases hn : s.length = 0 ∨ v.len - 0 < s.length
    · rw [if_pos hn]
      refine ⟨npos, rfl, Or.inr ⟨rfl, fun k hk => ?_⟩⟩
      have := short k hk
      omega
    · rw [if_neg hn]
      obtain ⟨r, hr, hm⟩ := findLoop_eq b s (v.len - 0 - s.length + 1) (v.pos + 0) (by unfold Inside at h; omega)
      rw [hr]
      simp only [Nat.add_zero, Nat.sub_zero] at hm ⊢
      cases r with
      | none =>
        refine ⟨npos, rfl, Or.inr ⟨rfl, fun k hk => ?_⟩⟩
        have hsh := short k hk
        rw [at_take hk] at hk
        exact hm k.length (by omega) ((at_iff h s k.length).mpr ⟨by omega, hk⟩).2
      | some q =>
        obtain ⟨i, hi, rfl, he, hk⟩ := hm
        refine ⟨i, ?_, Or.inl ⟨by omega, ?_, ?_⟩⟩
        · simp only [offset]
          rw [if_neg (by omega), if_neg (by omega)]
          congr 1
          omega
        · exact ((at_iff h s i).mp ⟨by omega, he⟩).2
        · intro h' ha
          have hsh := short h' ha
          rw [List.length_take, hl]
          by_cases hlt : h'.length < i
          · rw [at_take ha] at ha
            exact absurd ((at_iff h s h'.length).mpr ⟨by omega, ha⟩).2 (hk _ hlt)
          · omega
  · rw [if_neg hp]
    refine ⟨npos, rfl, Or.inr ⟨rfl, fun k hk => ?_⟩⟩
    have := short k hk
    omega

end Silofs.Sv
