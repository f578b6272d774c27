import Verif.Props.Mntinfo
import Verif.Props.ReportShow
import Verif.Props.ReportStat
import Verif.Props.Addr
set_option linter.unusedSimpArgs false
set_option linter.unusedVariables false
/-
C66: what `silofs lsmnt` lists and what `silofs rmfs` refuses.
-/
namespace Silofs.Mi
open Silofs.Sv Silofs.MiSpec

/-- What is known of a mount. -/
def entry (m : Mount) : Mnt := ⟨esc m.dir, m.super⟩

theorem strLen_pad (f : List Nat) (h0 : 0 ∉ f) (n : Nat) (hn : 0 < n) :
    strLen (f ++ List.replicate n 0) = some f.length := by
  obtain ⟨n, rfl⟩ : ∃ k, n = k + 1 := ⟨n - 1, by omega⟩
  unfold strLen
  rw [if_pos (by rw [List.replicate_succ]; simp)]
  congr 1
  rw [List.takeWhile_append_of_pos (fun x hx => by
    have : x ≠ 0 := fun e => h0 (e ▸ hx)
    simpa using this), List.replicate_succ, List.takeWhile_cons_of_neg (by simp), List.append_nil]

theorem strLen_le {b : Buf} {n : Nat} (h : strLen b = some n) : n ≤ b.length := by
  unfold strLen at h
  split at h
  · cases h
    exact takeWhile_len_le _ _
  · exact absurd h (by simp)

/-- Whatever a file shorter than 1 MiB holds, no byte outside the buffer is read. -/
theorem C66_safe (f : List Nat) (hf : f.length < 1048576) (pg : Nat) (hpg : 0 < pg) (as : Nat → Ans)
    (has : ∀ n, ∃ k, as n = .upto k) : ∃ l, parseMountinfo f pg as = .ok (some l) := by
  unfold parseMountinfo
  rw [readInfo_ok f pg hpg as has]
  simp only
  have hb : BSZ = 1048576 := rfl
  generalize hbb : f.take BSZ ++ List.replicate (BSZ - f.length) 0 = b
  have hl : b.length = 1048576 := by
    rw [← hbb, List.length_append, List.length_take, List.length_replicate]; omega
  have h0 : 0 ∈ b := by
    rw [← hbb]
    obtain ⟨n, hn⟩ : ∃ n, BSZ - f.length = n + 1 := ⟨BSZ - f.length - 1, by omega⟩
    rw [hn, List.replicate_succ]; simp
  obtain ⟨n, hn⟩ : ∃ n, strLen b = some n := by unfold strLen; rw [if_pos h0]; exact ⟨_, rfl⟩
  have hnl := strLen_le hn
  have hv : Inside b ⟨0, n⟩ := ⟨by simp only; omega, by simp only [npos]; omega⟩
  unfold parseInto
  rw [hn]
  simp only
  obtain ⟨p, hp, w1, w2, _⟩ := splitChr_spec hv 10
  rw [hp]
  simp only
  obtain ⟨r, hr⟩ := parseLoop_some hv (n + 2) p.1 p.2 w1 w2 []
  exact ⟨r, by rw [hr]⟩

/-- A list of mounts of 1 MiB or more is read past the end of the buffer. -/
theorem C66_safe_violated (f : List Nat) (hf : 1048576 ≤ f.length) (h0 : 0 ∉ f) (pg : Nat) (hpg : 0 < pg)
    (as : Nat → Ans) (has : ∀ n, ∃ k, as n = .upto k) : parseMountinfo f pg as = .ok none := by
  unfold parseMountinfo
  rw [readInfo_ok f pg hpg as has]
  simp only
  have hb : BSZ = 1048576 := rfl
  rw [show BSZ - f.length = 0 by omega, List.replicate_zero, List.append_nil]
  unfold parseInto strLen
  rw [if_neg (fun h => h0 (List.mem_of_mem_take h))]

example : ∃ f : List Nat, 1048576 ≤ f.length ∧ 0 ∉ f :=
  ⟨List.replicate 1048576 97, by rw [List.length_replicate]; exact Nat.le_refl _, by
    intro h; exact absurd (List.eq_of_mem_replicate h) (by decide)⟩

/-- A read which fails ends the program. -/
theorem C66_read_error (f : List Nat) (pg : Nat) (as : Nat → Ans) (e : Nat)
    (h : parseMountinfo f pg as = .error e) : ∃ n, as n = .err e := by
  unfold parseMountinfo readInfo at h
  split at h
  · rename_i e' he
    split at he
    · rename_i e2 he2
      cases he
      cases h
      exact readLoop_err _ _ _ _ _ _ _ he2
    · exact absurd he (by simp)
  · exact absurd h (by simp)

theorem text_length (ms : List Mount) (m : Mount) (hm : m ∈ ms) : (line m).length < (text ms).length := by
  induction ms with
  | nil => exact absurd hm (by simp)
  | cons a ms ih =>
    rw [text, List.flatMap_cons, List.length_append, List.length_append]
    rcases List.mem_cons.mp hm with rfl | h
    · simp only [List.length_cons, List.length_nil]; omega
    · have := ih h
      unfold text at this
      omega

theorem text_count (ms : List Mount) : ms.length ≤ (text ms).length := by
  induction ms with
  | nil => exact Nat.le_refl _
  | cons a ms ih =>
    rw [text, List.flatMap_cons, List.length_append, List.length_append]
    unfold text at ih
    simp only [List.length_cons, List.length_nil]
    omega

theorem line_ne (m : Mount) : line m ≠ [] := by
  unfold line
  intro h
  have := congrArg List.length h
  simp only [List.length_append, List.length_cons, List.length_nil] at this
  omega

/-- The list has the mounts whose lines have the text "fuse.silofs", the last one first, each with
the directory as it is written in the file and the options. -/
theorem C66_list (ms : List Mount) (hok : ∀ m ∈ ms, Ok m) (hf : (text ms).length < 1048576)
    (pg : Nat) (hpg : 0 < pg) (as : Nat → Ans) (has : ∀ n, ∃ k, as n = .upto k) :
    parseMountinfo (text ms) pg as =
      .ok (some ((ms.filter (fun m => decide (Mentions m))).map entry).reverse) := by
  unfold parseMountinfo
  rw [readInfo_ok _ pg hpg as has]
  simp only
  have hb : BSZ = 1048576 := rfl
  have h0 : 0 ∉ text ms := by
    intro h
    unfold text at h
    rw [List.mem_flatMap] at h
    obtain ⟨m, hm, h⟩ := h
    rw [List.mem_append] at h
    rcases h with h | h
    · exact line_not_mem (hok m hm) 0 (Or.inl rfl) h
    · exact absurd h (by decide)
  rw [List.take_of_length_le (by omega)]
  generalize hbb : text ms ++ List.replicate (BSZ - (text ms).length) 0 = b
  have hn : strLen b = some (text ms).length := by
    rw [← hbb]; exact strLen_pad _ h0 _ (by omega)
  have hnl := strLen_le hn
  have hv : Inside b ⟨0, (text ms).length⟩ := ⟨by simp only; omega, by simp only [npos]; omega⟩
  have hbt : bytes b ⟨0, (text ms).length⟩ = text ms := by
    unfold bytes bytesAt
    simp only [List.drop_zero]
    rw [← hbb, List.take_left]
  unfold parseInto
  rw [hn]
  simp only
  obtain ⟨p, hp, w1, w2, e⟩ := splitChr_spec hv 10
  rw [hp]
  simp only
  rw [hbt] at e
  have ex : ∀ (m : Mount), m ∈ ms → newMntinfo (line m) ⟨0, (line m).length⟩ = some (entry m) := by
    intro m hm
    have := text_length ms m hm
    refine newMntinfo_line (v := ⟨0, (line m).length⟩) ⟨by simp, by simp only [npos]; omega⟩ (hok m hm) ?_
    unfold bytes bytesAt
    simp
  have key := parseLoop_text hv (fun x => (newMntinfo x ⟨0, x.length⟩).getD ⟨[], []⟩) (ms.map line)
    (by
      intro x hx
      obtain ⟨m, hm, rfl⟩ := List.mem_map.mp hx
      exact ⟨line_ne m, line_not_mem (hok m hm) 10 (Or.inr rfl)⟩)
    (by
      intro x hx _ u hu he
      obtain ⟨m, hm, rfl⟩ := List.mem_map.mp hx
      rw [newMntinfo_line hu (hok m hm) he]
      show _ = some ((newMntinfo (line m) ⟨0, (line m).length⟩).getD ⟨[], []⟩)
      rw [ex m hm]
      rfl)
    ((text ms).length + 2) p.1 p.2 w1 w2 []
    (by
      rw [e]
      congr 1
      unfold text
      rw [List.flatMap_map])
    (by rw [List.length_map]; have := text_count ms; omega)
  rw [key, List.append_nil, List.filter_map, List.map_map]
  congr 2
  congr 1
  apply List.map_congr_left
  intro m hm
  have hm' := (List.mem_filter.mp hm).1
  show (newMntinfo (line m) ⟨0, (line m).length⟩).getD ⟨[], []⟩ = entry m
  rw [ex m hm']
  rfl

/-! ### The listing -/

/-- A path which is written as it is. -/
def Clean (p : List Nat) : Prop := ∀ c ∈ p, c ≠ 32 ∧ c ≠ 9 ∧ c ≠ 10 ∧ c ≠ 92

theorem esc_clean {p : List Nat} (h : Clean p) : esc p = p := by
  induction p with
  | nil => rfl
  | cons a p ih =>
    have ha := h a (by simp)
    rw [esc, if_neg (by omega), ih (fun c hc => h c (by simp [hc]))]
    rfl

theorem mentions_of_type (m : Mount) (h : m.fstype = silofsType) : Mentions m := by
  refine ⟨spaced (m.ids ++ [esc m.root, esc m.dir] ++ m.opts) ++ [32, 45, 32], 32 :: spaced [m.source, m.super], ?_⟩
  unfold line
  rw [h]
  simp only [spaced, List.append_assoc, List.cons_append]

/-- `silofs lsmnt`, when the text "fuse.silofs" is only in lines of silofs and the directories have
no blanks and backslashes: the directories of all mounts of silofs and of no other, each on its line,
the last mounted first.  Missing for the full claim: other mounts are told apart by their type
(`C66_others_violated`), and every directory is shown by its name (`C66_blank_violated`). -/
theorem C66_short_partial (ms : List Mount) (hok : ∀ m ∈ ms, Ok m) (hf : (text ms).length < 1048576)
    (pg : Nat) (hpg : 0 < pg) (as : Nat → Ans) (has : ∀ n, ∃ k, as n = .upto k)
    (hty : ∀ m ∈ ms, Mentions m → m.fstype = silofsType)
    (hcl : ∀ m ∈ ms, m.fstype = silofsType → Clean m.dir) (os : Os) :
    ∃ l, parseMountinfo (text ms) pg as = .ok (some l) ∧
      lsmnt os false l =
        ((ms.filter (fun m => decide (m.fstype = silofsType))).reverse.map (fun m => m.dir ++ [10])).flatten := by
  refine ⟨_, C66_list ms hok hf pg hpg as has, ?_⟩
  have hfil : ms.filter (fun m => decide (Mentions m)) = ms.filter (fun m => decide (m.fstype = silofsType)) := by
    apply List.filter_congr
    intro m hm
    have : Mentions m ↔ m.fstype = silofsType := ⟨hty m hm, mentions_of_type m⟩
    simp only [this]
  rw [hfil, ← List.map_reverse]
  unfold lsmnt
  rw [List.flatMap_map, List.flatMap_def]
  congr 1
  apply List.map_congr_left
  intro m hm
  have h2 := List.mem_filter.mp (List.mem_reverse.mp hm)
  have h3 : m.fstype = silofsType := by simpa using h2.2
  show (if false = true then _ else lsShort (entry m)) = _
  rw [if_neg (by decide)]
  unfold lsShort entry
  simp only
  rw [esc_clean (hcl m h2.1 h3)]

/-- Every mount of silofs is in the list, whatever its directory. -/
theorem C66_none_missing (ms : List Mount) (hok : ∀ m ∈ ms, Ok m) (hf : (text ms).length < 1048576)
    (pg : Nat) (hpg : 0 < pg) (as : Nat → Ans) (has : ∀ n, ∃ k, as n = .upto k) :
    ∃ l, parseMountinfo (text ms) pg as = .ok (some l) ∧
      ∀ m ∈ ms, m.fstype = silofsType → (⟨esc m.dir, m.super⟩ : Mnt) ∈ l := by
  refine ⟨_, C66_list ms hok hf pg hpg as has, fun m hm ht => ?_⟩
  rw [List.mem_reverse, List.mem_map]
  exact ⟨m, List.mem_filter.mpr ⟨hm, by simpa using mentions_of_type m ht⟩, rfl⟩

/-- The texts `36 35 0:50 / /mnt rw,nosuid shared:7 - fuse.silofs silofs rw,user_id=0`. -/
def sample (dir fstype : List Nat) : Mount :=
  ⟨[[51, 54], [51, 53], [48, 58, 53, 48]], [47], dir, [[114, 119], [115, 104, 58, 55]], fstype, [115, 105, 108, 111],
    [114, 119]⟩

theorem sample_ok (dir fstype : List Nat) (hd : Path dir) (ht : Word fstype) : Ok (sample dir fstype) := by
  have w : ∀ x : List Nat, x ∈ [[51, 54], [51, 53], [48, 58, 53, 48], [114, 119], [115, 104, 58, 55], [115, 105, 108, 111]] → Word x := by
    unfold Word Plain
    decide
  refine ⟨⟨rfl, fun x hx => w x ?_⟩, ⟨rfl, ?_⟩, hd, fun x hx => w x ?_, ht, w [115, 105, 108, 111] (by decide), w [114, 119] (by decide)⟩
  · simp only [sample, List.mem_cons, List.not_mem_nil, or_false] at hx ⊢
    rcases hx with h | h | h <;> simp [h]
  · simp [sample]
  · simp only [sample, List.mem_cons, List.not_mem_nil, or_false] at hx ⊢
    rcases hx with h | h <;> simp [h]

/-- "/a b" -/
def dirBlank : List Nat := [47, 97, 32, 98]

theorem dirBlank_path : Path dirBlank := ⟨rfl, by unfold dirBlank; decide⟩

theorem silofsType_word : Word silofsType := by unfold Word Plain silofsType; decide

/-- A silofs mounted at "/a b": `lsmnt` prints a name, "/a\040b", which is not that of the directory,
and `lsmnt --long` prints an empty line although the directory can be opened and answers. -/
theorem C66_blank_violated (os : Os) (pg : Nat) (hpg : 0 < pg) (as : Nat → Ans)
    (has : ∀ n, ∃ k, as n = .upto k) (hos : os.openDir (esc dirBlank) = .error 2) :
    ∃ l, parseMountinfo (text [sample dirBlank silofsType]) pg as = .ok (some l) ∧
      lsmnt os false l ≠ dirBlank ++ [10] ∧ lsmnt os true l = [10] := by
  refine ⟨_, C66_list _ (fun m hm => ?_) (by decide) pg hpg as has, ?_⟩
  · simp only [List.mem_cons, List.not_mem_nil, or_false] at hm
    subst hm
    exact sample_ok _ _ dirBlank_path silofsType_word
  · have e : ((([sample dirBlank silofsType].filter (fun m => decide (Mentions m))).map entry).reverse) =
        [⟨[47, 97, 92, 48, 52, 48, 98], [114, 119]⟩] := by decide +kernel
    rw [e]
    have he : os.openDir [47, 97, 92, 48, 52, 48, 98] = .error 2 := hos
    refine ⟨?_, ?_⟩
    · show ([47, 97, 92, 48, 52, 48, 98] ++ [10] : List Nat) ≠ [47, 97, 32, 98] ++ [10]
      decide
    unfold lsmnt
    simp only [List.flatMap_cons, List.flatMap_nil, List.append_nil, if_pos]
    unfold lsLong
    simp only
    rw [he]

/-- Another file-system mounted at "/fuse.silofs" is listed as if it was silofs. -/
theorem C66_others_violated (os : Os) (pg : Nat) (hpg : 0 < pg) (as : Nat → Ans)
    (has : ∀ n, ∃ k, as n = .upto k) :
    ∃ l, parseMountinfo (text [sample (47 :: silofsType) [116, 109, 112, 102, 115]]) pg as = .ok (some l) ∧
      lsmnt os false l = 47 :: silofsType ++ [10] := by
  refine ⟨_, C66_list _ (fun m hm => ?_) (by decide) pg hpg as has, ?_⟩
  · simp only [List.mem_cons, List.not_mem_nil, or_false] at hm
    subst hm
    exact sample_ok _ _ ⟨rfl, by unfold silofsType; decide⟩ (by unfold Word Plain; decide)
  · have e : ((([sample (47 :: silofsType) [116, 109, 112, 102, 115]].filter (fun m => decide (Mentions m))).map
        entry).reverse) = [⟨47 :: silofsType, [114, 119]⟩] := by decide +kernel
    rw [e]
    rfl

/-! ### The long listing -/

/-- Behind the open directory there is a silofs whose state is `e`. -/
def Behind (os : Os) (fd : Nat) (e : Rep.Env) : Prop :=
  Rep.EnvOk e ∧ ∀ q, q = QREPO ∨ q = QBOOT → ∃ rs i rest, (∀ r ∈ rs, Rep.ReqOk r) ∧
    ∀ a, (Rep.serve (Rep.served rs) (.query e i none none (Rep.ask q rest))).1 = .bytes a → os.query fd q = .ok a

theorem behind_repo {os : Os} {fd : Nat} {e : Rep.Env} (h : Behind os fd e) :
    ∃ r, os.query fd QREPO = .ok r ∧ Rep.showRepo r = e.repodir := by
  obtain ⟨he, h⟩ := h
  obtain ⟨rs, i, rest, hrs, hq⟩ := h QREPO (Or.inl rfl)
  obtain ⟨a, ha, hs⟩ := Rep.C65_repo rs hrs e he i rest
  exact ⟨a, hq a ha, hs⟩

theorem behind_boot {os : Os} {fd : Nat} {e : Rep.Env} (h : Behind os fd e) :
    ∃ r, os.query fd QBOOT = .ok r ∧ (Rep.showBoot r).1 = e.name ∧
      Caddr.byName (Rep.showBoot r).2.1 = .ok e.bootAddr ∧ (Rep.showBoot r).2.2 = e.fsUuid := by
  obtain ⟨he, h⟩ := h
  obtain ⟨rs, i, rest, hrs, hq⟩ := h QBOOT (Or.inr rfl)
  obtain ⟨a, ha, h1, h2, h3, _⟩ := Rep.C65_boot rs hrs e he i rest
  exact ⟨a, hq a ha, h1, h2, h3⟩

/-- `silofs lsmnt --long` of a mounted silofs: its directory, its repository and name, an address
which is that of its boot record when read back, and its uuid. -/
theorem C66_long (os : Os) (m : Mount) (hcl : Clean m.dir) (fd : Nat) (e : Rep.Env)
    (ho : os.openDir m.dir = .ok fd) (hb : Behind os fd e) :
    ∃ t, Caddr.byName t = .ok e.bootAddr ∧
      lsmnt os true [entry m] = m.dir ++ [32] ++ e.repodir ++ [47] ++ e.name ++ [32] ++ t ++ [32] ++
        Addr.uuidText e.fsUuid ++ [10] := by
  obtain ⟨r, hr, h1⟩ := behind_repo hb
  obtain ⟨q, hq, h2, h3, h4⟩ := behind_boot hb
  refine ⟨_, h3, ?_⟩
  unfold lsmnt
  simp only [List.flatMap_cons, List.flatMap_nil, List.append_nil, if_pos]
  unfold lsLong entry
  simp only
  rw [esc_clean hcl, ho]
  simp only
  rw [hr]
  simp only
  rw [hq]
  simp only
  rw [h1, h2, h4]

/-- The uuid can be read back. -/
theorem C66_long_uuid (e : Rep.Env) (h : IsBytes 16 e.fsUuid) : Addr.uuidParse (Addr.uuidText e.fsUuid) = some e.fsUuid :=
  Addr.C27_uuid_roundtrip _ h

/-- Each mount has exactly one line in the long listing. -/
theorem C66_long_lines (os : Os) (l : List Mnt) : ∃ ls : List (List Nat), ls.length = l.length ∧
    lsmnt os true l = (ls.map (fun x => x ++ [10])).flatten ∧
    ∀ (i : Nat) (m : Mnt), l[i]? = some m → ∃ x, ls[i]? = some x ∧ (x = [] ∨ m.mntdir <+: x) := by
  have one : ∀ m : Mnt, ∃ x, lsLong os m = x ++ [10] ∧ (x = [] ∨ m.mntdir <+: x) := by
    intro m
    unfold lsLong
    split
    · exact ⟨[], rfl, Or.inl rfl⟩
    · split
      · exact ⟨[], rfl, Or.inl rfl⟩
      · split
        · exact ⟨[], rfl, Or.inl rfl⟩
        · refine ⟨_, rfl, Or.inr ?_⟩
          simp only [List.append_assoc]
          exact ⟨_, rfl⟩
  induction l with
  | nil => exact ⟨[], rfl, rfl, fun i m h => absurd h (by simp)⟩
  | cons m l ih =>
    obtain ⟨ls, h1, h2, h3⟩ := ih
    obtain ⟨x, hx, hp⟩ := one m
    refine ⟨x :: ls, by simp [h1], ?_, ?_⟩
    · unfold lsmnt at h2 ⊢
      rw [List.flatMap_cons, h2, if_pos rfl, hx]
      simp
    · intro i m' hi
      cases i with
      | zero =>
        simp only [List.getElem?_cons_zero, Option.some.injEq] at hi
        subst hi
        exact ⟨x, rfl, hp⟩
      | succ i => exact h3 i m' hi

/-! ### Removing -/

/-- A silofs which is mounted is not removed: when its directory opens and its repository's file is
the one to be removed, the command stops with EBUSY before it asks for a password or opens the
repository.  Missing for the full claim: directories with blanks (`C66_rmfs_violated`) and a silofs
whose answers fail; these are stopped later, by the lock on the file (C50). -/
theorem C66_rmfs_partial (ms : List Mount) (hok : ∀ m ∈ ms, Ok m) (hf : (text ms).length < 1048576)
    (pg : Nat) (hpg : 0 < pg) (as : Nat → Ans) (has : ∀ n, ∃ k, as n = .upto k)
    (os : Os) (repodir name : List Nat) (m : Mount) (hm : m ∈ ms) (ht : m.fstype = silofsType)
    (hcl : Clean m.dir) (fd : Nat) (e : Rep.Env) (ho : os.openDir m.dir = .ok fd) (hb : Behind os fd e)
    (s : Nat × Nat) (hs1 : os.stat (e.repodir ++ [47] ++ e.name) = .ok s)
    (hs2 : os.stat (repodir ++ [47] ++ name) = .ok s) :
    rmfsGuard os repodir name (text ms) pg as = some (.error 16) := by
  unfold rmfsGuard
  rw [C66_list ms hok hf pg hpg as has]
  simp only
  have hin : entry m ∈ ((ms.filter (fun m => decide (Mentions m))).map entry).reverse := by
    rw [List.mem_reverse, List.mem_map]
    exact ⟨m, List.mem_filter.mpr ⟨hm, by simpa using mentions_of_type m ht⟩, rfl⟩
  have hat : nomntAt os repodir name (entry m) = true := by
    obtain ⟨r, hr, h1⟩ := behind_repo hb
    obtain ⟨q, hq, h2, _⟩ := behind_boot hb
    unfold nomntAt entry
    simp only
    rw [esc_clean hcl, ho]
    simp only
    rw [hr]
    simp only
    rw [hq]
    simp only
    rw [h1, h2]
    unfold joinPath
    rw [hs1]
    simp only
    rw [hs2]
    simp
  unfold nomnt
  cases hx : List.find? (nomntAt os repodir name) (((ms.filter (fun m => decide (Mentions m))).map entry).reverse) with
  | some x => rfl
  | none => exact absurd hat (List.find?_eq_none.mp hx _ hin)

/-- The command goes on only after it has read the whole list of mounts and found none of them using the file. -/
theorem C66_rmfs_list (os : Os) (repodir name : List Nat) (f : List Nat) (pg : Nat) (as : Nat → Ans)
    (h : rmfsGuard os repodir name f pg as = some (.ok ())) :
    ∃ l, parseMountinfo f pg as = .ok (some l) ∧ ∀ m ∈ l, nomntAt os repodir name m = false := by
  unfold rmfsGuard at h
  split at h
  · cases h
  · cases h
  · rename_i l hl
    refine ⟨l, hl, ?_⟩
    split at h
    · cases h
    · rename_i hx
      unfold nomnt at hx
      intro m hm
      simpa using List.find?_eq_none.mp hx m hm

/-- The command is stopped so only when the file of some mounted file-system is the one to be
removed. -/
theorem C66_rmfs_only (ms : List Mount) (hok : ∀ m ∈ ms, Ok m) (hf : (text ms).length < 1048576)
    (pg : Nat) (hpg : 0 < pg) (as : Nat → Ans) (has : ∀ n, ∃ k, as n = .upto k)
    (os : Os) (repodir name : List Nat) (x : Except Nat Unit)
    (h : rmfsGuard os repodir name (text ms) pg as = some x) :
    x = .ok () ∨ (x = .error 16 ∧ ∃ m ∈ ms, ∃ fd r q s, os.openDir (esc m.dir) = .ok fd ∧
      os.query fd QREPO = .ok r ∧ os.query fd QBOOT = .ok q ∧
      os.stat (Rep.showRepo r ++ [47] ++ (Rep.showBoot q).1) = .ok s ∧
      os.stat (repodir ++ [47] ++ name) = .ok s) := by
  unfold rmfsGuard at h
  rw [C66_list ms hok hf pg hpg as has] at h
  simp only at h
  unfold nomnt at h
  cases hx : List.find? (nomntAt os repodir name) (((ms.filter (fun m => decide (Mentions m))).map entry).reverse) with
  | none =>
    rw [hx] at h
    simp only [Option.some.injEq] at h
    exact Or.inl h.symm
  | some z =>
    rw [hx] at h
    simp only [Option.some.injEq] at h
    refine Or.inr ⟨h.symm, ?_⟩
    have hz := List.find?_some hx
    have hzm := List.mem_of_find?_eq_some hx
    rw [List.mem_reverse, List.mem_map] at hzm
    obtain ⟨m, hm, rfl⟩ := hzm
    refine ⟨m, (List.mem_filter.mp hm).1, ?_⟩
    unfold nomntAt entry at hz
    simp only at hz
    split at hz
    · exact absurd hz (by decide)
    · rename_i fd hfd
      split at hz
      · exact absurd hz (by decide)
      · rename_i r hr
        split at hz
        · exact absurd hz (by decide)
        · rename_i q hq
          split at hz
          · exact absurd hz (by decide)
          · rename_i s hs
            split at hz
            · exact absurd hz (by decide)
            · rename_i t ht
              simp only [Bool.and_eq_true, beq_iff_eq] at hz
              have : t = s := Prod.ext hz.1.symm hz.2.symm
              subst this
              exact ⟨fd, r, q, t, hfd, hr, hq, hs, ht⟩

/-- A silofs mounted at "/a b": the check does not see it. -/
theorem C66_rmfs_violated (os : Os) (repodir name : List Nat) (pg : Nat) (hpg : 0 < pg) (as : Nat → Ans)
    (has : ∀ n, ∃ k, as n = .upto k) (hos : os.openDir (esc dirBlank) = .error 2) :
    rmfsGuard os repodir name (text [sample dirBlank silofsType]) pg as = some (.ok ()) := by
  unfold rmfsGuard
  rw [C66_list _ (fun m hm => by
    simp only [List.mem_cons, List.not_mem_nil, or_false] at hm
    subst hm
    exact sample_ok _ _ dirBlank_path silofsType_word) (by decide) pg hpg as has]
  simp only
  have e : ((([sample dirBlank silofsType].filter (fun m => decide (Mentions m))).map entry).reverse) =
      [entry (sample dirBlank silofsType)] := by decide +kernel
  rw [e]
  unfold nomnt
  have : nomntAt os repodir name (entry (sample dirBlank silofsType)) = false := by
    unfold nomntAt
    show (match os.openDir (esc dirBlank) with | .error _ => false | .ok fd => _) = false
    rw [hos]
  rw [List.find?_cons, this, List.find?_nil]

/-! ### Cases -/

/-- A kernel with a silofs at "/m", whose repository is "/r" and name "fs". -/
def anOs : Os where
  openDir := fun p => if p = [47, 109] then .ok 3 else .error 2
  query := fun fd q =>
    match (Rep.serve (Rep.served []) (.query Rep.anEnv (Rep.anIno 0o040755 1) none none (Rep.ask q []))).1 with
    | .bytes a => if fd = 3 then .ok a else .error 9
    | _ => .error 22
  stat := fun p => if p = [47, 114, 47, 102, 115] then .ok (11, 5) else .error 2

theorem anOs_behind : Behind anOs 3 Rep.anEnv :=
  ⟨Rep.anEnv_ok, fun q hq => ⟨[], Rep.anIno 0o040755 1, [], by simp, fun a ha => by
    unfold anOs
    simp only
    rw [ha]
    rfl⟩⟩

def aMount : Mount := sample [47, 109] silofsType

theorem aMount_ok : Ok aMount := sample_ok _ _ ⟨rfl, by decide⟩ silofsType_word

/-- Both of a tmpfs at "/" and the silofs at "/m" are mounted: the silofs is listed, and removing it is
refused. -/
example : (∃ l, parseMountinfo (text [sample [47] [116, 109, 112, 102, 115], aMount]) 4096 (fun _ => .upto 100) = .ok (some l) ∧
      lsmnt anOs false l = [47, 109, 10]) ∧
    rmfsGuard anOs [47, 114] [102, 115] (text [sample [47] [116, 109, 112, 102, 115], aMount]) 4096 (fun _ => .upto 100)
      = some (.error 16) := by
  have hok : ∀ m ∈ [sample [47] [116, 109, 112, 102, 115], aMount], Ok m := by
    intro m hm
    simp only [List.mem_cons, List.not_mem_nil, or_false] at hm
    rcases hm with rfl | rfl
    · exact sample_ok _ _ ⟨rfl, by decide⟩ (by unfold Word Plain; decide)
    · exact aMount_ok
  refine ⟨?_, ?_⟩
  · obtain ⟨l, h1, h2⟩ := C66_short_partial _ hok (by decide) 4096 (by decide) (fun _ => .upto 100) (fun _ => ⟨100, rfl⟩)
      (by decide +kernel) (by unfold Clean; decide +kernel) anOs
    refine ⟨l, h1, h2.trans ?_⟩
    decide +kernel
  · exact C66_rmfs_partial _ hok (by decide) 4096 (by decide) _ (fun _ => ⟨100, rfl⟩) anOs _ _ aMount (by simp) rfl
      (by unfold Clean; decide) 3 Rep.anEnv rfl anOs_behind (11, 5) rfl rfl

end Silofs.Mi
