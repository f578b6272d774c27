import Verif.Spec.Optargs
import Verif.Props.PasswdOpts
import Verif.Model.Mntsvc
/- C71: the options of a mount. -/
set_option linter.unusedSimpArgs false
set_option linter.unusedVariables false
namespace Silofs.Oa
open Silofs.PwSpec (Opt Legal commas last lastPass)

/-! ### getopt -/

/-- The options getopt returns for a part. -/
def Part.evs : Part → List Ev
  | .flag f => [⟨f.short, none⟩]
  | .letters f fs => (f :: fs).map (fun f => ⟨f.short, none⟩)
  | .valued v _ w => [⟨v.short, some (v.text w)⟩]
  | .arg _ => []

theorem findShort_flag (f : Flag) : ∃ d, findShort mountOds f.short = some d ∧ d.arg = false ∧ d.short = f.short := by
  cases f <;> exact ⟨_, rfl, rfl, rfl⟩

theorem findShort_valued (v : Valued) : ∃ d, findShort mountOds v.short = some d ∧ d.arg = true ∧ d.short = v.short := by
  cases v <;> exact ⟨_, rfl, rfl, rfl⟩

theorem findLong_flag (f : Flag) : ∃ d, findLong mountOds f.long = some d ∧ d.arg = false ∧ d.short = f.short := by
  cases f <;> exact ⟨_, rfl, rfl, rfl⟩

theorem findLong_valued (v : Valued) : ∃ d, findLong mountOds v.long = some d ∧ d.arg = true ∧ d.short = v.short := by
  cases v <;> exact ⟨_, rfl, rfl, rfl⟩

theorem flag_long (f : Flag) : 61 ∉ f.long ∧ f.long ≠ [] ∧ f.short ≠ 45 := by cases f <;> decide

theorem valued_long (v : Valued) : 61 ∉ v.long ∧ v.long ≠ [] ∧ v.short ≠ 45 := by
  cases v <;> exact ⟨by simp [Valued.long], by simp [Valued.long], by simp [Valued.short]⟩

theorem takeWhile_all {l : Word} (h : 61 ∉ l) : l.takeWhile (· ≠ 61) = l ∧ l.dropWhile (· ≠ 61) = [] := by
  induction l with
  | nil => exact ⟨rfl, rfl⟩
  | cons a l ih =>
    simp only [List.mem_cons, not_or] at h
    have ha : (decide (a ≠ 61)) = true := by simpa using Ne.symm h.1
    constructor
    · rw [List.takeWhile_cons, if_pos ha, (ih h.2).1]
    · rw [List.dropWhile_cons, if_pos ha, (ih h.2).2]

theorem longName_plain {l : Word} (h : 61 ∉ l) : longName l = l ∧ longVal l = none := by
  refine ⟨(takeWhile_all h).1, ?_⟩
  unfold longVal; rw [if_neg h]

theorem longName_eq {l v : Word} (h : 61 ∉ l) : longName (l ++ 61 :: v) = l ∧ longVal (l ++ 61 :: v) = some v := by
  obtain ⟨h1, h2⟩ := takeWhile_all h
  constructor
  · unfold longName
    rw [List.takeWhile_append_of_pos, List.takeWhile_cons_of_neg (by decide), List.append_nil]
    intro a ha
    have : a ≠ 61 := by rintro rfl; exact h ha
    simpa using this
  · unfold longVal
    rw [if_pos (by simp), List.dropWhile_append_of_pos, List.dropWhile_cons_of_neg (by decide)]
    · rfl
    · intro a ha
      have : a ≠ 61 := by rintro rfl; exact h ha
      simpa using this

theorem scan_flag (ds : List Desc) {n : Word} {d : Desc} (hn : n ≠ []) (h1 : findLong ds (longName n) = some d)
    (h2 : longVal n = none) (h3 : d.arg = false) (rest : List Word) :
    scan ds ((45 :: 45 :: n) :: rest) = (scan ds rest).add [⟨d.short, none⟩] := by
  cases n with
  | nil => exact absurd rfl hn
  | cons a n =>
    rw [scan.eq_def]
    cases rest with
    | nil => simp only [h1, h2, h3]; simp [scan, Scan.add]
    | cons v rest => simp only [h1, h2, h3]; simp

theorem scan_long (ds : List Desc) {n v : Word} {d : Desc} (hn : n ≠ []) (h1 : findLong ds (longName n) = some d)
    (h2 : longVal n = none) (h3 : d.arg = true) (rest : List Word) :
    scan ds ((45 :: 45 :: n) :: v :: rest) = (scan ds rest).add [⟨d.short, some v⟩] := by
  cases n with
  | nil => exact absurd rfl hn
  | cons a n =>
    rw [scan.eq_def]
    simp only [h1, h2, h3]; simp

theorem scan_longEq (ds : List Desc) {n v : Word} {d : Desc} (hn : n ≠ []) (h1 : findLong ds (longName n) = some d)
    (h2 : longVal n = some v) (h3 : d.arg = true) (rest : List Word) :
    scan ds ((45 :: 45 :: n) :: rest) = (scan ds rest).add [⟨d.short, some v⟩] := by
  cases n with
  | nil => exact absurd rfl hn
  | cons a n =>
    rw [scan.eq_def]
    simp only [h1, h2, h3]; simp

theorem scan_cluster (ds : List Desc) {c : Nat} {l : Word} {es : List Ev} (hc : c ≠ 45)
    (h : cluster ds (c :: l) = (es, none, false)) (rest : List Word) :
    scan ds ((45 :: c :: l) :: rest) = (scan ds rest).add es := by
  rw [scan.eq_def]
  simp only
  split
  · next h1 => simp only [List.cons.injEq] at h1; exact absurd h1.2.1 hc
  · next h1 => simp only [List.cons.injEq] at h1; exact absurd h1.2.1 hc
  · next h1 =>
    simp only [List.cons.injEq] at h1
    obtain ⟨_, rfl, rfl⟩ := h1
    simp only [h]
  · next h1 => exact (h1 _ _ rfl).elim

theorem scan_wants (ds : List Desc) {c o : Nat} {l : Word} {es : List Ev} (hc : c ≠ 45)
    (h : cluster ds (c :: l) = (es, some o, false)) (v : Word) (rest : List Word) :
    scan ds ((45 :: c :: l) :: v :: rest) = (scan ds rest).add (es ++ [⟨o, some v⟩]) := by
  rw [scan.eq_def]
  simp only
  split
  · next h1 => simp only [List.cons.injEq] at h1; exact absurd h1.2.1 hc
  · next h1 => simp only [List.cons.injEq] at h1; exact absurd h1.2.1 hc
  · next h1 =>
    simp only [List.cons.injEq] at h1
    obtain ⟨_, rfl, rfl⟩ := h1
    simp only [h]
  · next h1 => exact (h1 _ _ rfl).elim

theorem scan_arg (ds : List Desc) {w : Word} (h : w.head? ≠ some 45) (rest : List Word) :
    scan ds (w :: rest) = { scan ds rest with args := w :: (scan ds rest).args } := by
  rw [scan.eq_def]
  simp only
  split
  · exact absurd rfl h
  · exact absurd rfl h
  · exact absurd rfl h
  · rfl

theorem cluster_flags (fs : List Flag) :
    cluster mountOds (fs.map Flag.short) = (fs.map (fun f => ⟨f.short, none⟩), none, false) := by
  induction fs with
  | nil => rfl
  | cons f fs ih =>
    obtain ⟨d, h1, h2, h3⟩ := findShort_flag f
    simp only [List.map_cons, cluster, h1, h2, ih]
    simp

theorem scan_part (p : Part) (hp : p.Ok) (rest : List Word) :
    scan mountOds (p.words ++ rest) =
      ⟨p.evs ++ (scan mountOds rest).evs, p.args ++ (scan mountOds rest).args, (scan mountOds rest).bad⟩ := by
  cases p with
  | flag f =>
    obtain ⟨d, h1, h2, h3⟩ := findLong_flag f
    obtain ⟨e1, e2, e3⟩ := flag_long f
    obtain ⟨n1, n2⟩ := longName_plain e1
    simp only [Part.words, List.cons_append, List.nil_append]
    rw [scan_flag _ e2 (by rw [n1]; exact h1) n2 h2, h3]
    rfl
  | letters f fs =>
    simp only [Part.words, List.cons_append, List.nil_append, List.map_cons]
    have := cluster_flags (f :: fs)
    simp only [List.map_cons] at this
    rw [scan_cluster _ (flag_long f).2.2 this]
    rfl
  | valued v way w =>
    obtain ⟨d, h1, h2, h3⟩ := findLong_valued v
    obtain ⟨d', g1, g2, g3⟩ := findShort_valued v
    obtain ⟨e1, e2, e3⟩ := valued_long v
    cases way with
    | short =>
      simp only [Part.words, List.cons_append, List.nil_append]
      have : cluster mountOds [v.short] = ([], some v.short, false) := by
        simp only [cluster, g1, g2]; simp
      rw [scan_wants _ e3 this]
      rfl
    | glued =>
      simp only [Part.words, List.cons_append, List.nil_append]
      have hne : v.text w ≠ [] := hp.1 rfl
      have : cluster mountOds (v.short :: v.text w) = ([⟨v.short, some (v.text w)⟩], none, false) := by
        simp only [cluster, g1, g2]; simp [hne]
      rw [scan_cluster _ e3 this]
      rfl
    | long =>
      simp only [Part.words, List.cons_append, List.nil_append]
      obtain ⟨n1, n2⟩ := longName_plain e1
      rw [scan_long _ e2 (by rw [n1]; exact h1) n2 h2, h3]
      rfl
    | longEq =>
      simp only [Part.words, List.cons_append, List.nil_append]
      obtain ⟨n1, n2⟩ := longName_eq (v := v.text w) e1
      rw [scan_longEq _ (by simp) (by rw [n1]; exact h1) n2 h2, h3]
      rfl
  | arg t =>
    simp only [Part.words, List.cons_append, List.nil_append]
    rw [scan_arg _ hp]
    rfl

theorem scan_parts (ps : List Part) (hp : ∀ p ∈ ps, p.Ok) :
    scan mountOds (ps.flatMap Part.words) = ⟨ps.flatMap Part.evs, ps.flatMap Part.args, false⟩ := by
  induction ps with
  | nil => rfl
  | cons p ps ih =>
    rw [List.flatMap_cons, scan_part p (hp p (List.mem_cons_self ..)),
      ih (fun q hq => hp q (List.mem_cons_of_mem _ hq))]
    simp [List.flatMap_cons]

/-! ### The settings -/

/-- What a flag does. -/
def applyFlag (m : Mnt) : Flag → Mnt
  | .hostids => { m with sub := { m.sub with hostids := true } }
  | .acl => { m with xattrAcl := true }
  | .noOther => { m with allowOther := false }
  | .copyMode => { m with splice := false }
  | .nodaemon => { m with daemon := false }
  | .coredump => { m with coredump := true }
  | .stdalloc => { m with stdalloc := true }
  | .noPrompt => { m with noPrompt := true }
  | .systemd => { m with systemd := true }

/-- What a part does. -/
def Part.apply (m : Mnt) : Part → Mnt
  | .flag f => applyFlag m f
  | .letters f fs => (f :: fs).foldl applyFlag m
  | .valued (.opts os) _ _ => { m with sub := os.foldl Pw.apply1 m.sub }
  | .valued (.writeback v) _ _ => { m with writeback := v }
  | .valued (.asyncwr v) _ _ => { m with asyncwr := v }
  | .valued (.password p) _ _ => { m with sub := { m.sub with password := some p } }
  | .valued (.loglevel t) _ _ => { m with level := some t }
  | .arg _ => m

theorem step_flag (m : Mnt) (f : Flag) : step m ⟨f.short, none⟩ = .ok (applyFlag m f) := by
  cases f <;> rfl

theorem steps_flags (fs : List Flag) (l : List Ev) : ∀ m,
    steps (fs.map (fun f => ⟨f.short, none⟩) ++ l) m = steps l (fs.foldl applyFlag m) := by
  induction fs with
  | nil => intro m; rfl
  | cons f fs ih =>
    intro m
    simp only [List.map_cons, List.cons_append, steps, step_flag, ih, List.foldl_cons]

theorem parseBool_text (w v : Bool) : Cv.parseBool (boolText w v) = .ok v := by
  cases w <;> cases v <;> rfl

theorem steps_part (p : Part) (hp : p.Ok) (l : List Ev) (m : Mnt) :
    steps (p.evs ++ l) m = steps l (p.apply m) := by
  cases p with
  | flag f => simp only [Part.evs, List.cons_append, List.nil_append, steps, step_flag, Part.apply]
  | letters f fs => exact steps_flags (f :: fs) l m
  | arg t => rfl
  | valued v way w =>
    simp only [Part.evs, List.cons_append, List.nil_append, steps]
    cases v with
    | opts os =>
      have h := hp.2
      simp only at h
      have hs := Pw.C67_subopts_partial os (fun o ho => by
        cases o with
        | passwd p => exact h.1 p ho
        | _ => trivial) h.2 m.sub
      rw [← Pw.fold_fields] at hs
      simp only [step, Valued.short, Valued.text, Option.getD_some, hs, Part.apply]
    | writeback v =>
      simp only [step, Valued.short, Valued.text, Option.getD_some, parseBool_text, Part.apply]
    | asyncwr v =>
      simp only [step, Valued.short, Valued.text, Option.getD_some, parseBool_text, Part.apply]
    | password p =>
      have h : Legal p := hp.2
      have hk : Pw.optPass p = some (.ok p) := by
        unfold Pw.optPass
        rw [if_neg (by have := h.1; omega)]
        unfold Pw.dupPass
        have := Pw.parse_line h [] (.inl rfl)
        rw [List.append_nil] at this
        simp only [this]
      simp only [step, Valued.short, Valued.text, Option.getD_some, hk, Part.apply]
    | loglevel t =>
      simp only [step, Valued.short, Valued.text, Option.getD_some, Part.apply]

theorem steps_parts (ps : List Part) (hp : ∀ p ∈ ps, p.Ok) : ∀ m,
    steps (ps.flatMap Part.evs) m = .ok (ps.foldl Part.apply m) := by
  induction ps with
  | nil => intro m; rfl
  | cons p ps ih =>
    intro m
    rw [List.flatMap_cons, steps_part p (hp p (List.mem_cons_self ..)),
      ih (fun q hq => hp q (List.mem_cons_of_mem _ hq))]
    rfl

/-- The settings after what was mentioned. -/
def after (m : Mnt) (os : List Opt) (fs : List Flag) (wb aw : Option Bool) (lv : Option Word) : Mnt :=
  { m with
    sub := { rdonly := last .rw .ro os m.sub.rdonly, nodev := last .dev .nodev os m.sub.nodev
             nosuid := last .suid .nosuid os m.sub.nosuid, noexec := last .exec .noexec os m.sub.noexec
             hostids := m.sub.hostids || decide (Opt.hostids ∈ os) || decide (Flag.hostids ∈ fs)
             password := lastPass os m.sub.password }
    allowOther := m.allowOther && !decide (Flag.noOther ∈ fs)
    xattrAcl := m.xattrAcl || decide (Flag.acl ∈ fs)
    splice := m.splice && !decide (Flag.copyMode ∈ fs)
    daemon := m.daemon && !decide (Flag.nodaemon ∈ fs)
    coredump := m.coredump || decide (Flag.coredump ∈ fs)
    stdalloc := m.stdalloc || decide (Flag.stdalloc ∈ fs)
    noPrompt := m.noPrompt || decide (Flag.noPrompt ∈ fs)
    systemd := m.systemd || decide (Flag.systemd ∈ fs)
    writeback := wb.getD m.writeback
    asyncwr := aw.getD m.asyncwr
    level := lv.orElse (fun _ => m.level) }

theorem after_nil (m : Mnt) : after m [] [] none none none = m := by
  simp [after, last, lastPass]

theorem flags_after (fs : List Flag) : ∀ m, fs.foldl applyFlag m = after m [] fs none none none := by
  induction fs with
  | nil => intro m; exact (after_nil m).symm
  | cons f fs ih =>
    intro m
    rw [List.foldl_cons, ih]
    cases f <;> simp [after, applyFlag, last, lastPass]

theorem part_after (p : Part) (m : Mnt) : p.apply m = after m p.subs p.flags p.writeback p.asyncwr p.level := by
  cases p with
  | flag f => exact flags_after [f] m
  | letters f fs => exact flags_after (f :: fs) m
  | arg t => exact (after_nil m).symm
  | valued v way w =>
    cases v with
    | opts os =>
      simp only [Part.apply, Pw.fold_fields]
      simp [after, Part.subs, Part.flags, Part.writeback, Part.asyncwr, Part.level]
      congr
    | _ => simp [Part.apply, after, Part.subs, Part.flags, Part.writeback, Part.asyncwr, Part.level, last, lastPass]

theorem lastOf_cons {α : Type} (f : Part → Option α) (p : Part) (ps : List Part) (d : α) :
    lastOf f (p :: ps) d = lastOf f ps ((f p).getD d) := by
  unfold lastOf
  cases h : f p with
  | none => rw [List.filterMap_cons_none h]; rfl
  | some v =>
    rw [List.filterMap_cons_some h]
    cases h2 : ps.filterMap f with
    | nil => simp
    | cons a l => simp [List.getLast?_eq_some_getLast]

theorem level_none (m : Mnt) (t : Option Word) : t.orElse (fun _ => m.level) = (t.map some).getD m.level := by
  cases t <;> rfl

/-- The settings after all parts. -/
def afterAll (m : Mnt) (ps : List Part) : Mnt :=
  { after m (ps.flatMap Part.subs) (ps.flatMap Part.flags) none none none with
    writeback := lastOf Part.writeback ps m.writeback
    asyncwr := lastOf Part.asyncwr ps m.asyncwr
    level := lastOf (fun p => p.level.map some) ps m.level }

theorem parts_after (ps : List Part) : ∀ m, ps.foldl Part.apply m = afterAll m ps := by
  induction ps with
  | nil =>
    intro m
    simp [afterAll, after, lastOf, last, lastPass]
  | cons p ps ih =>
    intro m
    rw [List.foldl_cons, ih, part_after]
    simp only [afterAll, after, lastOf_cons, List.flatMap_cons, last, lastPass, List.foldl_append, List.mem_append,
      Bool.decide_or, Bool.not_or, level_none, Option.getD_none, Option.map_none]
    simp only [Bool.or_assoc, Bool.and_assoc]
    congr 2
    ac_rfl

/-- Whatever options are given, in whatever way, in whatever order: those in force are the last ones
mentioned, the rest has its default; and the file-system and the place are the two other arguments. -/
theorem C71_options (ps : List Part) (hp : ∀ p ∈ ps, p.Ok) (r t : Word) (ha : ps.flatMap Part.args = [r, t]) :
    ∃ m, mountArgs (ps.flatMap Part.words) = .ok m r t ∧ Asked ps m := by
  refine ⟨afterAll defaults ps, ?_, ?_⟩
  · unfold mountArgs
    rw [scan_parts ps hp]
    simp only [steps_parts ps hp, parts_after, ha]
    simp
  · constructor <;> simp [afterAll, after, defaults, lastPass, or_comm]

/-- Too few or too many other arguments: nothing is mounted. -/
theorem C71_arguments (ps : List Part) (hp : ∀ p ∈ ps, p.Ok) (ha : (ps.flatMap Part.args).length ≠ 2) :
    mountArgs (ps.flatMap Part.words) = .die := by
  unfold mountArgs
  rw [scan_parts ps hp]
  simp only [steps_parts ps hp, Bool.false_eq_true, if_false]
  split
  · next h => rw [h] at ha; exact absurd rfl ha
  · rfl

/-! ### What is in force -/

theorem msFlags_eq (m : Mnt) : msFlags m =
    (if m.sub.rdonly then 1 else 0) + (if m.sub.nosuid then 2 else 0) + (if m.sub.nodev then 4 else 0) +
      (if m.sub.noexec then 8 else 0) + (if m.lazytime then 33554432 else 0) := by
  unfold msFlags
  cases m.sub.rdonly <;> cases m.sub.nosuid <;> cases m.sub.nodev <;> cases m.sub.noexec <;> cases m.lazytime <;> decide

theorem ctlFlags_eq (m : Mnt) : ctlFlags m =
    (if m.withFuse then 3 else 0) + (if m.writeback then 4 else 0) + (if m.splice then 8 else 0) +
      (if m.allowOther then 16 else 0) + (if m.allowAdmin then 32 else 0) + (if m.xattrAcl then 64 else 0) +
      (if m.asyncwr then 128 else 0) := by
  unfold ctlFlags orIf
  cases m.withFuse <;> cases m.writeback <;> cases m.splice <;> cases m.allowOther <;> cases m.allowAdmin <;>
    cases m.xattrAcl <;> cases m.asyncwr <;> decide

theorem ms_bits (m : Mnt) : (msFlags m &&& MS_RDONLY = MS_RDONLY ↔ m.sub.rdonly = true) ∧
    (msFlags m &&& MS_NODEV ≠ 0 ↔ m.sub.nodev = true) ∧
    (msFlags m &&& MS_NOSUID ≠ 0 ↔ m.sub.nosuid = true) ∧
    (msFlags m &&& MS_NOEXEC ≠ 0 ↔ m.sub.noexec = true) ∧
    msFlags m &&& Mnt.unsupMask = 0 := by
  rw [msFlags_eq]
  cases m.sub.rdonly <;> cases m.sub.nosuid <;> cases m.sub.nodev <;> cases m.sub.noexec <;> cases m.lazytime <;> decide

theorem ctl_bits (m : Mnt) : (hasCtlf (ctlFlags m) ENVF_WRITEBACK = m.writeback) ∧
    (hasCtlf (ctlFlags m) ENVF_MAYSPLICE = m.splice) ∧
    (hasCtlf (ctlFlags m) ENVF_ASYNCWR = m.asyncwr) ∧
    (allowAcl (ctlFlags m) = m.xattrAcl) ∧
    (ctlFlags m &&& ENVF_ALLOWADMIN ≠ 0 ↔ m.allowAdmin = true) ∧
    (ctlFlags m &&& ENVF_ALLOWOTHER ≠ 0 ↔ m.allowOther = true) ∧
    (hasCtlf (ctlFlags m) ENVF_WITHFUSE = m.withFuse) := by
  rw [ctlFlags_eq]
  unfold allowAcl hasCtlf
  cases m.withFuse <;> cases m.writeback <;> cases m.splice <;> cases m.allowOther <;> cases m.allowAdmin <;>
    cases m.xattrAcl <;> cases m.asyncwr <;> decide

/-- What the mounted file-system does follows what the user wrote: it may be changed unless the last
of "ro" and "rw" is "ro" (or unless it was made immutable); device files can be made unless the last of
"dev" and "nodev" is "nodev"; the kernel is told "nosuid" and "noexec" just when they are asked for, and
is told nothing which the mount service refuses; other users may use it unless that was denied; access
lists need the option; and so do write-back, asynchronous writes and copying. -/
theorem C71_in_force (ps : List Part) (hp : ∀ p ∈ ps, p.Ok) (r t : Word) (ha : ps.flatMap Part.args = [r, t]) :
    ∃ m, mountArgs (ps.flatMap Part.words) = .ok m r t ∧
      (∀ fossil, checkMut (msFlags m) fossil = 0 ↔
        last .rw .ro (ps.flatMap Part.subs) false = false ∧ fossil = false) ∧
      (∀ rdev, checkDev (msFlags m) rdev = 0 ↔ rdev ≠ 0 ∧ last .dev .nodev (ps.flatMap Part.subs) false = false) ∧
      (msFlags m &&& MS_NOSUID ≠ 0 ↔ last .suid .nosuid (ps.flatMap Part.subs) false = true) ∧
      (msFlags m &&& MS_NOEXEC ≠ 0 ↔ last .exec .noexec (ps.flatMap Part.subs) false = true) ∧
      msFlags m &&& Mnt.unsupMask = 0 ∧
      (∀ w, authorize (ctlFlags m) w = 0 ↔
        w.kernel = true ∨ w.owner = true ∨ w.admin = true ∨ Flag.noOther ∉ ps.flatMap Part.flags) ∧
      (allowAcl (ctlFlags m) = true ↔ Flag.acl ∈ ps.flatMap Part.flags) ∧
      (hasCtlf (ctlFlags m) ENVF_WRITEBACK = lastOf Part.writeback ps true) ∧
      (hasCtlf (ctlFlags m) ENVF_ASYNCWR = lastOf Part.asyncwr ps true) ∧
      (hasCtlf (ctlFlags m) ENVF_MAYSPLICE = true ↔ Flag.copyMode ∉ ps.flatMap Part.flags) := by
  obtain ⟨m, hm, ask⟩ := C71_options ps hp r t ha
  obtain ⟨b1, b2, b3, b4, b5⟩ := ms_bits m
  obtain ⟨c1, c2, c3, c4, c5, c6, c7⟩ := ctl_bits m
  refine ⟨m, hm, fun fossil => ?_, fun rdev => ?_, ?_, ?_, b5, fun w => ?_, ?_, ?_, ?_, ?_⟩
  · rw [← ask.rdonly]
    unfold checkMut
    simp only [b1]
    cases m.sub.rdonly <;> cases fossil <;> simp
  · rw [← ask.nodev]
    unfold checkDev
    simp only [b2]
    by_cases h : rdev = 0
    · simp [h]
    · cases m.sub.nodev <;> simp [h]
  · rw [b3, ask.nosuid]
  · rw [b4, ask.noexec]
  · unfold authorize
    simp only [c5, c6, ask.admin, true_and]
    have := ask.others
    rw [← this]
    cases w.kernel <;> cases w.owner <;> cases w.admin <;> cases m.allowOther <;> simp
  · rw [c4, ask.acl]
  · rw [c1, ask.writeback]
  · rw [c3, ask.asyncwr]
  · rw [c2, ← ask.splice]
    cases m.splice <;> simp

/-! ### Unknown options -/

theorem scan_bad (ps : List Part) (hp : ∀ p ∈ ps, p.Ok) (rest : List Word) (hr : (scan mountOds rest).bad = true) :
    (scan mountOds (ps.flatMap Part.words ++ rest)).bad = true ∧
    (scan mountOds (ps.flatMap Part.words ++ rest)).evs = ps.flatMap Part.evs ++ (scan mountOds rest).evs := by
  induction ps with
  | nil => exact ⟨hr, rfl⟩
  | cons p ps ih =>
    obtain ⟨i1, i2⟩ := ih (fun q hq => hp q (List.mem_cons_of_mem _ hq))
    rw [List.flatMap_cons, List.append_assoc, scan_part p (hp p (List.mem_cons_self ..))]
    refine ⟨i1, ?_⟩
    simp only [i2, List.flatMap_cons, List.append_assoc]

theorem steps_append (ps : List Part) (hp : ∀ p ∈ ps, p.Ok) (l : List Ev) : ∀ m,
    steps (ps.flatMap Part.evs ++ l) m = steps l (ps.foldl Part.apply m) := by
  induction ps with
  | nil => intro m; rfl
  | cons p ps ih =>
    intro m
    rw [List.flatMap_cons, List.append_assoc, steps_part p (hp p (List.mem_cons_self ..)),
      ih (fun q hq => hp q (List.mem_cons_of_mem _ hq))]
    rfl

theorem die_of_bad {ps : List Part} (hp : ∀ p ∈ ps, p.Ok) {rest : List Word} (hr : (scan mountOds rest).bad = true)
    (he : (scan mountOds rest).evs = []) : mountArgs (ps.flatMap Part.words ++ rest) = .die := by
  obtain ⟨h1, h2⟩ := scan_bad ps hp rest hr
  unfold mountArgs
  rw [h2, he, steps_append ps hp]
  simp only [steps, h1, if_true]

/-- A name which no option has, nor begins with. -/
def Unknown (n : Word) : Prop :=
  n ≠ [] ∧ 61 ∉ n ∧ (∀ f : Flag, ¬ n <+: f.long) ∧ (∀ v : Valued, ¬ n <+: v.long) ∧ ¬ n <+: [104, 101, 108, 112]

/-- A letter which no option has. -/
def UnknownLetter (c : Nat) : Prop :=
  c ≠ 45 ∧ (∀ f : Flag, c ≠ f.short) ∧ (∀ v : Valued, c ≠ v.short) ∧ c ≠ 104

theorem unknown_none {n : Word} (h : Unknown n) : findLong mountOds n = none := by
  obtain ⟨h0, h1, hf, hv, hh⟩ := h
  have hp : ∀ d ∈ mountOds, ¬ n <+: d.long := by
    intro d hd
    simp only [mountOds, List.mem_cons, List.not_mem_nil, or_false] at hd
    rcases hd with h | h | h | h | h | h | h | h | h | h | h | h | h | h | h <;> rw [h]
    · exact hv (.opts [])
    · exact hf .hostids
    · exact hf .acl
    · exact hf .noOther
    · exact hv (.writeback true)
    · exact hf .copyMode
    · exact hf .nodaemon
    · exact hf .coredump
    · exact hv (.asyncwr true)
    · exact hf .stdalloc
    · exact hf .noPrompt
    · exact hv (.password [])
    · exact hv (.loglevel [])
    · exact hf .systemd
    · exact hh
  have e1 : mountOds.find? (fun d => d.long == n) = none := by
    rw [List.find?_eq_none]
    intro d hd he
    have he' : d.long = n := by simpa using he
    exact hp d hd (he' ▸ List.prefix_rfl)
  have e2 : mountOds.filter (fun d => n.isPrefixOf d.long) = [] := by
    rw [List.filter_eq_nil_iff]
    intro d hd he
    exact hp d hd (List.isPrefixOf_iff_prefix.1 he)
  unfold findLong
  rw [e1, e2]

theorem unknownLetter_none {c : Nat} (h : UnknownLetter c) : findShort mountOds c = none := by
  obtain ⟨h0, hf, hv, hh⟩ := h
  unfold findShort
  rw [List.find?_eq_none]
  intro d hd he
  have he' : d.short = c := by simpa using he
  simp only [mountOds, List.mem_cons, List.not_mem_nil, or_false] at hd
  rcases hd with h | h | h | h | h | h | h | h | h | h | h | h | h | h | h <;> rw [h] at he'
  · exact hv (.opts []) he'.symm
  · exact hf .hostids he'.symm
  · exact hf .acl he'.symm
  · exact hf .noOther he'.symm
  · exact hv (.writeback true) he'.symm
  · exact hf .copyMode he'.symm
  · exact hf .nodaemon he'.symm
  · exact hf .coredump he'.symm
  · exact hv (.asyncwr true) he'.symm
  · exact hf .stdalloc he'.symm
  · exact hf .noPrompt he'.symm
  · exact hv (.password []) he'.symm
  · exact hv (.loglevel []) he'.symm
  · exact hf .systemd he'.symm
  · exact hh he'.symm

theorem scan_unknown {n : Word} (hn : n ≠ []) (h : findLong mountOds (longName n) = none) (rest : List Word) :
    scan mountOds ((45 :: 45 :: n) :: rest) = ⟨[], [], true⟩ := by
  cases n with
  | nil => exact absurd rfl hn
  | cons a l =>
    rw [scan.eq_def]
    simp only
    split
    · rfl
    all_goals (next h1 _ => rw [h] at h1; cases h1)

theorem scan_unknownLetter {c : Nat} (hc : c ≠ 45) (h : findShort mountOds c = none) (l : Word) (rest : List Word) :
    scan mountOds ((45 :: c :: l) :: rest) = ⟨[], [], true⟩ := by
  have hk : cluster mountOds (c :: l) = ([], none, true) := by
    rw [cluster, h]
  rw [scan.eq_def]
  simp only
  split
  · next h1 => simp only [List.cons.injEq] at h1; exact absurd h1.2.1 hc
  · next h1 => simp only [List.cons.injEq] at h1; exact absurd h1.2.1 hc
  · next h1 =>
    simp only [List.cons.injEq, true_and] at h1
    rw [← h1.1, ← h1.2, hk]
  · next h1 => exact (h1 _ _ rfl).elim

/-- After any options: an option which does not exist ends the command, whatever follows. -/
theorem C71_unknown (ps : List Part) (hp : ∀ p ∈ ps, p.Ok) (rest : List Word) :
    (∀ n, Unknown n → mountArgs (ps.flatMap Part.words ++ (45 :: 45 :: n) :: rest) = .die) ∧
    (∀ n v, Unknown n → mountArgs (ps.flatMap Part.words ++ (45 :: 45 :: (n ++ 61 :: v)) :: rest) = .die) ∧
    (∀ c l, UnknownLetter c → mountArgs (ps.flatMap Part.words ++ (45 :: c :: l) :: rest) = .die) := by
  refine ⟨fun n h => ?_, fun n v h => ?_, fun c l h => ?_⟩
  · have hs := scan_unknown h.1 (by rw [(longName_plain h.2.1).1]; exact unknown_none h) rest
    exact die_of_bad hp (by rw [hs]) (by rw [hs])
  · have hs := scan_unknown (n := n ++ 61 :: v) (by simp) (by rw [(longName_eq h.2.1).1]; exact unknown_none h) rest
    exact die_of_bad hp (by rw [hs]) (by rw [hs])
  · have hs := scan_unknownLetter h.1 (unknownLetter_none h) l rest
    exact die_of_bad hp (by rw [hs]) (by rw [hs])

theorem rdonly_unknown : Unknown [114, 100, 111, 110, 108, 121] := by
  refine ⟨by decide, by decide, fun f => by cases f <;> decide, fun v => ?_, by decide⟩
  cases v <;> (simp only [Valued.long]; decide)

theorem noexec_unknown : Unknown [110, 111, 101, 120, 101, 99] := by
  refine ⟨by decide, by decide, fun f => by cases f <;> decide, fun v => ?_, by decide⟩
  cases v <;> (simp only [Valued.long]; decide)

theorem nosuid_unknown : Unknown [110, 111, 115, 117, 105, 100] := by
  refine ⟨by decide, by decide, fun f => by cases f <;> decide, fun v => ?_, by decide⟩
  cases v <;> (simp only [Valued.long]; decide)

theorem letters_unknown : UnknownLetter 114 ∧ UnknownLetter 88 ∧ UnknownLetter 83 := by
  refine ⟨⟨by decide, fun f => by cases f <;> decide, fun v => ?_, by decide⟩,
    ⟨by decide, fun f => by cases f <;> decide, fun v => ?_, by decide⟩,
    ⟨by decide, fun f => by cases f <;> decide, fun v => ?_, by decide⟩⟩ <;> cases v <;> (simp only [Valued.short]; decide)

/-- The help text offers "--rdonly", "--noexec" and "--nosuid" (and letters for them), but the command
refuses them, whatever else is given. -/
theorem C71_documented_violated (ps : List Part) (hp : ∀ p ∈ ps, p.Ok) (rest : List Word) :
    ∀ o ∈ [(114, [114, 100, 111, 110, 108, 121]), (88, [110, 111, 101, 120, 101, 99]), (83, [110, 111, 115, 117, 105, 100])],
      o ∈ mountHelp ∧ mountArgs (ps.flatMap Part.words ++ (45 :: 45 :: o.2) :: rest) = .die ∧
        mountArgs (ps.flatMap Part.words ++ [45, o.1] :: rest) = .die := by
  obtain ⟨h1, _, h3⟩ := C71_unknown ps hp rest
  obtain ⟨l1, l2, l3⟩ := letters_unknown
  intro o ho
  simp only [List.mem_cons, List.not_mem_nil, or_false] at ho
  rcases ho with rfl | rfl | rfl
  · exact ⟨by decide, h1 _ rdonly_unknown, h3 _ [] l1⟩
  · exact ⟨by decide, h1 _ noexec_unknown, h3 _ [] l2⟩
  · exact ⟨by decide, h1 _ nosuid_unknown, h3 _ [] l3⟩

/-- The other options of the help text are known, with letter and name as told. -/
theorem C71_documented_partial : ∀ o ∈ mountHelp, o.1 ∉ [114, 88, 83] →
    ∃ d, findShort mountOds o.1 = some d ∧ findLong mountOds o.2 = some d := by
  intro o ho hn
  simp only [mountHelp, List.mem_cons, List.not_mem_nil, or_false] at ho
  rcases ho with h | h | h | h | h | h | h | h | h | h | h | h | h <;> subst h <;>
    first | exact ⟨_, rfl, rfl⟩ | exact absurd (by decide) hn

/-- An option may be given by the beginning of its name; then two sub-options, the second of which
wins; a letter for two flags; the two arguments in between. -/
example : mountArgs [[45, 45, 97, 108, 108, 111, 119, 45, 120], [109], [45, 111, 114, 111, 44, 114, 119], [45, 65, 68], [110]] =
    .ok { defaults with xattrAcl := true, allowOther := false, daemon := false } [109] [110] := by decide +kernel

example : ∃ ps : List Part, (∀ p ∈ ps, p.Ok) ∧ ps.flatMap Part.args = [[109], [110]] ∧
    last .rw .ro (ps.flatMap Part.subs) false = true ∧ Flag.noOther ∈ ps.flatMap Part.flags ∧
    lastOf Part.writeback ps true = false := by
  refine ⟨[.arg [109], .valued (.opts [.rw, .nodev]) .longEq false, .letters .noOther [.acl], .arg [110],
    .valued (.opts [.ro]) .glued false, .valued (.writeback false) .long true], ?_, rfl, rfl, by decide, rfl⟩
  intro p hp
  simp only [List.mem_cons, List.not_mem_nil, or_false] at hp
  rcases hp with rfl | rfl | rfl | rfl | rfl | rfl
  · simp [Part.Ok]
  · exact ⟨fun h => (nomatch h), fun p hp => by simp at hp, by decide⟩
  · trivial
  · simp [Part.Ok]
  · exact ⟨fun _ => by decide, fun p hp => by simp at hp, by decide⟩
  · exact ⟨fun h => (nomatch h), trivial⟩

end Silofs.Oa
