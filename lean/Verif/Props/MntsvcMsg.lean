import Verif.Props.Mntsvc
/-
C46: the message arrives as it was sent; the descriptor goes only to a client
whose mount was made; unmounting.
-/
set_option linter.unusedSimpArgs false
set_option linter.unusedVariables false
namespace Silofs.Mnt

theorem fld_skip (k v : Nat) (y : List Nat) (o n : Nat) (h : k ≤ o) :
    fld (leBytes k v ++ y) o n = fld y (o - k) n := by
  unfold fld
  rw [List.drop_append, List.drop_eq_nil_of_le (by rw [leBytes_length]; exact h), leBytes_length, List.nil_append]

theorem fld_hit (n v : Nat) (y : List Nat) : fld (leBytes n v ++ y) 0 n = v % 256 ^ n := by
  unfold fld
  rw [List.drop_zero, List.take_append_of_le_length (by rw [leBytes_length]; exact Nat.le_refl _),
    List.take_of_length_le (by rw [leBytes_length]; exact Nat.le_refl _), leVal_leBytes]

theorem byte_le (x : Bool) : [if x then 1 else 0] = leBytes 1 (if x then 1 else 0) := by
  cases x <;> rfl

/-- The bytes of the message in the order of their fields. -/
theorem encMsg_split (v : Ver) (c st fl u g m x : Nat) (a k : Bool) (p : Path) :
    encMsg v c st fl u g m x a k p =
      leBytes 4 metaMagic ++ (leBytes 2 v.major ++ (leBytes 2 v.minor ++ (leBytes 4 c ++ (leBytes 4 st ++
      (leBytes 8 fl ++ (leBytes 4 u ++ (leBytes 4 g ++ (leBytes 4 m ++ (leBytes 4 x ++
      (leBytes 1 (if a then 1 else 0) ++ (leBytes 1 (if k then 1 else 0) ++
      (List.replicate 86 0 ++ (p ++ List.replicate (1920 - p.length) 0))))))))))))) := by
  unfold encMsg
  rw [byte_le, byte_le]
  simp only [List.append_assoc]

theorem encMsg_fields (v : Ver) (c st fl u g m x : Nat) (a k : Bool) (p : Path) :
    fld (encMsg v c st fl u g m x a k p) 0 4 = metaMagic ∧
    fld (encMsg v c st fl u g m x a k p) 4 2 = v.major % 65536 ∧
    fld (encMsg v c st fl u g m x a k p) 6 2 = v.minor % 65536 ∧
    fld (encMsg v c st fl u g m x a k p) 8 4 = c % 4294967296 ∧
    fld (encMsg v c st fl u g m x a k p) 12 4 = st % 4294967296 ∧
    fld (encMsg v c st fl u g m x a k p) 16 8 = fl % 18446744073709551616 ∧
    fld (encMsg v c st fl u g m x a k p) 24 4 = u % 4294967296 ∧
    fld (encMsg v c st fl u g m x a k p) 28 4 = g % 4294967296 ∧
    fld (encMsg v c st fl u g m x a k p) 32 4 = m % 4294967296 ∧
    fld (encMsg v c st fl u g m x a k p) 36 4 = x % 4294967296 ∧
    fld (encMsg v c st fl u g m x a k p) 40 1 = (if a then 1 else 0) ∧
    fld (encMsg v c st fl u g m x a k p) 41 1 = (if k then 1 else 0) := by
  rw [encMsg_split]
  refine ⟨?_, ?_, ?_, ?_, ?_, ?_, ?_, ?_, ?_, ?_, ?_, ?_⟩
  all_goals
    repeat rw [fld_skip _ _ _ _ _ (by decide)]
    try simp only [Nat.reduceSub]
    rw [fld_hit]
    try rfl
  · cases a <;> rfl
  · cases k <;> rfl

theorem encMsg_drop (v : Ver) (c st fl u g m x : Nat) (a k : Bool) (p : Path) :
    (encMsg v c st fl u g m x a k p).drop 128 = p ++ List.replicate (1920 - p.length) 0 := by
  rw [encMsg_split]
  have step : ∀ (n v : Nat) (y : List Nat) (o : Nat), n ≤ o → (leBytes n v ++ y).drop o = y.drop (o - n) := by
    intro n v y o h
    rw [List.drop_append, List.drop_eq_nil_of_le (by rw [leBytes_length]; exact h), leBytes_length, List.nil_append]
  repeat rw [step _ _ _ _ (by decide)]
  simp only [Nat.reduceSub]
  rw [List.drop_append, List.drop_eq_nil_of_le (by simp), List.nil_append, List.length_replicate]
  rfl

theorem encMsg_length (v : Ver) (c st fl u g m x : Nat) (a k : Bool) (p : Path) (hp : p.length ≤ 1920) :
    (encMsg v c st fl u g m x a k p).length = 2048 := by
  rw [encMsg_split]
  simp only [List.length_append, leBytes_length, List.length_replicate]
  omega

theorem takeWhile_zeros (p : List Nat) (hp : ∀ b ∈ p, b ≠ 0) (n : Nat) :
    (p ++ List.replicate n 0).takeWhile (· ≠ 0) = p := by
  induction p with
  | nil => cases n <;> simp [List.replicate_succ]
  | cons b p ih =>
    have h0 := hp b (by simp)
    rw [List.cons_append, List.takeWhile_cons, if_pos (by simpa using h0), ih (fun x hx => hp x (by simp [hx]))]

/-- The values of the parameters fit their fields. -/
structure Params.Fits (m : Params) : Prop where
  flags : m.flags < 2 ^ 64
  uid : m.userId < 2 ^ 32
  gid : m.groupId < 2 ^ 32
  mode : m.rootMode < 2 ^ 32
  maxRead : m.maxRead < 2 ^ 32
  path : ∀ p, m.path = some p → p ≠ [] ∧ p.length < 1920 ∧ ∀ b ∈ p, b ≠ 0

theorem msgPath_enc (v : Ver) (c st fl u g m x : Nat) (a k : Bool) (p : Path) (hl : p.length < 1920)
    (hz : ∀ b ∈ p, b ≠ 0) :
    msgPath (encMsg v c st fl u g m x a k p) = if p = [] then none else some p := by
  unfold msgPath
  rw [encMsg_drop, List.take_of_length_le (by simp; omega), takeWhile_zeros p hz]
  simp only
  by_cases hp : p = []
  · subst hp; simp
  · rw [if_neg hp, if_pos ⟨by simpa using hp, hl⟩]

/-- **C46**, the message: a request that a client of the same version sends is
received with exactly the parameters that were given. -/
theorem C46_message_roundtrip (v : Ver) (hv : v.major < 65536 ∧ v.minor < 65536) (cmd : Nat)
    (hc : cmd = 1 ∨ cmd = 2 ∨ cmd = 3) (m : Params) (hm : m.Fits) :
    ∃ rx b, clientMsg v cmd m = some rx ∧ recvRequest v rx = .ok b ∧ fld b 8 4 = cmd ∧ toParams b = m := by
  have hcl : clientMsg v cmd m = some (encMsg v cmd 0 m.flags m.userId m.groupId m.rootMode m.maxRead
      m.allowOther m.checkOnly (m.path.getD [])) := by
    unfold clientMsg
    cases hp : m.path with
    | none => rfl
    | some p =>
      obtain ⟨h1, h2, _⟩ := hm.path p hp
      have : ¬(p.length = 0 ∨ 1920 ≤ p.length) := by
        rw [List.length_eq_zero_iff]
        rintro (h | h)
        · exact h1 h
        · omega
      simp only
      rw [if_neg this]
      rfl
  have hlp : (m.path.getD []).length < 1920 ∧ ∀ b ∈ m.path.getD [], b ≠ 0 := by
    cases hp : m.path with
    | none => simp
    | some p => exact ⟨(hm.path p hp).2.1, (hm.path p hp).2.2⟩
  refine ⟨_, encMsg v cmd 0 m.flags m.userId m.groupId m.rootMode m.maxRead m.allowOther m.checkOnly
    (m.path.getD []), hcl, ?_⟩
  have hlen := encMsg_length v cmd 0 m.flags m.userId m.groupId m.rootMode m.maxRead m.allowOther m.checkOnly
    (m.path.getD []) (by omega)
  obtain ⟨f1, f2, f3, f4, f5, f6, f7, f8, f9, f10, f11, f12⟩ := encMsg_fields v cmd 0 m.flags m.userId m.groupId
    m.rootMode m.maxRead m.allowOther m.checkOnly (m.path.getD [])
  have hpath := msgPath_enc v cmd 0 m.flags m.userId m.groupId m.rootMode m.maxRead m.allowOther m.checkOnly
    (m.path.getD []) hlp.1 hlp.2
  generalize hb : encMsg v cmd 0 m.flags m.userId m.groupId m.rootMode m.maxRead m.allowOther m.checkOnly
    (m.path.getD []) = b at *
  have hcmd : fld b 8 4 = cmd := by rw [f4]; omega
  refine ⟨?_, hcmd, ?_⟩
  · have hrl : (resetMsg v 0).length = 2048 := encMsg_length v 0 0 0 0 0 0 0 false false [] (by simp)
    have hb2 : b.take 2048 ++ (resetMsg v 0).drop (b.take 2048).length = b := by
      rw [List.take_of_length_le (by omega), hlen, List.drop_eq_nil_of_le (by omega), List.append_nil]
    unfold recvRequest
    rw [if_neg (by rw [List.take_of_length_le (by omega), hlen]; decide), hb2]
    have : checkMsg v b = .ok () := by
      unfold checkMsg
      rw [if_neg (by rw [f1]; simp), if_neg (by rw [f2]; omega), if_neg (by rw [f3]; omega),
        if_pos (by rw [hcmd]; exact hc)]
    rw [this]
  · have := hm.flags
    have := hm.uid
    have := hm.gid
    have := hm.mode
    have := hm.maxRead
    unfold toParams
    rw [hpath, f6, f7, f8, f9, f10, f11, f12]
    have e1 : (if m.path.getD [] = [] then none else some (m.path.getD [])) = m.path := by
      cases hp : m.path with
      | none => rfl
      | some p =>
        show (if p = [] then none else some p) = some p
        rw [if_neg (hm.path p hp).1]
    rw [e1, Nat.mod_eq_of_lt (by omega), Nat.mod_eq_of_lt (by omega), Nat.mod_eq_of_lt (by omega),
      Nat.mod_eq_of_lt (by omega), Nat.mod_eq_of_lt (by omega)]
    obtain ⟨q1, q2, q3, q4, q5, q6, q7, q8⟩ := m
    cases q7 <;> cases q8 <;> rfl

theorem mem_takeWhile_true (f : Nat → Bool) (l : List Nat) (x : Nat) (h : x ∈ l.takeWhile f) : f x = true := by
  induction l with
  | nil => simp at h
  | cons b l ih =>
    rw [List.takeWhile_cons] at h
    by_cases hb : f b = true
    · rw [if_pos hb] at h
      rcases List.mem_cons.1 h with rfl | h
      · exact hb
      · exact ih h
    · rw [if_neg hb] at h; simp at h

/-- Whatever arrives, a path given to the checks is non-empty, has no zero byte
and is shorter than the field. -/
theorem C46_path_terminated (b : List Nat) (p : Path) (h : (toParams b).path = some p) :
    p ≠ [] ∧ p.length < 1920 ∧ ∀ x ∈ p, x ≠ 0 := by
  have h' : msgPath b = some p := h
  unfold msgPath at h'
  simp only at h'
  by_cases hc : (((b.drop 128).take 1920).takeWhile (· ≠ 0)).length ≠ 0 ∧
      (((b.drop 128).take 1920).takeWhile (· ≠ 0)).length < 1920
  · rw [if_pos hc] at h'
    obtain rfl := Option.some.inj h'
    refine ⟨fun hz => hc.1 (by rw [hz]; rfl), hc.2, ?_⟩
    intro x hx
    have := mem_takeWhile_true _ _ x hx
    simpa using this
  · rw [if_neg hc] at h'; exact nomatch h'

/-- System calls fail with positive errors. -/
structure Env.Fine (e : Env) : Prop where
  dev : ∀ x, e.dev = .error x → 0 < x ∧ x < 2 ^ 32
  mountErr : ∀ x, e.mountErr = some x → 0 < x ∧ x < 2 ^ 32
  umountErr : ∀ x, e.umountErr = some x → 0 < x ∧ x < 2 ^ 32
  fd : ∀ f, e.dev = .ok f → 0 < f

/-- **C46**, the descriptor: it is sent exactly with the answer to a mount that
was made, and it is the descriptor of that mount; the client sees success then. -/
theorem C46_descriptor (v : Ver) (hv : v.major < 65536 ∧ v.minor < 65536) (s : Svc) (e : Env) (he : e.Fine)
    (w : Nat → World) (t : Nat) (rx : List Nat) (x : Option (Nat × Sys)) (r : Resp)
    (h : serve v s e w t rx = (x, some r)) :
    (∀ f, r.fd = some f → ∃ tm p fl d, x = some (tm, .mount p fl d) ∧ d.fd = f ∧ e.mountErr = none ∧
      clientMount v false r = (0, some f)) ∧
    (∀ tm p fl d, x = some (tm, .mount p fl d) → e.mountErr = none → r.fd = some d.fd) := by
  unfold serve at h
  cases hr : recvRequest v rx with
  | error y => rw [hr] at h; exact nomatch (Prod.mk.inj h).2
  | ok b =>
    rw [hr] at h
    simp only [Prod.mk.injEq, Option.some.injEq] at h
    obtain ⟨hx, hre⟩ := h
    have hcmdr : fld b 8 4 = 1 ∨ fld b 8 4 = 2 ∨ fld b 8 4 = 3 := by
      unfold recvRequest at hr
      by_cases h1 : (rx.take 2048).length < 56
      · rw [if_pos h1] at hr; exact nomatch hr
      rw [if_neg h1] at hr
      cases hc : checkMsg v (rx.take 2048 ++ (resetMsg v 0).drop (rx.take 2048).length) with
      | error e => rw [hc] at hr; exact nomatch hr
      | ok u =>
        rw [hc] at hr
        injection hr with hr
        rw [hr] at hc
        unfold checkMsg at hc
        by_cases c1 : fld b 0 4 ≠ metaMagic
        · rw [if_pos c1] at hc; exact nomatch hc
        rw [if_neg c1] at hc
        by_cases c2 : fld b 4 2 ≠ v.major
        · rw [if_pos c2] at hc; exact nomatch hc
        rw [if_neg c2] at hc
        by_cases c3 : v.minor < fld b 6 2
        · rw [if_pos c3] at hc; exact nomatch hc
        rw [if_neg c3] at hc
        by_cases c4 : fld b 8 4 = 1 ∨ fld b 8 4 = 2 ∨ fld b 8 4 = 3
        · exact c4
        · rw [if_neg c4] at hc; exact nomatch hc
    by_cases h2 : fld b 8 4 = 2
    · -- mount
      have hex : execRequest s e w t (fld b 8 4) (toParams b) = execMount s e w t (toParams b) := by
        unfold execRequest; rw [if_neg (by omega), if_pos h2]
      rw [hex] at hx hre
      have hcl : ∀ o : Out, o.status = 0 → response v (fld b 8 4) o = r → checkMsg v r.msg = .ok () ∧ fld r.msg 12 4 = 0 := by
        intro o ho hr'
        subst hr'
        obtain ⟨f1, f2, f3, f4, f5, _⟩ := encMsg_fields v (fld b 8 4) o.status 0 0 0 0 0 false false []
        constructor
        · show checkMsg v (encMsg v (fld b 8 4) o.status 0 0 0 0 0 false false []) = .ok ()
          unfold checkMsg
          rw [if_neg (by rw [f1]; simp), if_neg (by rw [f2]; omega), if_neg (by rw [f3]; omega),
            if_pos (by rw [f4]; omega)]
        · show fld (encMsg v (fld b 8 4) o.status 0 0 0 0 0 false false []) 12 4 = 0
          rw [f5, ho]
      unfold execMount at hx hre
      cases hc : checkMount s w t (toParams b) with
      | error y =>
        rw [hc] at hx hre
        subst hx; subst hre
        exact ⟨fun f hf => (nomatch hf), fun _ _ _ _ hq => (nomatch hq)⟩
      | ok u =>
        rw [hc] at hx hre
        simp only at hx hre
        by_cases hk : (toParams b).checkOnly = true
        · rw [if_pos hk] at hx hre
          subst hx; subst hre
          exact ⟨fun f hf => (nomatch hf), fun _ _ _ _ hq => (nomatch hq)⟩
        rw [if_neg hk] at hx hre
        cases hp : (toParams b).path with
        | none =>
          rw [hp] at hx hre
          subst hx; subst hre
          exact ⟨fun f hf => (nomatch hf), fun _ _ _ _ hq => (nomatch hq)⟩
        | some p =>
          rw [hp] at hx hre
          simp only at hx hre
          unfold doMount at hx hre
          cases hd : e.dev with
          | error y =>
            rw [hd] at hx hre
            subst hx; subst hre
            exact ⟨fun f hf => (nomatch hf), fun _ _ _ _ hq => (nomatch hq)⟩
          | ok fd =>
            rw [hd] at hx hre
            simp only at hx hre
            have hfd := he.fd fd hd
            cases hme : e.mountErr with
            | some y =>
              rw [hme] at hx hre
              subst hx; subst hre
              exact ⟨fun f hf => (nomatch hf), fun _ _ _ _ _ hq => (nomatch hq)⟩
            | none =>
              rw [hme] at hx hre
              simp only at hx hre
              have hst := hcl _ rfl hre
              have hrfd : r.fd = some fd := by
                rw [← hre]
                show (if 0 < fd then some fd else none) = some fd
                rw [if_pos hfd]
              subst hx
              refine ⟨?_, ?_⟩
              · intro f hf
                have hff : fd = f := by rw [hrfd] at hf; exact Option.some.inj hf
                refine ⟨_, _, _, _, rfl, hff, rfl, ?_⟩
                unfold clientMount
                rw [hst.1]
                simp only
                rw [if_neg (by rw [hst.2]; simp), hf]
              · intro tm q fl d hq _
                simp only [Option.some.injEq, Prod.mk.injEq, Sys.mount.injEq] at hq
                rw [hrfd, ← hq.2.2.2]
                rfl
    · -- not a mount
      have hno : (execRequest s e w t (fld b 8 4) (toParams b)).fd = none ∧
          ∀ tm p fl d, (execRequest s e w t (fld b 8 4) (toParams b)).sys ≠ some (tm, .mount p fl d) := by
        unfold execRequest
        by_cases h1 : fld b 8 4 = 1
        · rw [if_pos h1]; exact ⟨rfl, fun _ _ _ _ hq => nomatch hq⟩
        rw [if_neg h1, if_neg h2]
        by_cases h3 : fld b 8 4 = 3
        · rw [if_pos h3]
          refine ⟨?_, fun tm p fl d hq => execUmount_not_mount hq⟩
          unfold execUmount doUmount
          cases checkUmount s w t (toParams b) with
          | error y =>
            simp only
            by_cases hy : y ≠ 107
            · rw [if_pos hy]
            · rw [if_neg hy]; cases (toParams b).path <;> rfl
          | ok u => cases (toParams b).path <;> rfl
        · rw [if_neg h3]; exact ⟨rfl, fun _ _ _ _ hq => nomatch hq⟩
      subst hx; subst hre
      refine ⟨?_, fun tm p fl d hq => absurd hq (hno.2 tm p fl d)⟩
      intro f hf
      have hf' : (match (execRequest s e w t (fld b 8 4) (toParams b)).fd with
        | some f => if 0 < f then some f else none
        | none => none) = some f := hf
      rw [hno.1] at hf'
      exact nomatch hf'

/-! ### Unmounting -/

/-- Two paths equal but for the number of leading slashes. -/
def SamePath (p q : Path) : Prop :=
  ∃ i j r, r ≠ [] ∧ r.head? ≠ some 47 ∧ p = List.replicate i 47 ++ r ∧ q = List.replicate j 47 ++ r

theorem trimSlash_split (p : Path) : ∃ i, p = List.replicate i 47 ++ trimSlash p ∧ (trimSlash p).head? ≠ some 47 := by
  induction p with
  | nil => exact ⟨0, rfl, by simp [trimSlash]⟩
  | cons b p ih =>
    unfold trimSlash at *
    rw [List.dropWhile_cons]
    by_cases hb : b = 47
    · obtain ⟨i, h1, h2⟩ := ih
      rw [if_pos (by simpa using hb)]
      refine ⟨i + 1, ?_, h2⟩
      rw [hb, List.replicate_succ, List.cons_append, ← h1]
    · rw [if_neg (by simpa using hb)]
      exact ⟨0, rfl, by simpa using hb⟩

theorem equalMntpath_same {p q : Path} (h : equalMntpath p q = true) : SamePath p q := by
  unfold equalMntpath at h
  simp only [Bool.and_eq_true, Bool.not_eq_true', beq_iff_eq] at h
  obtain ⟨h1, h2⟩ := h
  obtain ⟨i, a1, a2⟩ := trimSlash_split p
  obtain ⟨j, b1, b2⟩ := trimSlash_split q
  refine ⟨i, j, trimSlash p, ?_, a2, a1, ?_⟩
  · intro hz; rw [hz] at h1; exact nomatch h1
  · rw [h2]; exact b1

theorem trimSlash_app (i : Nat) (r : Path) (h : r.head? ≠ some 47) : trimSlash (List.replicate i 47 ++ r) = r := by
  induction i with
  | zero =>
    cases r with
    | nil => rfl
    | cons b r =>
      unfold trimSlash
      rw [List.replicate_zero, List.nil_append, List.dropWhile_cons, if_neg (by simpa using h)]
  | succ i ih =>
    unfold trimSlash at *
    rw [List.replicate_succ, List.cons_append, List.dropWhile_cons, if_pos (by decide), ih]

theorem equalMntpath_iff (p q : Path) : equalMntpath p q = true ↔ SamePath p q := by
  constructor
  · exact equalMntpath_same
  · rintro ⟨i, j, r, h1, h2, rfl, rfl⟩
    unfold equalMntpath
    rw [trimSlash_app i r h2, trimSlash_app j r h2]
    cases r with
    | nil => exact absurd rfl h1
    | cons => simp

theorem umount_flags {f : Nat} (h : f ||| 3 = 3) : f % 4294967296 ≤ 3 := by
  have : f ≤ f ||| 3 := Nat.left_le_or
  omega

/-- **C46**, unmounting, partial: with at least one rule, and if the mount point
answers stat otherwise than by ENOTCONN, an unmount is made only if the first
rule for the path (up to leading slashes) lets the peer, and only with flags
FORCE and DETACH; the path was then a directory with inode 1 or not accessible. -/
theorem C46_umount_partial (v : Ver) (s : Svc) (e : Env) (w : Nat → World) (t : Nat) (rx : List Nat) (tm : Nat)
    (p : Path) (fl : Nat) (resp : Option Resp) (rs : List Rule) (hrs : s.rules = some rs) (hne : rs ≠ [])
    (hst : (w t).stat p ≠ .error 107)
    (h : serve v s e w t rx = (some (tm, .umount p fl), resp)) :
    fl ≤ 3 ∧ (∃ pre r post, rs = pre ++ r :: post ∧ r.Lets s.peerUid ∧ SamePath r.path p ∧
        ∀ x ∈ pre, ¬ SamePath x.path p) ∧
      ((w t).stat p = .error 13 ∨ ∃ st, (w t).stat p = .ok st ∧ st.mode &&& 0xF000 = 0x4000 ∧ st.ino = 1) := by
  obtain ⟨b, hb, hs⟩ := serve_sys h
  unfold execRequest at hs
  by_cases h1 : fld b 8 4 = 1
  · rw [if_pos h1] at hs; exact nomatch hs
  rw [if_neg h1] at hs
  by_cases h2 : fld b 8 4 = 2
  · rw [if_pos h2] at hs
    exfalso
    unfold execMount doMount at hs
    cases hc : checkMount s w t (toParams b) with
    | error x => rw [hc] at hs; exact nomatch hs
    | ok u =>
      rw [hc] at hs
      simp only at hs
      by_cases hk : (toParams b).checkOnly = true
      · rw [if_pos hk] at hs; exact nomatch hs
      rw [if_neg hk] at hs
      cases hp : (toParams b).path <;> rw [hp] at hs <;> simp only at hs
      · exact nomatch hs
      · cases hd : e.dev <;> rw [hd] at hs <;> simp only at hs
        · exact nomatch hs
        · cases hm : e.mountErr <;> rw [hm] at hs <;> simp at hs
  rw [if_neg h2] at hs
  by_cases h3 : fld b 8 4 = 3
  case neg => rw [if_neg h3] at hs; exact nomatch hs
  rw [if_pos h3] at hs
  generalize toParams b = m at hs
  unfold execUmount doUmount checkUmount at hs
  cases hp : m.path with
  | none =>
    rw [hp] at hs
    simp only at hs
    rw [if_pos (by decide)] at hs
    exact nomatch hs
  | some q =>
    rw [hp] at hs
    simp only at hs
    by_cases c1 : q = []
    · rw [if_pos c1] at hs; simp at hs
    rw [if_neg c1] at hs
    by_cases c2 : m.flags &&& (0xFFFFFFFFFFFFFFFF ^^^ 3) ≠ 0
    · rw [if_pos c2] at hs; simp at hs
    rw [if_neg c2] at hs
    by_cases c3 : m.flags ||| 3 ≠ 3
    · rw [if_pos c3] at hs; simp at hs
    rw [if_neg c3] at hs
    have hfl := umount_flags (Classical.not_not.mp c3)
    -- the path is the one of the effect in every case
    have hqp : q = p ∧ fl = m.flags % 4294967296 := by
      cases hc : checkUmountPath w t q s.peerUid (decide (m.flags &&& 1 ≠ 0)) with
      | error x =>
        rw [hc] at hs
        simp only at hs
        by_cases hx : x ≠ 107
        · rw [if_pos hx] at hs; exact nomatch hs
        · rw [if_neg hx] at hs
          simp only [Option.some.injEq, Prod.mk.injEq, Sys.umount.injEq] at hs
          exact ⟨hs.2.1, hs.2.2.symm⟩
      | ok u =>
        rw [hc] at hs
        simp only at hs
        cases hcr : checkUmountRule s q with
        | error x =>
          rw [hcr] at hs
          simp only at hs
          by_cases hx : x ≠ 107
          · rw [if_pos hx] at hs; exact nomatch hs
          · rw [if_neg hx] at hs
            simp only [Option.some.injEq, Prod.mk.injEq, Sys.umount.injEq] at hs
            exact ⟨hs.2.1, hs.2.2.symm⟩
        | ok u =>
          rw [hcr] at hs
          simp only [Option.some.injEq, Prod.mk.injEq, Sys.umount.injEq] at hs
          exact ⟨hs.2.1, hs.2.2.symm⟩
    obtain ⟨rfl, hf⟩ := hqp
    rw [hf]
    refine ⟨hfl, ?_, ?_⟩
    · -- the rule
      cases hc : checkUmountPath w t q s.peerUid (decide (m.flags &&& 1 ≠ 0)) with
      | error x =>
        exfalso
        have hx107 : x ≠ 107 := by
          unfold checkUmountPath checkMntpoint at hc
          intro hx
          subst hx
          cases hq : (w t).stat q with
          | error y =>
            rw [hq] at hc
            simp only at hc
            by_cases hy : y = 13 ∧ True
            · rw [if_pos hy] at hc; exact nomatch hc
            rw [if_neg hy] at hc
            simp only at hc
            by_cases hy2 : y ≠ 107
            · rw [if_pos hy2] at hc; injection hc with hc; exact hy2 hc
            · exact hst (by rw [hq, Classical.not_not.mp hy2])
          | ok st =>
            rw [hq] at hc
            simp only at hc
            by_cases d1 : isDir st.mode = false
            · rw [if_pos d1] at hc; simp at hc
            rw [if_neg d1, if_neg (by decide)] at hc
            by_cases d2 : st.ino ≠ 1
            · rw [if_pos d2] at hc; simp at hc
            · rw [if_neg d2] at hc; exact nomatch hc
        rw [hc] at hs
        simp only at hs
        rw [if_pos hx107] at hs
        exact nomatch hs
      | ok u =>
        rw [hc] at hs
        simp only at hs
        cases hl : rs with
        | nil => exact absurd hl hne
        | cons r0 l0 =>
          unfold checkUmountRule at hs
          rw [hrs, hl] at hs
          simp only at hs
          cases hfi : (r0 :: l0).find? (fun x => equalMntpath x.path q) with
          | none => rw [hfi] at hs; simp at hs
          | some r =>
            rw [hfi] at hs
            simp only at hs
            by_cases hu : r.uid ≠ uidNone ∧ r.uid ≠ s.peerUid
            · rw [if_pos hu] at hs; simp at hs
            obtain ⟨g1, pre, post, g2, g3⟩ := List.find?_eq_some_iff_append.1 hfi
            refine ⟨pre, r, post, g2, ?_, (equalMntpath_iff _ _).1 g1, ?_⟩
            · unfold Rule.Lets; unfold uidNone at hu; omega
            · intro x hx hsame
              have := g3 x hx
              rw [(equalMntpath_iff _ _).2 hsame] at this
              exact nomatch this
    · cases hq : (w t).stat q with
      | error y =>
        by_cases hy : y = 13
        · left; rw [hy]
        · exfalso
          have hc : checkUmountPath w t q s.peerUid (decide (m.flags &&& 1 ≠ 0)) = .error y := by
            unfold checkUmountPath checkMntpoint
            rw [hq]
            simp only
            rw [if_neg (fun hh => hy hh.1)]
            simp only
            rw [if_pos (fun hh => hst (by rw [hq, hh]))]
          rw [hc] at hs
          simp only at hs
          rw [if_pos (fun hh => hst (by rw [hq, hh]))] at hs
          exact nomatch hs
      | ok st =>
        right
        by_cases d1 : isDir st.mode = false
        · exfalso
          have hc : checkUmountPath w t q s.peerUid (decide (m.flags &&& 1 ≠ 0)) = .error 1020 := by
            unfold checkUmountPath checkMntpoint
            rw [hq]
            simp only
            rw [if_pos d1]
            rfl
          rw [hc] at hs
          simp at hs
        · by_cases d2 : st.ino ≠ 1
          · exfalso
            have hc : checkUmountPath w t q s.peerUid (decide (m.flags &&& 1 ≠ 0)) = .error 1022 := by
              unfold checkUmountPath checkMntpoint
              rw [hq]
              simp only
              rw [if_neg d1, if_neg (by decide), if_pos d2]
              rfl
            rw [hc] at hs
            simp at hs
          · exact ⟨st, rfl, by simpa [isDir] using d1, Classical.not_not.mp d2⟩

end Silofs.Mnt
