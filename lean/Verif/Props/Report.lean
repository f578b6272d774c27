import Verif.Props.ReportMem
import Verif.Props.AllocProps
/-
C65: what the file-system reports about itself — queries (`silofs show`), statx, statfs, tuning.
-/
set_option linter.unusedSimpArgs false
namespace Silofs.Rep
open Silofs Silofs.Addr Silofs.Space

/-! ### What a mounted file-system looks like -/

/-- A counter fits its place. -/
def Small (k : Int) : Prop := -9223372036854775808 < k ∧ k < 9223372036854775808

structure EnvOk (e : Env) : Prop where
  ver : (∀ c ∈ e.verString, c ≠ 0) ∧ e.verString.length < 512
  vers : e.verMajor < 4294967296 ∧ e.verMinor < 4294967296 ∧ e.verSub < 4294967296
  repo : (∀ c ∈ e.repodir, c ≠ 0) ∧ e.repodir.length < 1536
  name : (∀ c ∈ e.name, c ≠ 0) ∧ e.name.length ≤ 255
  addr : e.bootAddr.Fits ∧ Caddr.checkCtypeSize e.bootAddr.ctype e.bootAddr.size = true
  uuids : e.fsUuid.length = 16 ∧ e.lvUuid.length = 16
  ids : e.uid < 4294967296 ∧ e.gid < 4294967296
  times : IsI64 e.pid ∧ IsI64 e.uptime
  nums : e.msflags < 18446744073709551616 ∧ e.iopenMax < 18446744073709551616 ∧
    e.iopenCur < 18446744073709551616 ∧ e.memMax < 18446744073709551616 ∧
    e.memCur < 18446744073709551616 ∧ e.bopenCur < 18446744073709551616
  stTimes : IsI64 e.curr.btime ∧ IsI64 e.curr.ctime
  stNums : e.curr.capacity < 18446744073709551616 ∧ e.curr.vspacesize < 18446744073709551616 ∧
    e.curr.generation < 18446744073709551616
  gauges : ∀ t, Small (e.curr.lsegs t + e.base.lsegs t) ∧ Small (e.curr.bks t + e.base.bks t) ∧
    Small (e.curr.objs t + e.base.objs t)

structure InoOk (i : Ino) : Prop where
  small : i.ino < 18446744073709551616 ∧ i.size < 18446744073709551616 ∧ i.kbs < 4503599627370496
  w32 : i.mode < 65536 ∧ i.nlink < 4294967296 ∧ i.uid < 4294967296 ∧ i.gid < 4294967296
  rdev : i.rdevMajor < 4294967296 ∧ i.rdevMinor < 4294967296
  flags : i.iflags < 4294967296 ∧ i.dirflags < 4294967296
  times : IsI64 i.atime.sec ∧ IsI64 i.btime.sec ∧ IsI64 i.ctime.sec ∧ IsI64 i.mtime.sec
  nsecs : i.atime.nsec < 1000000000 ∧ i.btime.nsec < 1000000000 ∧ i.ctime.nsec < 1000000000 ∧
    i.mtime.nsec < 1000000000

def ReqOk : Req → Prop
  | .attr _ => True
  | .query e _ _ _ _ => EnvOk e

/-- The request `silofs show` sends: 2048 bytes in and out, the query type first. -/
def ask (q : Nat) (rest : List Nat) : Ioc := ⟨0, 0xC8005301, 2048, 2048, leBytes 4 q ++ rest⟩

/-! ### Sizes -/

theorem toName_length (c : Caddr) (h : c.Fits) : (Caddr.toName c).length ≤ 100 := by
  obtain ⟨⟨hl, hb⟩, hs, ht⟩ := h
  have hml : (memToAscii c.hash 255).length = 64 := by rw [memToAscii_length _ _ (by omega)]; omega
  have hd1 := Caddr.digits_length_le 10 1 1 (by decide) (by decide) (by decide)
  have hd2 := Caddr.digits_length_le 10 c.ctype 3 (by decide) (by decide) (by omega)
  have hd3 := Caddr.digits_length_le 16 c.size 8 (by decide) (by decide) (by omega)
  unfold Caddr.toName Caddr.prefix_
  simp only [List.length_append, List.length_cons, List.length_nil]
  omega

theorem mem_ne0 (l : List Nat) : ∀ n, ∀ c ∈ memToAscii l n, c ≠ 0 := by
  induction l with
  | nil => intro n c h; cases h
  | cons b l ih =>
    intro n c h
    rw [memToAscii] at h
    split at h
    · cases h
    · rcases List.mem_append.mp h with h | h
      · unfold byteToAscii at h
        simp only [List.mem_cons, List.not_mem_nil, or_false] at h
        rcases h with h | h <;> subst h <;> exact nib_ne _
      · exact ih _ c h

theorem toName_ne (c : Caddr) : ∀ x ∈ Caddr.toName c, x ≠ 0 := by
  intro x hx
  unfold Caddr.toName at hx
  simp only [List.mem_append] at hx
  rcases hx with h | h | h | h | h | h | h | h
  · unfold Caddr.prefix_ at h; revert x; decide
  · exact digits_ne _ _ x h
  · rw [List.mem_singleton] at h; omega
  · exact digits_ne _ _ x h
  · rw [List.mem_singleton] at h; omega
  · exact digits_ne _ _ x h
  · rw [List.mem_singleton] at h; omega
  · exact mem_ne0 _ _ x h

theorem zeros_length (n : Nat) : (zeros n).length = n := List.length_replicate

theorem tsBytes_length (t : Ts) : (tsBytes t).length = 16 := by
  unfold tsBytes; simp only [List.length_append, leBytes_length]

/-- Places of the fields of a struct statx. -/
theorem stx_spans (o : Nat) (x : Statx) : spans (stxFields o x) =
    [(o, 4), (o + 4, 4), (o + 8, 8), (o + 16, 4), (o + 20, 4), (o + 24, 4), (o + 28, 2), (o + 32, 8),
     (o + 40, 8), (o + 48, 8), (o + 56, 8), (o + 64, 16), (o + 80, 16), (o + 96, 16), (o + 112, 16),
     (o + 128, 4), (o + 132, 4)] := by
  simp only [spans, stxFields, List.map_cons, List.map_nil, leBytes_length, tsBytes_length]

theorem gaugeOff_none (t : Nat) (h : t = 0 ∨ 13 ≤ t) : gaugeOff t = none := by
  unfold gaugeOff LTYPE_SUPER LTYPE_SPNODE LTYPE_SPLEAF LTYPE_INODE LTYPE_XANODE LTYPE_SYMVAL LTYPE_DTNODE
    LTYPE_FTNODE LTYPE_DATA1K LTYPE_DATA4K LTYPE_DATABK
  rw [if_neg (show ¬ t = 2 by omega), if_neg (show ¬ t = 3 by omega), if_neg (show ¬ t = 4 by omega),
    if_neg (show ¬ t = 5 by omega), if_neg (show ¬ t = 6 by omega), if_neg (show ¬ t = 7 by omega),
    if_neg (show ¬ t = 8 by omega), if_neg (show ¬ t = 9 by omega), if_neg (show ¬ t = 10 by omega),
    if_neg (show ¬ t = 11 by omega), if_neg (show ¬ t = 12 by omega)]

theorem gaugeFields_eq (o : Nat) (g : Gauges) : gaugeFields o g =
    [(o + 0, leBytes 8 (gaugeEnc (g 2))), (o + 8, leBytes 8 (gaugeEnc (g 3))),
     (o + 16, leBytes 8 (gaugeEnc (g 4))), (o + 32, leBytes 8 (gaugeEnc (g 5))),
     (o + 40, leBytes 8 (gaugeEnc (g 6))), (o + 56, leBytes 8 (gaugeEnc (g 7))),
     (o + 48, leBytes 8 (gaugeEnc (g 8))), (o + 64, leBytes 8 (gaugeEnc (g 9))),
     (o + 72, leBytes 8 (gaugeEnc (g 10))), (o + 80, leBytes 8 (gaugeEnc (g 11))),
     (o + 88, leBytes 8 (gaugeEnc (g 12)))] := rfl

theorem gauge_mem (o : Nat) (g : Gauges) (t k : Nat) (h : gaugeOff t = some k) :
    (o + k, leBytes 8 (gaugeEnc (g t))) ∈ gaugeFields o g := by
  unfold gaugeFields
  rw [List.mem_filterMap]
  refine ⟨t, ?_, by rw [h]; rfl⟩
  rw [List.mem_range'_1]
  by_cases h0 : t = 0 ∨ 13 ≤ t
  · rw [gaugeOff_none t h0] at h; cases h
  · omega

theorem gauge_spans (o : Nat) (g : Gauges) : spans (gaugeFields o g) =
    [(o + 0, 8), (o + 8, 8), (o + 16, 8), (o + 32, 8), (o + 40, 8), (o + 56, 8), (o + 48, 8), (o + 64, 8),
     (o + 72, 8), (o + 80, 8), (o + 88, 8)] := by
  rw [gaugeFields_eq]
  simp only [spans, List.map_cons, List.map_nil, leBytes_length]

theorem stats_apart (s : Stats) : apart 2048 (spans (statsFields 64 s)) = true := by
  have h : spans (statsFields 64 s) = [(64, 8), (72, 8), (80, 8), (88, 8), (96, 8)] ++
      spans (gaugeFields 320 s.lsegs) ++ spans (gaugeFields 576 s.bks) ++ spans (gaugeFields 832 s.objs) := by
    unfold statsFields
    simp only [spans, List.map_append, List.map_cons, List.map_nil, leBytes_length]
  rw [h, gauge_spans, gauge_spans, gauge_spans]
  decide

/-- The memory of the answer before the query is answered. -/
theorem base_length (b : List Nat) (h : b.length = 2048) : (put b 64 (zeros 1984)).length = 2048 := by
  rw [put_length _ _ _ (by rw [zeros_length]; omega), h]

theorem fillBoot_spans (e : Env) (he : EnvOk e) (n : Nat) (hn : n = 2048) :
    apart n (spans [(64 + 512, Caddr.toName e.bootAddr ++ [0]), (64 + 1024, e.fsUuid), (64 + 1040, e.lvUuid)])
      = true := by
  have h1 := toName_length e.bootAddr he.addr.1
  subst hn
  simp only [spans, List.map_cons, List.map_nil, apart, List.length_append, List.length_singleton, he.uuids.1,
    he.uuids.2, List.all_cons, List.all_nil, Bool.and_eq_true, Bool.and_true, decide_eq_true_eq]
  omega

theorem doQuery_length (e : Env) (he : EnvOk e) (i : Ino) (racc perm : Option Nat) (q : Nat) (b : List Nat)
    (h : b.length = 2048) : (doQuery e i racc perm q b).2.length = 2048 := by
  have hb := base_length b h
  unfold doQuery
  cases racc with
  | some er => exact h
  | none =>
    simp only
    repeat' split
    · unfold fillVersion
      have hp : (puts (put b 64 (zeros 1984)) [(64 + 512, leBytes 4 e.verMajor), (64 + 516, leBytes 4 e.verMinor),
          (64 + 520, leBytes 4 e.verSub)]).length = 2048 := by
        rw [puts_length _ _ (by rw [hb]; simp only [spans, List.map_cons, List.map_nil, leBytes_length]; decide), hb]
      rw [strToBuf_length _ _ _ _ (by decide) (by rw [hp]; decide), hp]
    · unfold fillRepo
      rw [strToBuf_length _ _ _ _ (by decide) (by rw [hb]; decide), hb]
    · unfold fillBoot
      have hp := strToBuf_length (put b 64 (zeros 1984)) 64 512 e.name (by decide) (by rw [hb]; decide)
      rw [puts_length _ _ (fillBoot_spans e he _ (by rw [hp, hb])), hp, hb]
    · unfold fillProc
      rw [puts_length' _ _ (by
        rw [hb]; simp only [spans, List.map_cons, List.map_nil, leBytes_length, zeros_length]; decide), hb]
    · unfold fillSpstats
      show (puts (put (put b 64 (zeros 1984)) 64 (zeros 1024)) _).length = _
      have hp : (put (put b 64 (zeros 1984)) 64 (zeros 1024)).length = 2048 := by
        rw [put_length _ _ _ (by rw [zeros_length]; omega), hb]
      rw [puts_length _ _ (by rw [hp]; exact stats_apart _), hp]
    · unfold fillStatx
      cases perm with
      | some e => exact hb
      | none =>
        simp only
        rw [puts_length' _ _ ?_, hb]
        rw [hb]
        have h : ∀ l : List (Nat × List Nat), spans (stxFields 64 (statxOf i 0xfff) ++
            [(64 + 256, leBytes 4 i.iflags)] ++ l) = spans (stxFields 64 (statxOf i 0xfff)) ++ [(320, 4)] ++ spans l := by
          intro l; simp only [spans, List.map_append, List.map_cons, List.map_nil, leBytes_length]
        rw [h, stx_spans]
        split
        · simp only [spans, List.map_cons, List.map_nil, leBytes_length]; decide
        · decide
    · exact hb

theorem serve_length (out : List Nat) (r : Req) (hr : ReqOk r) (h : out.length = 2048) :
    (serve out r).2.length = 2048 := by
  cases r with
  | attr i =>
    show (puts out (statFields (statOf i))).length = 2048
    rw [puts_length _ _ ?_, h]
    rw [h]
    simp only [spans, statFields, List.map_cons, List.map_nil, leBytes_length]
    decide
  | query e i racc perm r =>
    show (iocQuery e i racc perm r out).2.length = 2048
    have hd := doQuery_length e hr i racc perm (leVal (get r.buf 0 4)) out h
    unfold iocQuery
    repeat' split
    · exact h
    · exact h
    · exact h
    · exact h
    · rename_i he; rw [he] at hd; exact hd
    · rename_i he; rw [he] at hd; exact hd

theorem served_length (rs : List Req) (h : ∀ r ∈ rs, ReqOk r) : (served rs).length = 2048 := by
  unfold served
  suffices ∀ (rs : List Req) (b : List Nat), (∀ r ∈ rs, ReqOk r) → b.length = 2048 →
      (rs.foldl (fun out r => (serve out r).2) b).length = 2048 from this rs _ h (zeros_length _)
  intro rs
  induction rs with
  | nil => intro b _ hb; exact hb
  | cons r rs ih =>
    intro b hr hb
    exact ih _ (fun x hx => hr x (List.mem_cons_of_mem _ hx)) (serve_length b r (hr r List.mem_cons_self) hb)

theorem ask_get (q : Nat) (rest : List Nat) : leVal (get (ask q rest).buf 0 4) = q % 4294967296 := by
  unfold get ask
  simp only [List.drop_zero]
  rw [List.take_left' (leBytes_length 4 q), leVal_leBytes]

/-- The answer to a query that is permitted. -/
theorem ask_ans (rs : List Req) (hrs : ∀ r ∈ rs, ReqOk r) (e : Env) (he : EnvOk e) (i : Ino) (q : Nat)
    (hq : q < 7) (hq0 : 0 < q) (rest : List Nat) :
    (serve (served rs) (.query e i none none (ask q rest))).1 =
      .bytes (doQuery e i none none q (served rs)).2 := by
  show (iocQuery e i none none (ask q rest) (served rs)).1 = _
  have hl := doQuery_length e he i none none q (served rs) (served_length rs hrs)
  unfold iocQuery
  rw [ask_get, Nat.mod_eq_of_lt (by omega)]
  rw [if_neg (by unfold ask; simp), if_neg (by unfold ask; simp), if_neg (by unfold ask; simp),
    if_neg (by unfold ask; simp)]
  have hn : (doQuery e i none none q (served rs)).1 = none := by
    unfold doQuery fillStatx
    simp only
    repeat' split
    all_goals (first | rfl | omega)
  generalize hd : doQuery e i none none q (served rs) = d at hl hn
  obtain ⟨er, b⟩ := d
  simp only at hn hl
  subst hn
  simp only
  rw [List.take_of_length_le (by omega)]

end Silofs.Rep
