import Verif.Props.Mountd
import Verif.Props.MntsvcCases
/-
What one client can do to all others (C77), for daemons of any configuration; and cases.
-/
set_option linter.unusedSimpArgs false
set_option linter.unusedVariables false
namespace Silofs.Md

open Silofs.Mnt (Resp Sys Env)

/-- A client of some user which sends one byte and a descriptor. -/
def stub (uid : Nat) : Conn := ⟨0, uid, uid, [0], false, 1, false, false⟩

/-- One which sends nothing at all. -/
def mute (uid : Nat) : Conn := ⟨0, uid, uid, [], false, 0, false, false⟩

/-- One whose descriptor cannot be closed without error. -/
def trap (uid : Nat) : Conn := ⟨0, uid, uid, List.replicate 56 0, false, 1, true, false⟩

/-- The first `n` of such clients. -/
def stubs (uid : Nat) : Nat → List Happen
  | 0 => []
  | n + 1 => .arrive (stub uid) :: .turn :: stubs uid n

theorem stub_step (g : Cfg) (uid : Nat) (s : Srv) (hup : s.up = true) (ha : s.active = true) (hb : s.busy = none)
    (hq : s.queue = []) (hf : s.fds + 1 ≤ g.max) :
    (turn g (step g s (.arrive (stub uid)))).up = true ∧ (turn g (step g s (.arrive (stub uid)))).active = true ∧
    (turn g (step g s (.arrive (stub uid)))).busy = none ∧ (turn g (step g s (.arrive (stub uid)))).queue = [] ∧
    (turn g (step g s (.arrive (stub uid)))).fds = s.fds + min 1 (g.max - (s.fds + 1)) ∧
    ∀ e, e ∈ (turn g (step g s (.arrive (stub uid)))).log → e ∈ s.log ∨ ¬ Mounts e := by
  have hw : waits (stub uid) = false := rfl
  have hl : (List.take 2048 (stub uid).bytes).length < 56 := by show 1 < 56; omega
  unfold turn step
  dsimp only
  rw [if_neg (by rw [hup, ha]; decide), hb, hq]
  dsimp only [List.nil_append]
  rw [if_neg (by omega), if_neg (by rw [hw]; decide)]
  unfold finish
  rw [if_pos hl]
  refine ⟨hup, ha, rfl, rfl, rfl, fun e he => ?_⟩
  rcases List.mem_append.mp he with h | h
  · exact Or.inl h
  · rw [List.mem_singleton.mp h]; exact Or.inr id

theorem stubs_run (g : Cfg) (uid : Nat) (n : Nat) (s : Srv) (hup : s.up = true) (ha : s.active = true)
    (hb : s.busy = none) (hq : s.queue = []) (hf : s.fds + 1 ≤ g.max) (hn : g.max ≤ s.fds + 1 + n) :
    g.max < (run g (stubs uid n) s).fds + 2 ∧ ∀ e, e ∈ (run g (stubs uid n) s).log → e ∈ s.log ∨ ¬ Mounts e := by
  induction n generalizing s with
  | zero => exact ⟨by show g.max < s.fds + 2; omega, fun e he => Or.inl he⟩
  | succ n ih =>
    obtain ⟨h1, h2, h3, h4, h5, h6⟩ := stub_step g uid s hup ha hb hq hf
    obtain ⟨k1, k2⟩ := ih (turn g (step g s (.arrive (stub uid)))) h1 h2 h3 h4 (by rw [h5]; omega)
      (by rw [h5]; omega)
    exact ⟨k1, fun e he => by
      rcases k2 e he with h | h
      · exact h6 e h
      · exact Or.inr h⟩

/-- False: "what others send does not keep a user from mounting".  For a daemon of any configuration, a user
whom no rule lets can send it so many one-byte messages with a descriptor that it never again mounts anything
for anybody: a message too short is refused before anyone looks for the descriptor which came with it. -/
theorem C77_descriptors_violated (g : Cfg) (uid : Nat) : ∃ l : List Happen,
    (∀ c, Happen.arrive c ∈ l → c.uid = uid ∧ c.bytes = [0]) ∧
    ∀ l' e, e ∈ (run g (l ++ l') start).log → ¬ Mounts e := by
  have hmem : ∀ n c, Happen.arrive c ∈ stubs uid n → c = stub uid := by
    intro n
    induction n with
    | zero => intro c hc; cases hc
    | succ n ih =>
      intro c hc
      rcases List.mem_cons.mp hc with h | h
      · injection h
      · rcases List.mem_cons.mp h with h | h
        · cases h
        · exact ih c h
  refine ⟨stubs uid g.max, fun c hc => by rw [hmem _ c hc]; exact ⟨rfl, rfl⟩, fun l' e he hm => ?_⟩
  rw [run_append] at he
  by_cases hg : 1 ≤ g.max
  · obtain ⟨k1, k2⟩ := stubs_run g uid g.max start rfl rfl rfl rfl (by show 0 + 1 ≤ _; omega) (by
      show g.max ≤ 0 + 1 + g.max; omega)
    rcases k2 e (C77_full g l' _ k1 e he hm) with h | h
    · cases h
    · exact h hm
  · have h0 := C77_full g (stubs uid g.max ++ l') start (by show g.max < 0 + 2; omega) e (by
      rw [run_append]; exact he) hm
    cases h0

/-- False: "a client which says nothing is not waited for".  For a daemon of any configuration with room for a
connection: after one which says nothing nobody is served, ever, unless the daemon is told to stop: the socket
blocks and there is no time-out. -/
theorem C77_mute_violated (g : Cfg) (uid : Nat) (hg : 1 ≤ g.max) (l : List Happen)
    (hl : ∀ h, h ∈ l → h = .turn ∨ ∃ c, h = .arrive c) :
    (run g (.arrive (mute uid) :: .turn :: l) start).log = [] := by
  have hw : waits (mute uid) = true := rfl
  have hs : step g (step g start (.arrive (mute uid))) .turn = { start with busy := some (mute uid, 8) } := by
    show turn g { start with queue := [mute uid] } = _
    unfold turn
    rw [if_neg (by show ¬ (true = false ∨ true = false); decide)]
    show (if g.max < 0 + 1 then _ else if waits (mute uid) = true then _ else _) = _
    rw [if_neg (by omega), if_pos hw]
    rfl
  show (run g l (step g (step g start (.arrive (mute uid))) .turn)).log = []
  rw [hs]
  exact C77_waiting g l _ nofun hl

/-- False: "no message kills the daemon".  One whose descriptor gives an error when closed (say of a
file-system of the client's own) does: the daemon panics, and nobody is served any more. -/
theorem C77_panic_violated (g : Cfg) (uid : Nat) (hg : 2 ≤ g.max) (l : List Happen) :
    (run g (.arrive (trap uid) :: .turn :: l) start).up = false ∧
    (run g (.arrive (trap uid) :: .turn :: l) start).log = [] := by
  have hw : waits (trap uid) = false := rfl
  have hh : handed g 0 (trap uid) = 1 := by unfold handed trap; dsimp only; omega
  have hs : step g (step g start (.arrive (trap uid))) .turn = { start with up := false } := by
    show turn g { start with queue := [trap uid] } = _
    unfold turn
    rw [if_neg (by show ¬ (true = false ∨ true = false); decide)]
    show (if g.max < 0 + 1 then _ else if waits (trap uid) = true then _ else finish g _ (trap uid)) = _
    rw [if_neg (by omega), if_neg (by rw [hw]; decide)]
    unfold finish
    rw [if_neg (by show ¬ 56 < 56; omega)]
    show (if 2 ≤ handed g 0 (trap uid) then _ else if handed g 0 (trap uid) = 1 ∧ (trap uid).badClose = true then _
      else _) = _
    rw [if_neg (by omega), if_pos ⟨hh, rfl⟩]
    rfl
  have hr : ∀ l s, s.up = false → (run g l s).up = false := by
    intro l
    induction l with
    | nil => intro s hs; exact hs
    | cons h l ih => intro s hs; exact ih _ (dead_step hs h).1
  show (run g l (step g (step g start (.arrive (trap uid))) .turn)).up = false ∧
    (run g l (step g (step g start (.arrive (trap uid))) .turn)).log = []
  rw [hs]
  exact ⟨hr l _ rfl, C77_dead g l _ rfl⟩

/-- So many signals. -/
def halts : Nat → List Happen
  | 0 => []
  | n + 1 => .halt :: halts n

/-- False: "the daemon stops when told to".  While it waits for a client which says nothing, seven signals
leave it waiting; the eighth ends it. -/
theorem C77_halt_violated (g : Cfg) (uid : Nat) :
    (run g (halts 7) { start with busy := some (mute uid, 8) }).busy = some (mute uid, 1) ∧
    (run g (halts 8) { start with busy := some (mute uid, 8) }).busy = none := ⟨rfl, rfl⟩

/-! ### Cases -/

def cfg1 : Cfg := ⟨Mnt.Case.ver, 4096, some [Mnt.Case.rule1], Mnt.Case.env, fun _ => Mnt.Case.plain, 3⟩

/-- A user who mounts what they may. -/
def user (id : Nat) (gone : Bool) : Conn :=
  ⟨id, 1000, 1000, Mnt.Case.msg 2 (Mnt.Case.mnt Mnt.Case.hm 6 1000 0x41C0), true, 0, false, gone⟩

/-- Without the others they get their mount and its answer. -/
theorem C77_case : (run cfg1 [.arrive (user 5 false), .turn] start).log =
    [.did 5 (5, .mount Mnt.Case.hm 6 ⟨65536, 7, 0x41C0, 1000, 1000, false⟩),
     .answered 5 ((Mnt.serve Mnt.Case.ver (svcOf cfg1 (user 5 false)) Mnt.Case.env (fun _ => Mnt.Case.plain) 0 (user 5 false).bytes).2.getD ⟨[], none⟩)] := by
  decide +kernel

/-- After two bytes of another user they do not. -/
example : (run cfg1 ([.arrive (stub 2000), .turn, .arrive (stub 2000), .turn] ++ [.arrive (user 5 false), .turn]) start).log.any
    (fun e => match e with | .did _ _ => true | _ => false) = false := by decide +kernel

/-- False: "what is mounted has someone to serve it".  A client gone before the answer leaves a mount behind
whose descriptor nobody has: the error of the answer is not looked at. -/
theorem C77_lost_violated : ∃ (r : Resp) (x : Nat × Sys), (run cfg1 [.arrive (user 5 true), .turn] start).log =
    [.did 5 x, .lost 5 r] ∧ Mounts (.did 5 x) ∧ r.fd = some 7 :=
  ⟨(Mnt.serve Mnt.Case.ver (svcOf cfg1 (user 5 true)) Mnt.Case.env (fun _ => Mnt.Case.plain) 0 (user 5 true).bytes).2.getD ⟨[], none⟩,
    (5, .mount Mnt.Case.hm 6 ⟨65536, 7, 0x41C0, 1000, 1000, false⟩), by decide +kernel, trivial, by decide +kernel⟩

/-- The hypotheses of `C77_served`, `C77_tame_partial` and `C77_own` hold of such users. -/
example : Polite (user 5 false) := ⟨Or.inl rfl, by decide +kernel⟩

example : TameIn start ∧ TameAll [.arrive (user 5 false), .turn] :=
  ⟨⟨nofun, nofun⟩, fun c hc => by
    rcases List.mem_cons.mp hc with h | h
    · injection h with h; rw [h]; exact Or.inl rfl
    · rcases List.mem_cons.mp h with h | h
      · cases h
      · cases h⟩

example : BytesIn [.arrive (user 5 false), .turn] := by
  refine ⟨fun c hc => ?_, fun bs e hc => ?_⟩
  · rcases List.mem_cons.mp hc with h | h
    · injection h with h; rw [h]; decide +kernel
    · rcases List.mem_cons.mp h with h | h
      · cases h
      · cases h
  · rcases List.mem_cons.mp hc with h | h
    · cases h
    · rcases List.mem_cons.mp h with h | h
      · cases h
      · cases h

/-- Three users in a row are each served. -/
example : ∃ l x, (turns cfg1 3 { start with queue := [user 1 false, user 2 false, user 3 false] }).log =
    l ++ x ∧ x.any (fun e => match e with | .answered 3 _ => true | _ => false) = true := by
  have hs : ∃ x r, Mnt.serve cfg1.v (svcOf cfg1 (user 3 false)) cfg1.e cfg1.w (0 + 2) (user 3 false).bytes = (x, some r) := by
    cases h : Mnt.serve cfg1.v (svcOf cfg1 (user 3 false)) cfg1.e cfg1.w (0 + 2) (user 3 false).bytes with
    | mk x r =>
      cases r with
      | some r => exact ⟨x, r, rfl⟩
      | none =>
        exfalso
        have h2 : (Mnt.serve cfg1.v (svcOf cfg1 (user 3 false)) cfg1.e cfg1.w (0 + 2) (user 3 false).bytes).2.isSome = true := by
          decide +kernel
        rw [h] at h2
        cases h2
  obtain ⟨x, r, hx⟩ := hs
  obtain ⟨l, hl⟩ := C77_served (g := cfg1) (s := { start with queue := [user 1 false, user 2 false, user 3 false] })
    (pre := [user 1 false, user 2 false]) (post := []) (c := user 3 false) (x := x) (r := r)
    rfl rfl rfl rfl (by decide) (fun d hd => by
      rcases List.mem_cons.mp hd with h | h
      · rw [h]; exact ⟨Or.inl rfl, by decide +kernel⟩
      · rw [List.mem_singleton.mp h]; exact ⟨Or.inl rfl, by decide +kernel⟩)
    ⟨Or.inl rfl, by decide +kernel⟩ hx
  exact ⟨_, [reply (user 3 false) r], hl, rfl⟩

end Silofs.Md
