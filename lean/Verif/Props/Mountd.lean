import Verif.Spec.Mountd
import Verif.Props.Mntsvc
/-
The mount service is there for everyone (C77): what holds of well-behaved clients, and what one client can do
to all others.
-/
set_option linter.unusedSimpArgs false
set_option linter.unusedVariables false
namespace Silofs.Md

open Silofs.Mnt (Resp Sys Env)

/-! ### One connection -/

theorem handed_le (g : Cfg) (f : Nat) (c : Conn) (h : f + 1 ≤ g.max) : f + handed g f c + 1 ≤ g.max := by
  unfold handed; omega

theorem handed_two (g : Cfg) (f : Nat) (c : Conn) : handed g f c ≤ 2 := by
  unfold handed; omega

theorem handed_tame {g : Cfg} {f : Nat} {c : Conn} (h : Tame c) : handed g f c ≤ 1 ∧
    (handed g f c = 1 → c.badClose = false ∧ 56 ≤ (c.bytes.take 2048).length) := by
  unfold handed
  rcases h with h | ⟨h1, h2, h3⟩
  · rw [h]; exact ⟨by omega, by omega⟩
  · exact ⟨by omega, fun _ => ⟨h2, h3⟩⟩

/-- The outcomes of a connection. -/
inductive Fin (g : Cfg) (s : Srv) (c : Conn) : Srv → Prop
  | short (h : (c.bytes.take 2048).length < 56 ∨ 2 ≤ handed g s.fds c) :
      Fin g s c { s with fds := s.fds + handed g s.fds c, t := s.t + 1, log := s.log ++ [.dropped c.id] }
  | panic (h : handed g s.fds c = 1) (hb : c.badClose = true) : Fin g s c { s with up := false }
  | refused (x : Option (Nat × Sys))
      (h : Mnt.serve g.v (svcOf g c) (envOf g s.fds) g.w s.t c.bytes = (x, none)) :
      Fin g s c { s with t := s.t + 1, log := s.log ++ (x.toList.map (Ev.did c.id)) ++ [.dropped c.id] }
  | served (x : Option (Nat × Sys)) (r : Resp)
      (h : Mnt.serve g.v (svcOf g c) (envOf g s.fds) g.w s.t c.bytes = (x, some r)) :
      Fin g s c { s with t := s.t + 1, log := s.log ++ (x.toList.map (Ev.did c.id)) ++ [reply c r] }

theorem finish_fin (g : Cfg) (s : Srv) (c : Conn) : Fin g s c (finish g s c) := by
  unfold finish
  by_cases h1 : (c.bytes.take 2048).length < 56
  · rw [if_pos h1]; exact .short (Or.inl h1)
  rw [if_neg h1]
  by_cases h2 : 2 ≤ handed g s.fds c
  · rw [if_pos h2]; exact .short (Or.inr h2)
  rw [if_neg h2]
  by_cases h3 : handed g s.fds c = 1 ∧ c.badClose = true
  · rw [if_pos h3]; exact .panic h3.1 h3.2
  rw [if_neg h3]
  split
  · rename_i x h; exact .refused x h
  · rename_i x r h; exact .served x r h

/-- What a step may do. -/
inductive Eff (g : Cfg) (s : Srv) : Happen → Srv → Prop
  | idle (h : Happen) (s' : Srv) (h1 : s'.fds = s.fds) (h2 : s'.up = s.up) (h3 : s'.log = s.log)
      (h4 : ∀ c, c ∈ s'.queue → c ∈ s.queue ∨ h = .arrive c)
      (h5 : ∀ c n, s'.busy = some (c, n) → (∃ c0 n0, s.busy = some (c0, n0) ∧ c.id = c0.id ∧ c.uid = c0.uid ∧
        c.gid = c0.gid ∧ c.nfds = c0.nfds ∧ c.badClose = c0.badClose ∧ ∃ b, c.bytes = c0.bytes ++ b) ∨
        (c ∈ s.queue ∧ waits c = true ∧ s.fds + 1 ≤ g.max)) : Eff g s h s'
  | fin (h : Happen) (s0 : Srv) (c : Conn) (s' : Srv) (h1 : s0.fds = s.fds) (h2 : s0.up = s.up)
      (h3 : s0.log = s.log) (h4 : ∀ c, c ∈ s0.queue → c ∈ s.queue) (h5 : s0.busy = none)
      (hup : s.up = true)
      (h6 : (c ∈ s.queue ∧ s.fds + 1 ≤ g.max) ∨ ∃ c0 n0, s.busy = some (c0, n0) ∧ c.id = c0.id ∧ c.uid = c0.uid ∧
        c.gid = c0.gid ∧ c.nfds = c0.nfds ∧ c.badClose = c0.badClose ∧ ∃ b, c.bytes = c0.bytes ++ b)
      (h7 : Fin g s0 c s') : Eff g s h s'
  | drop (h : Happen) (c : Conn) (n : Nat) (s' : Srv) (h0 : s.busy = some (c, n)) (h1 : s'.fds = s.fds) (h2 : s'.up = s.up)
      (h3 : s'.log = s.log ++ [.dropped c.id]) (h4 : s'.queue = s.queue) (h5 : s'.busy = none) : Eff g s h s'

theorem step_eff (g : Cfg) (s : Srv) (h : Happen) : Eff g s h (step g s h) := by
  cases h with
  | arrive c =>
    refine .idle _ _ rfl rfl rfl (fun c' hc => ?_) (fun c' n hb => Or.inl ⟨c', n, hb, rfl, rfl, rfl, rfl, rfl, [], ?_⟩)
    · rcases List.mem_append.mp hc with h | h
      · exact Or.inl h
      · rw [List.mem_singleton.mp h]; exact Or.inr rfl
    · exact (List.append_nil _).symm
  | turn =>
    show Eff g s _ (turn g s)
    have same : ∀ h, Eff g s h s := fun h => .idle h s rfl rfl rfl (fun c hc => Or.inl hc)
      (fun c n hb => Or.inl ⟨c, n, hb, rfl, rfl, rfl, rfl, rfl, [], (List.append_nil _).symm⟩)
    unfold turn
    by_cases h0 : s.up = false ∨ s.active = false
    · rw [if_pos h0]; exact same _
    rw [if_neg h0]
    split
    · exact same _
    rename_i hb
    split
    · exact same _
    rename_i c q hq
    by_cases hm : g.max < s.fds + 1
    · rw [if_pos hm]; exact same _
    rw [if_neg hm]
    by_cases hw : waits c = true
    · rw [if_pos hw]
      refine .idle _ _ rfl rfl rfl (fun c' hc => Or.inl ?_) (fun c' n hb' => Or.inr ?_)
      · rw [hq]; exact List.mem_cons_of_mem _ hc
      · injection hb' with hb'
        injection hb' with hb1 hb2
        subst hb1
        exact ⟨by rw [hq]; exact List.mem_cons_self, hw, by omega⟩
    · rw [if_neg hw]
      refine .fin _ { s with queue := q } c _ rfl rfl rfl (fun c' hc => ?_) hb ?_ (Or.inl ⟨?_, by omega⟩) (finish_fin g _ c)
      · rw [hq]; exact List.mem_cons_of_mem _ hc
      · rcases Bool.eq_false_or_eq_true s.up with h | h
        · exact h
        · exact absurd (Or.inl h) h0
      · rw [hq]; exact List.mem_cons_self
  | more b e =>
    show Eff g s _ (more g s b e)
    have same : ∀ h, Eff g s h s := fun h => .idle h s rfl rfl rfl (fun c hc => Or.inl hc)
      (fun c n hb => Or.inl ⟨c, n, hb, rfl, rfl, rfl, rfl, rfl, [], (List.append_nil _).symm⟩)
    unfold more
    by_cases h0 : s.up = false
    · rw [if_pos h0]; exact same _
    rw [if_neg h0]
    split
    · exact same _
    rename_i c n hb
    by_cases hw : waits { c with bytes := c.bytes ++ b, ends := c.ends || e } = true
    · rw [if_pos hw]
      refine .idle _ _ rfl rfl rfl (fun c' hc => Or.inl hc) (fun c' n' hb' => Or.inl ?_)
      injection hb' with hb'
      injection hb' with hb1 hb2
      subst hb1
      exact ⟨c, n, hb, rfl, rfl, rfl, rfl, rfl, b, rfl⟩
    · rw [if_neg hw]
      refine .fin _ { s with busy := none } { c with bytes := c.bytes ++ b, ends := c.ends || e } _ rfl rfl rfl
        (fun c' hc => hc) rfl ?_ (Or.inr ⟨c, n, hb, rfl, rfl, rfl, rfl, rfl, b, rfl⟩)
        (finish_fin g _ _)
      rcases Bool.eq_false_or_eq_true s.up with h | h
      · exact h
      · exact absurd h h0
  | halt =>
    show Eff g s _ (halt g s)
    unfold halt
    by_cases h0 : s.up = false
    · rw [if_pos h0]
      exact .idle _ s rfl rfl rfl (fun c hc => Or.inl hc)
        (fun c n hb => Or.inl ⟨c, n, hb, rfl, rfl, rfl, rfl, rfl, [], (List.append_nil _).symm⟩)
    rw [if_neg h0]
    split
    · rename_i hb
      exact .idle _ _ rfl rfl rfl (fun c hc => Or.inl hc) (fun c n hb' => by rw [hb] at hb'; cases hb')
    rename_i c n hb
    by_cases hbt : c.bytes ≠ []
    · rw [if_pos hbt]
      refine .fin _ { s with active := false, busy := none } c _ rfl rfl rfl (fun c' hc => hc) rfl ?_
        (Or.inr ⟨c, n, hb, rfl, rfl, rfl, rfl, rfl, [], (List.append_nil _).symm⟩) (finish_fin g _ c)
      rcases Bool.eq_false_or_eq_true s.up with h | h
      · exact h
      · exact absurd h h0
    rw [if_neg hbt]
    by_cases hn : n ≤ 1
    · rw [if_pos hn]
      exact .drop _ c n _ hb rfl rfl rfl rfl rfl
    · rw [if_neg hn]
      refine .idle _ _ rfl rfl rfl (fun c' hc => Or.inl hc) (fun c' n' hb' => Or.inl ?_)
      injection hb' with hb'
      injection hb' with hb1 hb2
      subst hb1
      exact ⟨c, n, hb, rfl, rfl, rfl, rfl, rfl, [], (List.append_nil _).symm⟩

/-! ### Descriptors -/

/-- Descriptors in use, with the accepted socket when there is one, never are more than allowed. -/
def Room (g : Cfg) (s : Srv) : Prop :=
  s.fds ≤ g.max ∧ (s.busy ≠ none → s.fds + 1 ≤ g.max)

theorem room_step {g : Cfg} {s : Srv} (hr : Room g s) (h : Happen) : Room g (step g s h) := by
  have he := step_eff g s h
  revert he
  generalize step g s h = s'
  intro he
  cases he with
  | idle _ h1 h2 h3 h4 h5 =>
    refine ⟨by rw [h1]; exact hr.1, fun hb => ?_⟩
    rw [h1]
    cases hq : s'.busy with
    | none => exact absurd hq hb
    | some y =>
      obtain ⟨c, n⟩ := y
      rcases h5 c n hq with ⟨c0, n0, hb0, _⟩ | ⟨_, _, hm⟩
      · exact hr.2 (by rw [hb0]; exact nofun)
      · exact hm
  | fin s0 c _ h1 h2 h3 h4 h5 hup h6 h7 =>
    have hm : s.fds + 1 ≤ g.max := by
      rcases h6 with ⟨_, h⟩ | ⟨c0, n0, hb0, _⟩
      · exact h
      · exact hr.2 (by rw [hb0]; exact nofun)
    cases h7 with
    | short _ =>
      refine ⟨?_, fun hb => absurd h5 hb⟩
      have := handed_le g s0.fds c (by omega)
      show s0.fds + handed g s0.fds c ≤ g.max
      omega
    | panic _ _ => exact ⟨by show s0.fds ≤ _; omega, fun hb => absurd h5 hb⟩
    | refused _ _ => exact ⟨by show s0.fds ≤ _; omega, fun hb => absurd h5 hb⟩
    | served _ _ _ => exact ⟨by show s0.fds ≤ _; omega, fun hb => absurd h5 hb⟩
  | drop c n _ h0 h1 h2 h3 h4 h5 =>
    exact ⟨by rw [h1]; exact hr.1, fun hb => absurd h5 hb⟩

/-- **C77 (a)** Whatever clients do, the daemon keeps within its descriptors. -/
theorem C77_room (g : Cfg) (l : List Happen) (s : Srv) (hr : Room g s) : Room g (run g l s) := by
  induction l generalizing s with
  | nil => exact hr
  | cons h l ih => exact ih _ (room_step hr h)

/-! ### Tame clients -/

theorem tame_more {c c0 : Conn} (h : Tame c0) (h1 : c.nfds = c0.nfds) (h2 : c.badClose = c0.badClose)
    (h3 : ∃ b, c.bytes = c0.bytes ++ b) : Tame c := by
  obtain ⟨b, hb⟩ := h3
  rcases h with h | ⟨a1, a2, a3⟩
  · exact Or.inl (by rw [h1, h])
  · refine Or.inr ⟨by rw [h1, a1], by rw [h2, a2], ?_⟩
    rw [hb]
    rw [List.length_take] at a3 ⊢
    rw [List.length_append]
    omega

/-- All who wait, or are waited for, are tame. -/
def TameIn (s : Srv) : Prop := (∀ c, c ∈ s.queue → Tame c) ∧ ∀ c n, s.busy = some (c, n) → Tame c

theorem tame_step {g : Cfg} {s : Srv} (ht : TameIn s) {h : Happen} (hh : ∀ c, h = .arrive c → Tame c) :
    TameIn (step g s h) ∧ (step g s h).fds = s.fds ∧ (step g s h).up = s.up := by
  have he := step_eff g s h
  revert he
  generalize step g s h = s'
  intro he
  cases he with
  | idle _ h1 h2 h3 h4 h5 =>
    refine ⟨⟨fun c hc => ?_, fun c n hb => ?_⟩, h1, h2⟩
    · rcases h4 c hc with h | h
      · exact ht.1 c h
      · exact hh c h
    · rcases h5 c n hb with ⟨c0, n0, hb0, _, _, _, e1, e2, e3⟩ | ⟨hq, _⟩
      · exact tame_more (ht.2 c0 n0 hb0) e1 e2 e3
      · exact ht.1 c hq
  | fin s0 c _ h1 h2 h3 h4 h5 hup h6 h7 =>
    have hc : Tame c := by
      rcases h6 with ⟨hq, _⟩ | ⟨c0, n0, hb0, _, _, _, e1, e2, e3⟩
      · exact ht.1 c hq
      · exact tame_more (ht.2 c0 n0 hb0) e1 e2 e3
    obtain ⟨k1, k2⟩ := handed_tame (g := g) (f := s0.fds) hc
    cases h7 with
    | short hs =>
      have k0 : handed g s0.fds c = 0 := by
        rcases hs with hs | hs
        · rcases Nat.lt_or_ge (handed g s0.fds c) 1 with h | h
          · omega
          · have := (k2 (by omega)).2; omega
        · omega
      refine ⟨⟨fun c' hc' => ht.1 c' (h4 c' hc'), fun c' n hb => ?_⟩, ?_, h2⟩
      · rw [show s0.busy = none from h5] at hb; cases hb
      · show s0.fds + handed g s0.fds c = s.fds
        omega
    | panic hk hb => rw [(k2 hk).1] at hb; cases hb
    | refused _ _ =>
      refine ⟨⟨fun c' hc' => ht.1 c' (h4 c' hc'), fun c' n hb => ?_⟩, h1, h2⟩
      rw [show s0.busy = none from h5] at hb; cases hb
    | served _ _ _ =>
      refine ⟨⟨fun c' hc' => ht.1 c' (h4 c' hc'), fun c' n hb => ?_⟩, h1, h2⟩
      rw [show s0.busy = none from h5] at hb; cases hb
  | drop c n _ h0 h1 h2 h3 h4 h5 =>
    refine ⟨⟨fun c' hc' => ht.1 c' (by rw [← h4]; exact hc'), fun c' n hb => ?_⟩, h1, h2⟩
    rw [h5] at hb; cases hb

/-- **C77 (b), partial** As long as clients send no descriptors, or one which can be closed with a message
of some length, the daemon lives and loses no descriptor, whatever the bytes.  For others see
`C77_descriptors_violated` and `C77_panic_violated`. -/
theorem C77_tame_partial (g : Cfg) (l : List Happen) (s : Srv) (ht : TameIn s) (hl : TameAll l) :
    (run g l s).fds = s.fds ∧ (run g l s).up = s.up := by
  induction l generalizing s with
  | nil => exact ⟨rfl, rfl⟩
  | cons h l ih =>
    obtain ⟨a, b, c⟩ := tame_step (g := g) ht (h := h)
      (fun c hc => hl c (by rw [hc]; exact List.mem_cons_self))
    obtain ⟨d, e⟩ := ih _ a (fun c hc => hl c (List.mem_cons_of_mem _ hc))
    exact ⟨by rw [show run g (h :: l) s = run g l (step g s h) from rfl, d, b],
      by rw [show run g (h :: l) s = run g l (step g s h) from rfl, e, c]⟩

/-! ### Served in turn -/

theorem envOf_eq {g : Cfg} {f : Nat} (h : f + 2 ≤ g.max) : envOf g f = g.e := by
  unfold envOf; rw [if_pos h]

/-- For one who has said all there is nothing to wait for. -/
theorem polite_waits {c : Conn} (h : Polite c) : waits c = false := by
  unfold waits
  rcases h.2 with h | h | h
  · rw [show decide ((c.bytes.take 2048).length < 2048) = false from decide_eq_false (by
      rw [List.length_take]; omega)]
    rfl
  · rw [h, Bool.not_true, Bool.and_false]; rfl
  · rw [show decide (c.nfds = 0) = false from decide_eq_false (by omega), Bool.and_false]

/-- A turn with a polite client in front. -/
theorem turn_polite {g : Cfg} {s : Srv} {c : Conn} {q : List Conn} (hup : s.up = true) (ha : s.active = true)
    (hb : s.busy = none) (hq : s.queue = c :: q) (hf : s.fds + 2 ≤ g.max) (hc : Polite c) :
    (turn g s).up = true ∧ (turn g s).active = true ∧ (turn g s).busy = none ∧ (turn g s).queue = q ∧
    (turn g s).fds = s.fds ∧ (turn g s).t = s.t + 1 ∧
    (∀ x r, Mnt.serve g.v (svcOf g c) g.e g.w s.t c.bytes = (x, some r) →
      (turn g s).log = s.log ++ (x.toList.map (Ev.did c.id)) ++ [reply c r]) ∧
    ∃ l, (turn g s).log = s.log ++ l := by
  have hw := polite_waits hc
  have ht := hc.1
  obtain ⟨k1, k2⟩ := handed_tame (g := g) (f := s.fds) ht
  unfold turn
  rw [if_neg (by rw [hup, ha]; decide), hb, hq]
  dsimp only
  rw [if_neg (by omega), if_neg (by rw [hw]; decide)]
  unfold finish
  dsimp only
  by_cases h1 : (c.bytes.take 2048).length < 56
  · rw [if_pos h1]
    have k0 : handed g s.fds c = 0 := by
      rcases Nat.lt_or_ge (handed g s.fds c) 1 with h | h
      · omega
      · have := (k2 (by omega)).2; omega
    refine ⟨hup, ha, rfl, rfl, ?_, rfl, fun x r hx => ?_, _, rfl⟩
    · show s.fds + handed g s.fds c = s.fds; omega
    · exfalso
      unfold Mnt.serve Mnt.recvRequest at hx
      rw [if_pos h1] at hx
      cases hx
  rw [if_neg h1, if_neg (by omega), if_neg (fun h => by rw [(k2 h.1).1] at h; exact absurd h.2 (by decide)),
    envOf_eq hf]
  split
  · rename_i x h
    refine ⟨hup, ha, rfl, rfl, rfl, rfl, fun x' r hx => ?_, _, List.append_assoc _ _ _⟩
    rw [h] at hx; injection hx with _ hx; cases hx
  · rename_i x r h
    refine ⟨hup, ha, rfl, rfl, rfl, rfl, fun x' r' hx => ?_, _, List.append_assoc _ _ _⟩
    rw [h] at hx; injection hx with hx1 hx2; injection hx2 with hx2; subst hx1; subst hx2; rfl

/-- Any number of turns. -/
def turns (g : Cfg) : Nat → Srv → Srv
  | 0, s => s
  | n + 1, s => turns g n (turn g s)

/-- **C77 (c)** Clients are served in the order of their coming: one which waits behind `n` polite clients has
its answer after `n + 1` turns, and the answer, and what is done for it, is that of its own message with its
own ids, as C46 has it. -/
theorem C77_served {g : Cfg} {s : Srv} {pre post : List Conn} {c : Conn} {x : Option (Nat × Sys)} {r : Resp}
    (hup : s.up = true) (ha : s.active = true) (hb : s.busy = none) (hq : s.queue = pre ++ c :: post)
    (hf : s.fds + 2 ≤ g.max) (hpre : ∀ d, d ∈ pre → Polite d) (hc : Polite c)
    (hx : Mnt.serve g.v (svcOf g c) g.e g.w (s.t + pre.length) c.bytes = (x, some r)) :
    ∃ l, (turns g (pre.length + 1) s).log = s.log ++ l ++ (x.toList.map (Ev.did c.id)) ++ [reply c r] := by
  induction pre generalizing s with
  | nil =>
    obtain ⟨_, _, _, _, _, _, h7, _⟩ := turn_polite hup ha hb hq hf hc
    refine ⟨[], ?_⟩
    show (turn g s).log = _
    rw [h7 x r hx, List.append_nil]
  | cons d pre ih =>
    obtain ⟨h1, h2, h3, h4, h5, h6, _, l, h8⟩ :=
      turn_polite (g := g) hup ha hb hq hf (hpre d List.mem_cons_self)
    have := ih (s := turn g s) h1 h2 h3 h4 (by rw [h5]; exact hf)
      (fun e he => hpre e (List.mem_cons_of_mem _ he))
      (by rw [h6]; rw [List.length_cons] at hx; rw [← hx]; congr 1; omega)
    obtain ⟨l', hl'⟩ := this
    refine ⟨l ++ l', ?_⟩
    show (turns g (pre.length + 1) (turn g s)).log = _
    rw [hl', h8, List.append_assoc s.log]

/-! ### Whose request -/

/-- All bytes sent are bytes. -/
def BytesIn (l : List Happen) : Prop :=
  (∀ c, Happen.arrive c ∈ l → ∀ b, b ∈ c.bytes → b < 256) ∧
  ∀ bs e, Happen.more bs e ∈ l → ∀ b, b ∈ bs → b < 256

/-- An entry of the log is that of one who came, and the outcome of a message of theirs, with the ids they came with. -/
def Own (g : Cfg) (l : List Happen) : Ev → Prop
  | .did id x => ∃ c f t, Came l id c.uid c.gid ∧ (∀ b, b ∈ c.bytes → b < 256) ∧
      (Mnt.serve g.v (svcOf g c) (envOf g f) g.w t c.bytes).1 = some x
  | .answered id r => ∃ c f t, Came l id c.uid c.gid ∧ (∀ b, b ∈ c.bytes → b < 256) ∧
      (Mnt.serve g.v (svcOf g c) (envOf g f) g.w t c.bytes).2 = some r
  | .lost id r => ∃ c f t, Came l id c.uid c.gid ∧ (∀ b, b ∈ c.bytes → b < 256) ∧
      (Mnt.serve g.v (svcOf g c) (envOf g f) g.w t c.bytes).2 = some r
  | .dropped id => ∃ uid gid, Came l id uid gid

/-- One in the daemon. -/
def Known (l : List Happen) (c : Conn) : Prop := Came l c.id c.uid c.gid ∧ ∀ b, b ∈ c.bytes → b < 256

def OwnIn (g : Cfg) (l : List Happen) (s : Srv) : Prop :=
  (∀ c, c ∈ s.queue → Known l c) ∧ (∀ c n, s.busy = some (c, n) → Known l c) ∧ ∀ e, e ∈ s.log → Own g l e

theorem own_finish {g : Cfg} {l : List Happen} {s : Srv} (ho : OwnIn g l s) {c : Conn} (hc : Known l c) :
    OwnIn g l (finish g s c) := by
  have h7 := finish_fin g s c
  revert h7
  generalize finish g s c = s'
  intro h7
  obtain ⟨h1, h2, h3⟩ := ho
  have dropd : Own g l (.dropped c.id) := ⟨_, _, hc.1⟩
  cases h7 with
  | short _ =>
    refine ⟨h1, h2, fun e he => ?_⟩
    rcases List.mem_append.mp he with h | h
    · exact h3 e h
    · rw [List.mem_singleton.mp h]; exact dropd
  | panic _ _ => exact ⟨h1, h2, h3⟩
  | refused x hx =>
    refine ⟨h1, h2, fun e he => ?_⟩
    rcases List.mem_append.mp he with h | h
    · rcases List.mem_append.mp h with h | h
      · exact h3 e h
      · obtain ⟨y, hy, rfl⟩ := List.mem_map.mp h
        rw [Option.mem_toList] at hy
        subst hy
        exact ⟨c, _, _, hc.1, hc.2, by rw [hx]⟩
    · rw [List.mem_singleton.mp h]; exact dropd
  | served x r hx =>
    refine ⟨h1, h2, fun e he => ?_⟩
    rcases List.mem_append.mp he with h | h
    · rcases List.mem_append.mp h with h | h
      · exact h3 e h
      · obtain ⟨y, hy, rfl⟩ := List.mem_map.mp h
        rw [Option.mem_toList] at hy
        subst hy
        exact ⟨c, _, _, hc.1, hc.2, by rw [hx]⟩
    · rw [List.mem_singleton.mp h]
      unfold reply
      by_cases hg : c.gone = true
      · rw [if_pos hg]; exact ⟨c, _, _, hc.1, hc.2, by rw [hx]⟩
      · rw [if_neg hg]; exact ⟨c, _, _, hc.1, hc.2, by rw [hx]⟩

theorem own_step {g : Cfg} {l : List Happen} (hl : BytesIn l) {s : Srv} (ho : OwnIn g l s) {h : Happen}
    (hh : h ∈ l) : OwnIn g l (step g s h) := by
  obtain ⟨h1, h2, h3⟩ := id ho
  cases h with
  | arrive c =>
    refine ⟨fun c' hc => ?_, h2, h3⟩
    rcases List.mem_append.mp hc with h | h
    · exact h1 c' h
    · rw [List.mem_singleton.mp h]; exact ⟨⟨c, hh, rfl, rfl, rfl⟩, hl.1 c hh⟩
  | turn =>
    show OwnIn g l (turn g s)
    unfold turn
    split
    · exact ho
    split
    · exact ho
    rename_i hb
    split
    · exact ho
    rename_i c q hq
    have hc : Known l c := h1 c (by rw [hq]; exact List.mem_cons_self)
    have hq' : ∀ c', c' ∈ q → Known l c' := fun c' h => h1 c' (by rw [hq]; exact List.mem_cons_of_mem _ h)
    split
    · exact ho
    split
    · refine ⟨hq', fun c' n h => ?_, h3⟩
      injection h with h
      injection h with h _
      rw [← h]; exact hc
    · exact own_finish (s := { s with queue := q }) ⟨hq', h2, h3⟩ hc
  | more b e =>
    show OwnIn g l (more g s b e)
    unfold more
    split
    · exact ho
    split
    · exact ho
    rename_i c n hb
    have hc := h2 c n hb
    have hk : Known l { c with bytes := c.bytes ++ b, ends := c.ends || e } := by
      refine ⟨hc.1, fun y hy => ?_⟩
      rcases List.mem_append.mp hy with h | h
      · exact hc.2 y h
      · exact hl.2 b e hh y h
    split
    · refine ⟨h1, fun c' n' h => ?_, h3⟩
      injection h with h
      injection h with h _
      rw [← h]; exact hk
    · exact own_finish (s := { s with busy := none }) ⟨h1, fun _ _ h => (nomatch h), h3⟩ hk
  | halt =>
    show OwnIn g l (halt g s)
    unfold halt
    split
    · exact ho
    split
    · exact ⟨h1, h2, h3⟩
    rename_i c n hb
    have hc := h2 c n hb
    split
    · exact own_finish (s := { s with active := false, busy := none }) ⟨h1, fun _ _ h => (nomatch h), h3⟩ hc
    split
    · refine ⟨h1, fun _ _ h => (nomatch h), fun e he => ?_⟩
      rcases List.mem_append.mp he with h | h
      · exact h3 e h
      · rw [List.mem_singleton.mp h]; exact ⟨_, _, hc.1⟩
    · refine ⟨h1, fun c' n' h => ?_, h3⟩
      injection h with h
      injection h with h _
      rw [← h]; exact hc

theorem own_run {g : Cfg} {L : List Happen} (hL : BytesIn L) (l : List Happen) (hl : ∀ h, h ∈ l → h ∈ L)
    (s : Srv) (ho : OwnIn g L s) : OwnIn g L (run g l s) := by
  induction l generalizing s with
  | nil => exact ho
  | cons h l ih =>
    exact ih (fun h' hh => hl h' (List.mem_cons_of_mem _ hh)) _ (own_step hL ho (hl h List.mem_cons_self))

/-- **C77 (d)** Whatever clients do, and in whatever order their bytes come: everything the daemon does, and
every answer it gives, is for someone who came, of a message of theirs, and with the ids they came with; no
bytes of one are taken for those of another. -/
theorem C77_own (g : Cfg) (l : List Happen) (hl : BytesIn l) (e : Ev) (he : e ∈ (run g l start).log) :
    Own g l e :=
  (own_run hl l (fun _ h => h) start ⟨nofun, nofun, nofun⟩).2.2 e he

/-- **C77 (e)** So a mount made by the daemon, among any clients, is authorized for the user who came. -/
theorem C77_authorized (g : Cfg) (l : List Happen) (hl : BytesIn l) (id tm : Nat) (p : Mnt.Path) (fl : Nat)
    (d : Mnt.MountData) (he : Ev.did id (tm, .mount p fl d) ∈ (run g l start).log) :
    ∃ uid gid t, Came l id uid gid ∧ Mnt.Authorized g.rules g.w t tm uid p ∧ Mnt.FlagsFine fl ∧
      d.userId = Mnt.asInt uid ∧ d.groupId = Mnt.asInt gid := by
  obtain ⟨c, f, t, hc, hb, hs⟩ := C77_own g l hl _ he
  cases hy : Mnt.serve g.v (svcOf g c) (envOf g f) g.w t c.bytes with
  | mk x r =>
    rw [hy] at hs
    dsimp only at hs
    subst hs
    obtain ⟨a1, a2, a3, a4⟩ := Mnt.C46_mount_authorized _ _ _ _ _ _ hb _ _ _ _ _ hy
    exact ⟨_, _, _, hc, a1, a2, a3, a4⟩

/-! ### What one client can do to all -/

/-- A daemon which has died does nothing any more. -/
theorem dead_step {g : Cfg} {s : Srv} (hu : s.up = false) (h : Happen) :
    (step g s h).up = false ∧ (step g s h).log = s.log := by
  cases h with
  | arrive c => exact ⟨hu, rfl⟩
  | turn => show (turn g s).up = false ∧ (turn g s).log = _; unfold turn; rw [if_pos (Or.inl hu)]; exact ⟨hu, rfl⟩
  | more b e => show (more g s b e).up = false ∧ (more g s b e).log = _; unfold more; rw [if_pos hu]; exact ⟨hu, rfl⟩
  | halt => show (halt g s).up = false ∧ (halt g s).log = _; unfold halt; rw [if_pos hu]; exact ⟨hu, rfl⟩

/-- **C77 (f)** However many clients come. -/
theorem C77_dead (g : Cfg) (l : List Happen) (s : Srv) (hu : s.up = false) : (run g l s).log = s.log := by
  induction l generalizing s with
  | nil => rfl
  | cons h l ih =>
    obtain ⟨a, b⟩ := dead_step (g := g) hu h
    rw [show run g (h :: l) s = run g l (step g s h) from rfl, ih _ a, b]

/-- With no descriptor for /dev/fuse a message mounts nothing. -/
theorem serve_full {g : Cfg} {f : Nat} (hf : g.max < f + 2) (c : Conn) (t : Nat) (x : Nat × Sys)
    (hx : (Mnt.serve g.v (svcOf g c) (envOf g f) g.w t c.bytes).1 = some x) (id : Nat) :
    ¬ Mounts (.did id x) := by
  unfold Mnt.serve at hx
  split at hx
  · cases hx
  rename_i b hb
  dsimp only at hx
  unfold Mnt.execRequest at hx
  split at hx
  · cases hx
  split at hx
  · exfalso
    unfold Mnt.execMount at hx
    split at hx
    · cases hx
    split at hx
    · cases hx
    split at hx
    · cases hx
    unfold Mnt.doMount envOf at hx
    rw [if_neg (by omega)] at hx
    cases hx
  split at hx
  · have um : ∀ e' t' m p, (Mnt.doUmount e' t' m p).sys = some x → ¬ Mounts (.did id x) := by
      intro e' t' m p h
      unfold Mnt.doUmount at h
      revert h
      (repeat' split) <;> (intro h; injection h with h; subst h; exact fun h => h)
    unfold Mnt.execUmount at hx
    revert hx
    (repeat' split) <;> intro hx <;> first | (cases hx; done) | exact um _ _ _ _ hx
  · cases hx

theorem full_step {g : Cfg} {s : Srv} (hf : g.max < s.fds + 2) (h : Happen) :
    g.max < (step g s h).fds + 2 ∧ ∀ e, e ∈ (step g s h).log → Mounts e → e ∈ s.log := by
  have he := step_eff g s h
  revert he
  generalize step g s h = s'
  intro he
  cases he with
  | idle _ h1 h2 h3 h4 h5 => exact ⟨by rw [h1]; exact hf, fun e he _ => by rw [← h3]; exact he⟩
  | drop c n _ h0 h1 h2 h3 h4 h5 =>
    refine ⟨by rw [h1]; exact hf, fun e he hm => ?_⟩
    rw [h3] at he
    rcases List.mem_append.mp he with h | h
    · exact h
    · rw [List.mem_singleton.mp h] at hm; exact hm.elim
  | fin s0 c _ h1 h2 h3 h4 h5 hup h6 h7 =>
    have hf0 : g.max < s0.fds + 2 := by rw [h1]; exact hf
    cases h7 with
    | short _ =>
      refine ⟨by show g.max < s0.fds + handed g s0.fds c + 2; omega, fun e he hm => ?_⟩
      rcases List.mem_append.mp he with h | h
      · rw [← h3]; exact h
      · rw [List.mem_singleton.mp h] at hm; exact hm.elim
    | panic _ _ => exact ⟨hf0, fun e he _ => by rw [← h3]; exact he⟩
    | refused x hx =>
      refine ⟨hf0, fun e he hm => ?_⟩
      rcases List.mem_append.mp he with h | h
      · rcases List.mem_append.mp h with h | h
        · rw [← h3]; exact h
        · obtain ⟨y, hy, rfl⟩ := List.mem_map.mp h
          rw [Option.mem_toList] at hy
          exact absurd hm (serve_full hf0 c s0.t y (by rw [hx]; exact hy) c.id)
      · rw [List.mem_singleton.mp h] at hm; exact hm.elim
    | served x r hx =>
      refine ⟨hf0, fun e he hm => ?_⟩
      rcases List.mem_append.mp he with h | h
      · rcases List.mem_append.mp h with h | h
        · rw [← h3]; exact h
        · obtain ⟨y, hy, rfl⟩ := List.mem_map.mp h
          rw [Option.mem_toList] at hy
          exact absurd hm (serve_full hf0 c s0.t y (by rw [hx]; exact hy) c.id)
      · rw [List.mem_singleton.mp h] at hm
        unfold reply at hm
        split at hm <;> exact hm.elim

/-- **C77 (g)** A daemon short of one descriptor never mounts anything again, for anybody. -/
theorem C77_full (g : Cfg) (l : List Happen) (s : Srv) (hf : g.max < s.fds + 2) (e : Ev)
    (he : e ∈ (run g l s).log) (hm : Mounts e) : e ∈ s.log := by
  induction l generalizing s with
  | nil => exact he
  | cons h l ih =>
    obtain ⟨a, b⟩ := full_step hf h
    exact b e (ih _ a he) hm

/-- A daemon which waits for a client's message serves nobody until that client says more, or it is told to stop. -/
theorem C77_waiting (g : Cfg) (l : List Happen) (s : Srv) (hb : s.busy ≠ none)
    (hl : ∀ h, h ∈ l → h = .turn ∨ ∃ c, h = .arrive c) : (run g l s).log = s.log := by
  induction l generalizing s with
  | nil => rfl
  | cons h l ih =>
    have hs : (step g s h).busy = s.busy ∧ (step g s h).log = s.log := by
      rcases hl h List.mem_cons_self with rfl | ⟨c, rfl⟩
      · show (turn g s).busy = s.busy ∧ (turn g s).log = s.log
        unfold turn
        split
        · exact ⟨rfl, rfl⟩
        split
        · exact ⟨rfl, rfl⟩
        · rename_i hn; exact absurd hn hb
      · exact ⟨rfl, rfl⟩
    rw [show run g (h :: l) s = run g l (step g s h) from rfl,
      ih _ (by rw [hs.1]; exact hb) (fun h' hh => hl h' (List.mem_cons_of_mem _ hh)), hs.2]

theorem run_append (g : Cfg) (a b : List Happen) (s : Srv) : run g (a ++ b) s = run g b (run g a s) := by
  induction a generalizing s with
  | nil => rfl
  | cons h a ih => exact ih _

end Silofs.Md
