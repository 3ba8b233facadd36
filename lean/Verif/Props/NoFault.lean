import Verif.Demo
import Verif.Lemmas.NoFault
import Verif.Lemmas.Arrive
import Verif.Props.Channel
/-!
# Proper use never fails (C61)
-/

namespace Verif
open Spec

/-- **C61.** A program that keeps the rules of proper use never meets an assertion, an abort, a null
dereference or a bad cast, whatever the environment (positions, loss and delay models, checksums,
data rates, decisions of error models) and however its calls interleave with simulator events. -/
theorem C61_proper_use_never_fails {E : Env} {s0 : Sys} {ops : List Op} (h0 : Initial s0)
    (hp : ProperRun E s0 ops) : ∃ s, exec E s0 ops = .ok s := by
  obtain ⟨s, h, _⟩ := fit_exec (fit_initial h0) hp
  exact ⟨s, h⟩

/-- Running simulator events needs no care. -/
theorem C61_run_is_proper {E : Env} {s : Sys} (n : Nat) : ProperRun E s (List.replicate n .run) := by
  intro o1 op o2 s1 h _
  have : op ∈ List.replicate n Op.run := by rw [h]; simp
  rw [(List.mem_replicate.mp this).2]
  exact ⟨trivial, trivial⟩

theorem properRun_append {E : Env} {s s1 : Sys} {o1 o2 : List Op} (h1 : ProperRun E s o1) (he : exec E s o1 = .ok s1)
    (h2 : ProperRun E s1 o2) : ProperRun E s (o1 ++ o2) := by
  induction o1 generalizing s with
  | nil => injection he with he; subst he; exact h2
  | cons op o1 ih =>
    simp only [exec] at he
    rw [Outcome.bind_eq_ok] at he
    obtain ⟨s2, hs, he⟩ := he
    have := ih (properRun_cons h1 hs) he
    intro p1 q p2 u hq hu
    cases p1 with
    | nil =>
      simp only [List.nil_append, List.cons_append, List.cons.injEq] at hq
      injection hu with hu; subst hu
      obtain ⟨rfl, _⟩ := hq
      exact h1 [] op o1 s rfl rfl
    | cons q0 p1 =>
      simp only [List.cons_append, List.cons.injEq] at hq
      obtain ⟨rfl, hq⟩ := hq
      simp only [exec, hs, Outcome.ok_bind] at hu
      exact this p1 q p2 u hq hu

/-- **C61**, to the end: after a proper history finitely many simulator events remain.  They run without
failure, and when they have been run no event is pending, every frame accepted by `Send` has been
transmitted completely, no frame is queued, and every hand-over by a channel has led to a call of
`Receive`. -/
theorem C61_runs_to_quiescence {E : Env} {s0 : Sys} {ops : List Op} (h0 : Initial s0) (hp : ProperRun E s0 ops) :
    ∃ n s, exec E s0 (ops ++ List.replicate n .run) = .ok s ∧ s.pending = [] ∧
      (∀ d, accepted d s.log = begun d s.log ∧ begun d s.log = ended d s.log ∧ (s.dev d).queue = [] ∧
        (s.dev d).busy = false) ∧
      (happened s.log).Perm (announced s.log) := by
  obtain ⟨s1, h1, hf1⟩ := fit_exec (fit_initial h0) hp
  have hb : Bounded (0 + ops.length) s1 := bounded_exec (bounded_initial h0) h1
  obtain ⟨s2, h2, hf2⟩ := fit_exec hf1 (C61_run_is_proper (E := E) (s := s1)
    (pot (0 + ops.length) (fun d => (s1.dev d).queue) s1.pending))
  have hpe := exec_run_drains _ hf1.inv hb (Nat.le_refl _) h2
  have hex : exec E s0 (ops ++ List.replicate (pot (0 + ops.length) (fun d => (s1.dev d).queue) s1.pending) .run) = .ok s2 := by
    rw [exec_append, h1]; exact h2
  refine ⟨_, s2, hex, hpe, ?_, ?_⟩
  · intro d
    have hidle : (s2.dev d).busy = false := by
      cases hbz : (s2.dev d).busy with
      | false => rfl
      | true =>
        obtain ⟨f, t, dest, _, ht⟩ := (hf2.inv.dev d).busy hbz
        rw [hpe] at ht; cases ht
    obtain ⟨hcur, hq, _⟩ := (hf2.inv.dev d).ready hidle
    have hl := (hf2.inv.dev d).log
    rw [hcur, hq] at hl
    refine ⟨?_, ?_, hq, hidle⟩
    · have := C02_accepted_is_begun_then_queued h0 hex d
      rw [hq, List.append_nil] at this
      exact this
    · simpa using hl.2
  · have := (good_exec h0 hex).acc
    unfold Accounted at this
    rw [hpe] at this
    simpa [scheduled] using this

/-! ### A condition that can be read off the program -/

/-- What a program must not do when it never detaches and never changes addresses or types after set-up. -/
def StaticRule (s : Sys) : Op → Prop
  | .send _ p dest _ => dest ≠ .other ∧ p.length ≤ 65527
  | .attach d c => Equipped (s.dev d) ∧ ((s.chan c).kind = .leo → (s.dev d).leo = true)
  | .detach .. | .setAddress .. | .setSide .. => False
  | _ => True

theorem equipped_exec {E : Env} {s s' : Sys} {ops : List Op} (h : exec E s ops = .ok s') {x : DevId}
    (hx : Equipped (s.dev x)) : Equipped (s'.dev x) :=
  exec_induct (P := fun u => Equipped (u.dev x)) (fun _ _ _ hP hs => equipped_step hs x hP) hx h

theorem leo_exec {E : Env} {s s' : Sys} {ops : List Op} (h : exec E s ops = .ok s') (x : DevId) :
    (s'.dev x).leo = (s.dev x).leo := by
  refine exec_induct (P := fun u => (u.dev x).leo = (s.dev x).leo) ?_ rfl h
  intro u u' op hu hs
  rw [← hu]
  rcases cfg_step hs with hc | ⟨d, c, rfl⟩
  · exact (hc x).2.2.2.1
  · obtain ⟨g, t, _, rfl⟩ := attach_ok hs
    by_cases hx : x = d <;> simp [hx]

theorem properRun_of_static {E : Env} {s0 : Sys} {ops : List Op} (h0 : Initial s0)
    (hs : ∀ op ∈ ops, StaticRule s0 op)
    (hinj : ∀ d d' c c', Op.attach d c ∈ ops → Op.attach d' c' ∈ ops →
      (s0.dev d).addr = (s0.dev d').addr → d = d') : ProperRun E s0 ops := by
  have ho : OrderlyRun E s0 ops := by
    refine orderlyRun_of_static h0.log ops (fun op hop => ⟨?_, ?_⟩) hinj
    · rintro d a rfl; exact hs _ hop
    · rintro d a rfl; exact hs _ hop
  rintro o1 op o2 s1 rfl h1
  refine ⟨ho o1 op o2 s1 rfl h1, ?_⟩
  have hop := hs op (by simp)
  cases op with
  | send d p dest proto => exact hop
  | attach d c =>
    obtain ⟨h2, h3⟩ := hop
    exact ⟨equipped_exec h1 h2, fun hk => by rw [leo_exec h1]; exact h3 (by rw [← kind_exec h1 c]; exact hk)⟩
  | detach c slot => exact hop.elim
  | setAddress d a => exact hop.elim
  | _ => exact trivial

/-- **C61**, for programs that can be checked by looking at them: equipped devices with pairwise different
addresses are attached to channels of their kind; packets of at most 65527 bytes are sent to MAC
addresses; rates, gaps, powers and callbacks are set at will; simulator events run at any point.  Such
a program never fails. -/
theorem C61_static_programs_never_fail {E : Env} {s0 : Sys} {ops : List Op} (h0 : Initial s0)
    (hs : ∀ op ∈ ops, StaticRule s0 op)
    (hinj : ∀ d d' c c', Op.attach d c ∈ ops → Op.attach d' c' ∈ ops →
      (s0.dev d).addr = (s0.dev d').addr → d = d') : ∃ s, exec E s0 ops = .ok s :=
  C61_proper_use_never_fails h0 (properRun_of_static h0 hs hinj)

theorem demo_equipped (d : DevId) : Equipped (Demo.sys.dev d) := ⟨by simp [Demo.sys, Dev.fresh], rfl, rfl⟩

/-- A packet larger than what fits one frame. -/
def c61Packet : Bytes := List.replicate 1600 9

theorem c61Packet_length : c61Packet.length = 1600 := List.length_replicate

/-- The theorem applies to the program `c15Ops` (four devices, two senders) and to a program with a
packet of 1600 bytes and changes of rate and power, under any environment. -/
example (E : Env) : ∃ s, exec E Demo.sys (c15Ops ++ [.setRate 0 1000, .setTxPower 0 (-7),
    .send 0 c61Packet (.mac (Demo.mac 3)) 5, .run, .run, .wait 8, .run]) = .ok s := by
  refine C61_static_programs_never_fail Demo.sys_initial ?_ ?_
  · intro op hop
    rcases List.mem_append.mp hop with hop | hop
    · simp only [c15Ops, List.mem_cons, List.not_mem_nil, or_false] at hop
      rcases hop with rfl | rfl | rfl | rfl | rfl | rfl | rfl | rfl | rfl | rfl <;>
        first
        | exact True.intro
        | exact ⟨by simp, by simp⟩
        | exact ⟨demo_equipped _, fun _ => rfl⟩
    · simp only [List.mem_cons, List.not_mem_nil, or_false] at hop
      rcases hop with rfl | rfl | rfl | rfl | rfl | rfl | rfl <;>
        first
        | exact True.intro
        | exact ⟨by simp, by rw [c61Packet_length]; omega⟩
  · intro d d' c c' h1 h2 h3
    have sub : ∀ d c, Op.attach d c ∈ c15Ops ++ [Op.setRate 0 1000, .setTxPower 0 (-7),
        .send 0 c61Packet (.mac (Demo.mac 3)) 5, .run, .run, .wait 8, .run] → Op.attach d c ∈ c15Ops := by
      intro d c h
      rcases List.mem_append.mp h with h | h
      · exact h
      · simp only [List.mem_cons, List.not_mem_nil, or_false, reduceCtorEq] at h
    replace h1 := sub _ _ h1
    replace h2 := sub _ _ h2
    simp [c15Ops] at h1 h2
    rcases h1 with ⟨rfl, _⟩ | ⟨rfl, _⟩ | ⟨rfl, _⟩ | ⟨rfl, _⟩ <;> rcases h2 with ⟨rfl, _⟩ | ⟨rfl, _⟩ | ⟨rfl, _⟩ | ⟨rfl, _⟩ <;>
      first | rfl | (revert h3; decide +kernel)

/-! ### No rule can be dropped -/

/-- Each rule is needed: a program that breaks only that rule fails.  In order: `Send` to something that
is not a MAC address; 65528 bytes sent and received; an address used twice on a channel with both
types; a device without node, queue or callback; a device of the wrong class; `Detach` of a slot that
does not exist; `SetAddress` with something that is not a MAC address. -/
theorem C61_rules_needed :
    exec Demo.env Demo.sys [.attach 0 0, .send 0 [1] .other 5] = .fail .notAMac ∧
    (∀ p : Bytes, p.length = 65528 → exec { Demo.env with txTime := fun _ _ => 1 } Demo.sys
      [.attach 0 0, .attach 1 0, .send 0 p (.mac (Demo.mac 2)) 5, .run, .run] = .fail .padTooLong) ∧
    exec Demo.env Demo.sys [.attach 0 0, .attach 1 0, .setAddress 1 (.mac (Demo.mac 1)), .setSide 1 .sat, .attach 1 0,
      .send 0 [1] (.mac (Demo.mac 2)) 5] = .fail .bothSides ∧
    exec Demo.env (Demo.sys.setDev 1 { Demo.sys.dev 1 with node := none })
      [.attach 0 0, .attach 1 0, .send 0 [1] (.mac (Demo.mac 2)) 5] = .fail .nullNode ∧
    exec Demo.env (Demo.sys.setDev 0 { Demo.sys.dev 0 with hasQueue := false })
      [.attach 0 0, .attach 1 0, .send 0 [1] (.mac (Demo.mac 2)) 5] = .fail .nullQueue ∧
    exec Demo.env (Demo.sys.setDev 1 { Demo.sys.dev 1 with rxCb := false })
      [.attach 0 0, .attach 1 0, .send 0 [1] (.mac (Demo.mac 2)) 5, .run, .run] = .fail .nullCallback ∧
    exec Demo.env (Demo.sys.setDev 1 { Demo.sys.dev 1 with leo := false }) [.attach 1 0] = .fail .badCast ∧
    exec Demo.env Demo.sys [.attach 0 0, .detach 0 1] = .fail .indexOutOfRange ∧
    exec Demo.env Demo.sys [.attach 0 0, .setAddress 0 .other] = .fail .notAMac := by
  refine ⟨rfl, ?_, ?_, ?_, ?_, ?_, ?_, ?_, ?_⟩
  · intro p hp
    have key : decode Demo.env.fcs (addHeader Demo.env.fcs p (Demo.mac 1) (Demo.mac 2) 5) = .fail .padTooLong := by
      rw [decode_addHeader, if_neg (by omega), if_pos (by omega)]
    obtain ⟨s, h, hd⟩ : ∃ s, exec { Demo.env with txTime := fun _ _ => 1 } Demo.sys
        [.attach 0 0, .attach 1 0, .send 0 p (.mac (Demo.mac 2)) 5, .run, .run] =
        (receive { Demo.env with txTime := fun _ _ => 1 } s 1 (addHeader Demo.env.fcs p (Demo.mac 1) (Demo.mac 2) 5) 0 1).bind .ok ∧
        ((s.dev 1).rxThreshold = -1000 ∧ (s.dev 1).rxGain = 0 ∧ (s.dev 1).rxLoss = 0) := ⟨_, rfl, rfl, rfl, rfl⟩
    rw [h]
    have hp1 : calcRxPower (s.dev 1) 1 = 1 := by unfold calcRxPower; rw [hd.2.1, hd.2.2]; split <;> decide +kernel
    unfold receive
    simp only [Sys.emit, hp1, hd.1, key]
    rfl
  all_goals exact Demo.exec_of_fault (by decide +kernel)

end Verif
