import Verif.Lemmas.Share
import Verif.Demo
/-!
# C66: packets behave as values as long as no caller touches a packet a device holds
-/

namespace Verif

open Spec

/-- **C66**: a history in which no packet object that a device holds is passed to `Send` again or rewritten does exactly what
the same history does with packets as values: same log, clock, pending events, devices and channels, same fault. -/
theorem C66_packets_are_values {E : Env} {h : PSys} {ops : List POp} (hu : UnsharedRun E h ops) :
    contentsO (execP E h ops) = exec E (contents h) (valueOps E h ops) := execP_value E ops h hu

/-- **C66**: such an operation changes no packet that a device holds. -/
theorem C66_held_packet_unchanged {E : Env} {h h' : PSys} {op : POp} (hu : Unshared h op) (hs : stepP E h op = .ok h')
    {i : PktId} (hi : Held h i) : h'.heap i = h.heap i := by
  have hne : ∀ j, ¬ Held h j → i ≠ j := fun j hj he => hj (he ▸ hi)
  cases op with
  | make j p =>
    injection hs with hs; subst hs
    simp [put, hne j hu]
  | send d j dest proto =>
    rcases (sendP_eq hs).1 with h1 | ⟨f, h1⟩
    · rw [h1]
    · rw [h1]; simp [put, hne j hu]
  | call o ho => rw [(callP_eq hs).1]

/-- **C66**: using every packet object for one `Send` only, and not rewriting it afterwards, is enough. -/
theorem C66_one_send_per_packet {E : Env} {h : PSys} {ops : List POp} (h0 : ∀ i, ¬ Held h i)
    (hone : ops.Pairwise fun a b => ∀ d i dest proto, a = .send d i dest proto → ¬ Touches i b) : UnsharedRun E h ops := by
  intro o1 op o2 h1 he hx
  subst he
  have hk : ∀ i, Touches i op → ¬ Held h1 i := by
    intro i hi hheld
    rcases held_execP hx hheld with h2 | ⟨d, dest, proto, h2⟩
    · exact h0 i h2
    · exact (List.pairwise_append.mp hone).2.2 _ h2 op List.mem_cons_self _ _ _ _ rfl hi
  cases op with
  | make i p => exact hk i rfl
  | send d i dest proto => exact hk i rfl
  | call o ho => exact True.intro

namespace Demo

/-- The demonstration system with packet objects. -/
def psys : PSys := ⟨sys, fun _ => [], fun _ => [], fun _ => none⟩

/-- Calls other than `Send`. -/
def att (d : DevId) (c : ChanId) : POp := .call (.attach d c) (by simp)

/-- The simulator runs an event. -/
def runE : POp := .call .run (by simp)

/-- Check the result of a history. -/
def checkP (E : Env) (h : PSys) (ops : List POp) (test : PSys → Bool) : Bool :=
  match execP E h ops with
  | .ok h' => test h'
  | .fail _ => false

theorem exists_of_checkP {E : Env} {h : PSys} {ops : List POp} {test : PSys → Bool} (hc : checkP E h ops test = true) :
    ∃ h', execP E h ops = .ok h' ∧ test h' = true := by
  unfold checkP at hc
  cases hx : execP E h ops with
  | ok h' => rw [hx] at hc; exact ⟨h', rfl, hc⟩
  | fail e => rw [hx] at hc; cases hc

/-- Two packets are sent, the second waits; then its object is passed to another device as well. -/
def shared : List POp := [att 0 0, att 1 0, att 3 1, att 5 1, .make 1 [7, 8], .make 2 [9], .send 0 1 (.mac (mac 2)) 2048,
  .send 0 2 (.mac (mac 2)) 2048, .send 3 2 (.mac (mac 6)) 2048, runE, runE, runE, runE, runE, runE, runE]

/-- The same with an object of its own for the other device. -/
def copied : List POp := [att 0 0, att 1 0, att 3 1, att 5 1, .make 1 [7, 8], .make 2 [9], .send 0 1 (.mac (mac 2)) 2048,
  .send 0 2 (.mac (mac 2)) 2048, .make 3 [9], .send 3 3 (.mac (mac 6)) 2048, runE, runE, runE, runE, runE, runE, runE]

end Demo

/-- **C66**: sharing is not harmless.  A packet object accepted by one device and waiting there is passed to another device,
which adds its header to the same object: the first device never transmits the frame it accepted, and its receiver is handed
something else than the payload, although everything accepted was transmitted and received. -/
theorem C66_shared_packet_is_corrupted : ∃ ops h, execP Demo.env Demo.psys ops = .ok h ∧ h.sys.pending = [] ∧
    (∃ e ∈ h.sys.log, ∃ f, e.2 = .sendRet 0 [9] (.mac (Demo.mac 2)) 2048 true f ∧ ∀ x ∈ h.sys.log, x.2 ≠ .phyTxBegin 0 f) ∧
    (∀ x ∈ h.sys.log, ∀ proto src, x.2 ≠ .rxCallback 1 [9] proto src) := by
  obtain ⟨h, h1, h2⟩ := Demo.exists_of_checkP (E := Demo.env) (h := Demo.psys) (ops := Demo.shared) (test := fun h =>
    h.sys.pending.isEmpty && h.sys.log.any (fun e => match e.2 with
      | .sendRet d p dest proto ok f => decide (d = 0 ∧ p = [9] ∧ dest = .mac (Demo.mac 2) ∧ proto = 2048 ∧ ok = true) &&
        h.sys.log.all (fun x => match x.2 with | .phyTxBegin d g => !decide (d = 0 ∧ g = f) | _ => true)
      | _ => false) &&
    h.sys.log.all (fun x => match x.2 with | .rxCallback d p _ _ => !decide (d = 1 ∧ p = [9]) | _ => true)) (by decide +kernel)
  refine ⟨_, h, h1, ?_⟩
  simp only [Bool.and_eq_true, List.any_eq_true, List.all_eq_true, List.isEmpty_iff] at h2
  obtain ⟨⟨h3, e, he, h4⟩, h5⟩ := h2
  refine ⟨h3, ⟨e, he, ?_⟩, ?_⟩
  · split at h4
    · rename_i d p dest proto ok f heq
      simp only [Bool.and_eq_true, decide_eq_true_eq, List.all_eq_true] at h4
      obtain ⟨⟨rfl, rfl, rfl, rfl, rfl⟩, h6⟩ := h4
      refine ⟨f, heq, ?_⟩
      intro x hx hxe
      have := h6 x hx
      rw [hxe] at this
      simp at this
    · cases h4
  · intro x hx proto src hxe
    have := h5 x hx
    rw [hxe] at this
    simp at this

/-- With an object of its own for each `Send` the conditions are met, and both receivers get the payload. -/
example : (∀ i, ¬ Held Demo.psys i) ∧
    (Demo.copied.Pairwise fun a b => ∀ d i dest proto, a = .send d i dest proto → ¬ Touches i b) ∧
    Demo.checkP Demo.env Demo.psys Demo.copied (fun h => h.sys.pending.isEmpty &&
      h.sys.log.any (fun x => match x.2 with | .rxCallback d p _ _ => decide (d = 1 ∧ p = [9]) | _ => false) &&
      h.sys.log.any (fun x => match x.2 with | .rxCallback d p _ _ => decide (d = 5 ∧ p = [9]) | _ => false)) = true := by
  refine ⟨?_, ?_, by decide +kernel⟩
  · rintro i ⟨d, h | h⟩
    · cases h
    · cases h
  · simp [Demo.copied, Demo.att, Demo.runE, Touches]
    refine ⟨⟨?_, ?_⟩, ?_⟩ <;> (intro d i _ _ _ hi _ _; subst hi; decide)

/-- A held packet and an operation that leaves it alone. -/
example : ∃ h h', execP Demo.env Demo.psys (Demo.copied.take 7) = .ok h ∧ Held h 1 ∧
    stepP Demo.env h (.send 0 2 (.mac (Demo.mac 2)) 2048) = .ok h' := by
  obtain ⟨h, h1, h2⟩ := Demo.exists_of_checkP (E := Demo.env) (h := Demo.psys) (ops := Demo.copied.take 7) (test := fun h =>
    decide (h.cur 0 = some 1) && match stepP Demo.env h (.send 0 2 (.mac (Demo.mac 2)) 2048) with
      | .ok _ => true
      | .fail _ => false) (by decide +kernel)
  simp only [Bool.and_eq_true, decide_eq_true_eq] at h2
  obtain ⟨h2, h3⟩ := h2
  split at h3
  · rename_i h' hs
    exact ⟨h, h', h1, ⟨0, Or.inr h2⟩, hs⟩
  · cases h3

end Verif
