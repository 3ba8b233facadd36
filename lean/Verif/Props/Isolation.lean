import Verif.Lemmas.Isolation
import Verif.Lemmas.Channel
import Verif.Demo
/-!
# C65: networks that share a simulation do not influence each other
-/

namespace Verif

open Spec

/-- **C65**: whatever happens outside the group, there is a history that makes only the group's own calls, in the same order,
and in which the group's devices, channels, pending events, clock and log entries with their times are the same. -/
theorem C65_networks_are_independent {E : Env} (hE : Steady E) (G : Group) {s0 s : Sys} {ops : List Op} (h0 : Initial s0)
    (hk : ∀ op ∈ ops, G.Keeps op) (h : exec E s0 ops = .ok s) :
    ∃ own t, exec E s0 own = .ok t ∧ own.filter isCall = (ops.filter fun o => isCall o && G.op o) ∧ G.View s t := by
  obtain ⟨own, t, h1, h2, h3⟩ := Rel.exec hE hk (inv_initial h0) (rel_initial h0) h
  exact ⟨own, t, h1, h3, h2.2⟩

/-- **C65**: no frame is ever received by a device of the group from outside, or outside from the group, whatever the error
model. -/
theorem C65_no_frame_crosses {E : Env} (G : Group) {s0 s : Sys} {ops : List Op} (h0 : Initial s0)
    (hk : ∀ op ∈ ops, G.Keeps op) (h : exec E s0 ops = .ok s) {t : Time} {d src : DevId} {f : Bytes} {rx : Power}
    (he : (t, Ev.recvCall d f src rx) ∈ s.log) : G.dev d = G.dev src := by
  obtain ⟨o1, op, o2, s1, s2, rfl, h1, h2, h3, h4⟩ := log_entry_origin h0 h he
  have hi := inv_exec (inv_initial h0) h1
  have hw := wired_exec (wired_initial h0) h1
  have hsp : Split G s1 := split_exec (fun o ho => hk o (by simp [ho])) (inv_initial h0) (rel_initial h0).1 h1
  have hnew : ∀ {l}, s2.log = s1.log ++ l → newLog s1 s2 = l := by
    intro l hl; unfold newLog; rw [hl, List.drop_left]
  cases netStep_step hi hw h2 with
  | quiet l hlog hl _ => rw [hnew hlog] at h4; exact (hl _ h4).elim
  | recv d' f' src' rx' l _ hp hlog hl _ _ _ =>
    rw [hnew hlog] at h4
    rcases List.mem_cons.mp h4 with h4 | h4
    · simp only [Prod.mk.injEq, Ev.recvCall.injEq] at h4
      obtain ⟨-, rfl, rfl, rfl, rfl⟩ := h4
      exact hsp.recv ⟨s2.now, .receive d f src rx⟩ (by rw [hp]; exact List.mem_cons_self) _ _ _ _ rfl
    · obtain ⟨x, hx, hx2⟩ := List.mem_map.mp h4
      injection hx2 with _ hx2
      subst hx2
      exact (hl _ hx).elim
  | tx d' f' dest c rs b ps l1 l2 hchan hrs hb hps hp hlog hl1 hl2 hd hc =>
    rw [hnew hlog] at h4
    simp only [List.mem_append] at h4
    rcases h4 with h4 | h4 | h4 | h4 | h4
    · exact (hl1 _ h4).elim
    · simp at h4
    · obtain ⟨r, _, hr⟩ := List.mem_map.mp h4
      simp [Recv.entry] at hr
    · split at h4 <;> simp at h4
    · exact (hl2 _ h4).elim

/-- Devices 0 and 1 with channel 0. -/
def demoGroup : Group := ⟨fun d => d < 2, fun c => c = 0⟩

/-- Two networks side by side: devices 0 and 1 on channel 0, devices 3 and 5 on channel 1, events of both interleaved. -/
def demoTwo : List Op := [.attach 0 0, .attach 3 1, .attach 1 0, .attach 5 1, .send 3 [1] (.mac (Demo.mac 6)) 2048,
  .send 0 [7, 8] (.mac (Demo.mac 2)) 2048, .run, .run, .run, .send 5 [9] (.mac (Demo.mac 4)) 2048, .run, .run]

/-- The hypotheses are met, and both networks receive. -/
example : Steady Demo.env ∧ Initial Demo.sys ∧ (∀ op ∈ demoTwo, demoGroup.Keeps op) ∧
    Demo.check Demo.env Demo.sys demoTwo (fun s => s.log.any (fun e => match e.2 with | .rxCallback d _ _ _ => d = 1 | _ => false) ∧
      s.log.any (fun e => match e.2 with | .rxCallback d _ _ _ => d = 5 | _ => false) ∧
      (s.log.filter fun e => demoGroup.ev e.2).length < s.log.length) = true := by
  refine ⟨fun _ _ _ _ _ => rfl, Demo.sys_initial, ?_, by decide +kernel⟩
  intro op hop
  simp only [demoTwo, List.mem_cons, List.not_mem_nil, or_false] at hop
  rcases hop with rfl | rfl | rfl | rfl | rfl | rfl | rfl | rfl | rfl | rfl | rfl | rfl <;>
    first | exact rfl | exact True.intro

end Verif
