import Verif.Lemmas.Spread
import Verif.Props.Flood
/-! # C118: flooding reaches everybody a path leads to, nobody else, and ends -/

namespace Verif
open Spec

/-- **C118**: in a network reached by proper use, with nothing going on and without transmission errors, a node sends a packet that was not
seen before to everybody on all its ports.  If every node sends it on once, on all its ports, when it gets it for the first time, then all
activity ends, after at most one event more per port than devices were attached, and
* at every device that a lasting link from a port of a node on a path of lasting links leads to, the packet has been passed up, with
  the address of that port, no later than the delays along the path say: queues never hold the packet up;
* nothing else has been passed up than this packet, and only at devices that can hear a port of a node that chains of such devices connect
  with the first one. -/
theorem C118_flooding {E : Env} (hE : ErrorFree E) {s0 s : Sys} {ops : List Op} (h0 : Initial s0) (hpr : ProperRun E s0 ops)
    (h : exec E s0 ops = .ok s) (hp : s.pending = []) {nodes : List NodeId} {ports : NodeId → List DevId} (hports : PortsOf s nodes ports)
    {n0 : NodeId} {p : Bytes} (hlen : p.length ≤ 1492) {proto : UInt16} {own : NodeId → Bytes → UInt16 → Bool}
    (hown : ∀ n, own n p proto = decide (n = n0)) (hfresh : ∀ e ∈ allUps s.log, ¬ (e.2.2.1 = p ∧ e.2.2.2.1 = proto)) :
    ∃ k s', k ≤ portCount nodes ports * (1 + attachCalls ops) ∧
      (sendAll E (onAll ports n0 p proto) s >>= flood E (floodOnce own ports) k) = .ok s' ∧ s'.pending = [] ∧
      (∀ n T, PathBy E s (max 64 (p.length + 26)) ports n0 n T → ∀ d ∈ ports n, ∀ x δ,
        Lasting E s (max 64 (p.length + 26)) T d x δ → ∃ t, t ≤ T + δ ∧ (t, x, p, proto, (s.dev d).addr) ∈ allUps s'.log) ∧
      ∃ l, allUps s'.log = allUps s.log ++ l ∧ ∀ e ∈ l, e.2.2.1 = p ∧ e.2.2.2.1 = proto ∧
        ∃ n d, LinkedTo E s (max 64 (p.length + 26)) ports n0 n ∧ d ∈ ports n ∧ CanHear E s (max 64 (p.length + 26)) d e.2.1 ∧
          e.2.2.2.2 = (s.dev d).addr := by
  have hf := reached_fit h0 hpr h
  have hN : Bounded (attachCalls ops) s := by
    have := bounded_attaches (bounded_initial h0) h
    rwa [Nat.zero_add] at this
  obtain ⟨u, h1, h2⟩ := spreading_start (n0 := n0) (proto := proto) hf hp hports hlen
  obtain ⟨w, _, g1, _, g3, g4, _⟩ := potential_sendAll (hops := fun _ => 0) (B := 0) (D := 1 + attachCalls ops) (onAll ports n0 p proto) hf hN (by
    intro e he
    obtain ⟨d, _, rfl⟩ := List.mem_map.mp he
    exact ⟨Nat.le_refl _, hlen, by simp⟩)
  rw [h1] at g1
  obtain rfl := Outcome.ok.inj g1
  have hz : potential (fun _ => 0) (attachCalls ops) 0 E s = 0 := by unfold potential; rw [hp]; rfl
  have hl : (onAll ports n0 p proto).length = (ports n0).length := by simp [onAll]
  rw [hz, hl, Nat.zero_add] at g4
  have hsum : portsLeft s nodes ports n0 [] + (ports n0).length ≤ portCount nodes ports := by
    by_cases hn : ports n0 = []
    · rw [hn]
      refine sum_map_le _ fun n _ => ?_
      split <;> omega
    · refine sum_map_drop _ (fun n _ => ?_) (hports.all n0 hn) ?_
      · split <;> omega
      · rw [if_pos (show Has s n0 [] n0 from Or.inl rfl)]; omega
  have hW : potential (fun _ => 0) (attachCalls ops) 0 E u + portsLeft s nodes ports n0 [] * (1 + attachCalls ops) ≤
      portCount nodes ports * (1 + attachCalls ops) := by
    have := Nat.mul_le_mul_right (1 + attachCalls ops) hsum
    rw [Nat.add_mul] at this
    omega
  obtain ⟨k, l, s', k1, k2, k3, k4⟩ := spreading_ends hE hf hports hlen hown hfresh _ h2 g3 hW
  refine ⟨k, s', k1, by rw [h1, Outcome.ok_bind, k2], k4, ?_, l, k3.ups, ?_⟩
  · intro n T hpath d hd x δ hla
    obtain ⟨t, b1, b2⟩ := (spreading_path k3 k4 hpath).2 d hd x δ hla
    exact ⟨t, b1, by rw [k3.ups]; exact List.mem_append_right _ b2⟩
  · intro e he
    exact ⟨(k3.news e he).1, (k3.news e he).2.1, k3.origin e he⟩

/-- **C118**: every other node at the end of a path of lasting links has got the packet by the time the path says, at one of its devices; a node
that no chain of devices that can hear each other connects with the first has not got it. -/
theorem C118_nodes {E : Env} (hE : ErrorFree E) {s0 s : Sys} {ops : List Op} (h0 : Initial s0) (hpr : ProperRun E s0 ops)
    (h : exec E s0 ops = .ok s) (hp : s.pending = []) {nodes : List NodeId} {ports : NodeId → List DevId} (hports : PortsOf s nodes ports)
    {n0 : NodeId} {p : Bytes} (hlen : p.length ≤ 1492) {proto : UInt16} {own : NodeId → Bytes → UInt16 → Bool}
    (hown : ∀ n, own n p proto = decide (n = n0)) (hfresh : ∀ e ∈ allUps s.log, ¬ (e.2.2.1 = p ∧ e.2.2.2.1 = proto)) :
    ∃ k s', (sendAll E (onAll ports n0 p proto) s >>= flood E (floodOnce own ports) k) = .ok s' ∧ s'.pending = [] ∧
      (∀ n T, PathBy E s (max 64 (p.length + 26)) ports n0 n T → n ≠ n0 →
        ∃ t x sa, t ≤ T ∧ (s.dev x).node = some n ∧ (t, x, p, proto, sa) ∈ allUps s'.log) ∧
      ∀ n, ¬ LinkedTo E s (max 64 (p.length + 26)) ports n0 n →
        ∀ t x sa, (s.dev x).node = some n → (t, x, p, proto, sa) ∉ allUps s'.log := by
  obtain ⟨k, s', _, h1, h2, h3, l, h4, h5⟩ := C118_flooding hE h0 hpr h hp hports hlen hown hfresh
  refine ⟨k, s', h1, h2, ?_, ?_⟩
  · intro n T hpath hne
    cases hpath with
    | start => exact absurd rfl hne
    | @hop m _ T δ d x hpath hd hl hx =>
      obtain ⟨t, b1, b2⟩ := h3 m T hpath d hd x δ hl
      exact ⟨t, x, _, b1, hx, b2⟩
  · intro n hn t x sa hx hmem
    rw [h4] at hmem
    rcases List.mem_append.mp hmem with hmem | hmem
    · exact hfresh _ hmem ⟨rfl, rfl⟩
    · obtain ⟨_, _, m, d, b1, b2, b3, _⟩ := h5 _ hmem
      exact hn (.hop b1 b2 b3 hx)

theorem Demo.lt_three {n : Nat} (h : n < 3) : n = 0 ∨ n = 1 ∨ n = 2 := by omega

/-- Two ground devices and the satellite device between them, each the only port of its node. -/
def Demo.threePorts (n : NodeId) : List DevId := if n < 3 then [n] else []

/-- The hypotheses of `C118_flooding` are met, and a path leads from the first ground node over the satellite to the other ground node. -/
example : ∃ s, exec Demo.env Demo.sys [.attach 0 0, .attach 1 0, .attach 2 0] = .ok s ∧ ErrorFree Demo.env ∧ Initial Demo.sys ∧
    ProperRun Demo.env Demo.sys [.attach 0 0, .attach 1 0, .attach 2 0] ∧ s.pending = [] ∧ PortsOf s [0, 1, 2] Demo.threePorts ∧
    (∀ e ∈ allUps s.log, ¬ (e.2.2.1 = [7] ∧ e.2.2.2.1 = 2048)) ∧
    PathBy Demo.env s (max 64 ([7].length + 26)) Demo.threePorts 0 2 128 ∧
    ¬ LinkedTo Demo.env s (max 64 ([7].length + 26)) Demo.threePorts 0 4 := by
  refine ⟨_, rfl, fun _ _ _ _ => rfl, Demo.sys_initial, demo_properRun _ ?_, rfl, ⟨?_, ?_, ?_⟩, ?_, ?_, ?_⟩
  · intro op hop
    simp only [List.mem_cons, List.not_mem_nil, or_false] at hop
    rcases hop with rfl | rfl | rfl <;> exact ⟨_, _, rfl, by decide⟩
  · intro n d hd
    unfold Demo.threePorts at hd
    split at hd
    · rename_i hn
      rw [List.mem_singleton] at hd
      subst hd
      obtain h | h | h := Demo.lt_three hn
      all_goals subst h; rfl
    · cases hd
  · intro n
    unfold Demo.threePorts
    split <;> simp
  · intro n hn
    unfold Demo.threePorts at hn
    split at hn
    · rename_i hlt
      obtain h | h | h := Demo.lt_three hlt
      all_goals subst h; simp
    · exact absurd rfl hn
  · intro e he; revert e; decide +kernel
  · have l1 : Lasting Demo.env (match exec Demo.env Demo.sys [.attach 0 0, .attach 1 0, .attach 2 0] with | .ok s => s | .fail _ => Demo.sys)
        (max 64 ([7].length + 26)) 0 0 1 64 :=
      ⟨rfl, by decide, 0, rfl, by decide, fun _ => ⟨by decide, by decide, by decide⟩, (fun h => by cases h), fun t _ _ =>
        ⟨64, 1, Nat.le_refl _, rfl, by decide +kernel⟩⟩
    have l2 : Lasting Demo.env (match exec Demo.env Demo.sys [.attach 0 0, .attach 1 0, .attach 2 0] with | .ok s => s | .fail _ => Demo.sys)
        (max 64 ([7].length + 26)) 64 1 2 64 :=
      ⟨rfl, by decide, 0, rfl, by decide, fun _ => ⟨by decide, by decide, by decide⟩, (fun h => by cases h), fun t _ _ =>
        ⟨64, 1, Nat.le_refl _, rfl, by decide +kernel⟩⟩
    exact PathBy.hop (T := 64) (δ := 64) (d := 1) (x := 2) (PathBy.hop (T := 0) (δ := 64) (d := 0) (x := 1) .start (by decide) l1 rfl)
      (by decide) l2 rfl
  · intro hh
    generalize he : (4 : NodeId) = n at hh
    cases hh with
    | start => cases he
    | @hop m _ d x _ hd hl hx =>
      subst he
      obtain ⟨_, pw, ⟨c, t, δ, hc, hleo, hisl, _⟩, _⟩ := hl
      unfold Demo.threePorts at hd
      split at hd
      · rename_i hn
        rw [List.mem_singleton] at hd
        subst hd
        have key : ∀ y ∈ ([0, 1, 2] : List DevId), y = 0 ∨ y = 1 ∨ y = 2 := by decide
        obtain h | h | h := Demo.lt_three hn
        all_goals
          subst h
          injection hc with hc
          subst hc
          have hm := (hleo rfl).2.1
          rcases key x hm with rfl | rfl | rfl <;> cases hx
      · cases hd

end Verif
