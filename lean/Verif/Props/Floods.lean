import Verif.Lemmas.Floods
import Verif.Props.Spread
import Verif.Lemmas.Converse
import Verif.Props.Ledger
/-! # C122: what floods cost -/

namespace Verif
open Spec

/-- **C122**: in a network whose nodes flood, any number of packets may be brought up, anywhere and at any time, while others are still under
way; frames may be lost, queues may overflow, nodes may move, devices may be attached and detached.  Up to any moment exactly these calls of
`Send` have been made, in some order: for every packet and every node that has got it or brought it up, one on each port of the node. -/
theorem C122_calls {E : Env} {s0 : Sys} (h0 : Initial s0) {nodes : List NodeId} (hnodes : nodes.Nodup) {ports : NodeId → List DevId}
    (hports : PortsOf s0 nodes ports) {own : NodeId → Bytes → UInt16 → Bool} {bs : List (NodeId × Bytes × UInt16)} {t : Sys}
    (h : FloodRuns E own ports s0 bs t) (hd : Distinct own bs) : (callsMade t.log).Perm (onceEach nodes ports bs t) := by
  have F := flooded_all h0 hports h hd
  have key : ∀ c ∈ callsMade t.log, ∃ b ∈ bs, ∃ n, (n = b.1 ∨ 0 < heardBy t n b.2.1 b.2.2) ∧ c.1 ∈ ports n ∧
      c = (c.1, b.2.1, .mac Mac48.broadcast, b.2.2) := by
    rintro ⟨d, p, dest, proto⟩ hc
    obtain ⟨rfl, b, hb, e⟩ := F.brought _ hc
    obtain ⟨n0, p', proto'⟩ := b
    simp only [Prod.mk.injEq] at e
    obtain ⟨rfl, rfl⟩ := e
    by_contra hno
    have := F.no _ hb d (fun n hdn hor => hno ⟨_, hb, n, hor, hdn, rfl⟩)
    rw [List.count_eq_zero] at this
    exact this hc
  have h1 : (callsMade t.log).Nodup := by
    rw [List.nodup_iff_count_le_one]
    intro c
    by_cases hc : c ∈ callsMade t.log
    · obtain ⟨b, hb, n, hor, hdn, e⟩ := key c hc
      rw [e, F.yes b hb n hor _ hdn]
    · rw [List.count_eq_zero.mpr hc]; exact Nat.zero_le _
  have hmem : ∀ {n p proto c}, c ∈ onAll ports n p proto → c.1 ∈ ports n ∧ c.2 = (p, .mac Mac48.broadcast, proto) := by
    intro n p proto c hc
    obtain ⟨d, hdn, rfl⟩ := List.mem_map.mp hc
    exact ⟨hdn, rfl⟩
  have h2 : (onceEach nodes ports bs t).Nodup := by
    unfold onceEach
    rw [List.nodup_flatMap]
    constructor
    · intro b _
      rw [List.nodup_flatMap]
      constructor
      · intro n _
        exact (hports.once n).map (fun a b h => by injection h)
      · refine (hnodes.filter _).imp ?_
        intro n m hne c hc hc'
        have e1 := hports.own _ _ (hmem hc).1
        have e2 := hports.own _ _ (hmem hc').1
        rw [e1] at e2
        injection e2 with e2
        exact hne e2
    · refine hd.apart.imp ?_
      intro a b hne c hc hc'
      obtain ⟨n, _, hn⟩ := List.mem_flatMap.mp hc
      obtain ⟨m, _, hm⟩ := List.mem_flatMap.mp hc'
      have e1 := (hmem hn).2
      have e2 := (hmem hm).2
      rw [e1] at e2
      simp only [Prod.mk.injEq] at e2
      exact hne (Prod.ext e2.1 e2.2.2)
  rw [List.perm_ext_iff_of_nodup h1 h2]
  intro c
  constructor
  · intro hc
    obtain ⟨b, hb, n, hor, hdn, e⟩ := key c hc
    refine List.mem_flatMap.mpr ⟨b, hb, List.mem_flatMap.mpr ⟨n, ?_, ?_⟩⟩
    · refine List.mem_filter.mpr ⟨hports.all n (List.ne_nil_of_mem hdn), ?_⟩
      rw [decide_eq_true_eq]; exact hor
    · rw [e]; exact List.mem_map.mpr ⟨_, hdn, rfl⟩
  · intro hc
    obtain ⟨b, hb, hc⟩ := List.mem_flatMap.mp hc
    obtain ⟨n, hn, hc⟩ := List.mem_flatMap.mp hc
    obtain ⟨d, hdn, rfl⟩ := List.mem_map.mp hc
    have hor := (List.mem_filter.mp hn).2
    rw [decide_eq_true_eq] at hor
    rw [← List.one_le_count_iff, F.yes b hb n hor d hdn]

/-- **C122**: only packets that were brought up are passed up. -/
theorem C122_nothing_else {E : Env} {s0 : Sys} (h0 : Initial s0) {nodes : List NodeId} {ports : NodeId → List DevId}
    (hports : PortsOf s0 nodes ports) {own : NodeId → Bytes → UInt16 → Bool} {bs : List (NodeId × Bytes × UInt16)} {t : Sys}
    (h : FloodRuns E own ports s0 bs t) (hd : Distinct own bs) : ∀ e ∈ allUps t.log, ∃ b ∈ bs, (e.2.2.1, e.2.2.2.1) = b.2 := by
  have F := flooded_all h0 hports h hd
  exact fun e he => flooded_heard h0 hd.short F.history F.brought he

theorem tally_calls (log : List (Time × Ev)) : tally .sent log = (callsMade log).length := by
  induction log with
  | nil => rfl
  | cons e log ih =>
    obtain ⟨t, e⟩ := e
    rw [tally_cons, ih]
    cases e <;> simp [callsMade, fate, Nat.add_comm]

/-- **C122**: the number of calls is the number of ports of the nodes that have the packets; a packet never costs more calls than there are
ports. -/
theorem C122_number {E : Env} {s0 : Sys} (h0 : Initial s0) {nodes : List NodeId} (hnodes : nodes.Nodup) {ports : NodeId → List DevId}
    (hports : PortsOf s0 nodes ports) {own : NodeId → Bytes → UInt16 → Bool} {bs : List (NodeId × Bytes × UInt16)} {t : Sys}
    (h : FloodRuns E own ports s0 bs t) (hd : Distinct own bs) :
    tally .sent t.log = (bs.map fun b => portCount (owners nodes t b) ports).sum ∧ tally .sent t.log ≤ bs.length * portCount nodes ports := by
  have hl := (C122_calls h0 hnodes hports h hd).length_eq
  have e : (onceEach nodes ports bs t).length = (bs.map fun b => portCount (owners nodes t b) ports).sum := by
    unfold onceEach portCount
    simp only [List.length_flatMap, onAll, List.length_map]
  refine ⟨by rw [tally_calls, hl, e], ?_⟩
  rw [tally_calls, hl, e]
  have : ∀ b ∈ bs, portCount (owners nodes t b) ports ≤ portCount nodes ports := fun b _ =>
    (List.Sublist.map _ List.filter_sublist).sum_le_sum (fun _ _ => Nat.zero_le _)
  calc (bs.map fun b => portCount (owners nodes t b) ports).sum ≤ (bs.map fun _ => portCount nodes ports).sum := sum_map_le bs this
    _ = bs.length * portCount nodes ports := by rw [List.map_const', List.sum_replicate, smul_eq_mul]

/-- **C122**: no device is given a packet twice. -/
theorem C122_once {E : Env} {s0 : Sys} (h0 : Initial s0) {nodes : List NodeId} {ports : NodeId → List DevId}
    (hports : PortsOf s0 nodes ports) (hnodes : nodes.Nodup) {own : NodeId → Bytes → UInt16 → Bool} {bs : List (NodeId × Bytes × UInt16)}
    {t : Sys} (h : FloodRuns E own ports s0 bs t) (hd : Distinct own bs) : (callsMade t.log).Nodup := by
  refine (C122_calls h0 hnodes hports h hd).nodup_iff.mpr ?_
  unfold onceEach
  rw [List.nodup_flatMap]
  constructor
  · intro b _
    rw [List.nodup_flatMap]
    constructor
    · intro n _
      unfold onAll
      exact (hports.once n).map fun x y e => (Prod.mk.inj e).1
    · refine (hnodes.filter _).imp ?_
      intro n m hnm x hx hy
      unfold onAll at hx hy
      obtain ⟨d, hd1, rfl⟩ := List.mem_map.mp hx
      obtain ⟨e, he1, he⟩ := List.mem_map.mp hy
      have : e = d := (Prod.mk.inj he).1
      subst this
      have h1 := hports.own n _ hd1
      rw [hports.own m _ he1] at h1
      exact hnm (Option.some.inj h1).symm
  · refine hd.apart.imp ?_
    intro b c hbc x hx hy
    obtain ⟨n, _, hx⟩ := List.mem_flatMap.mp hx
    obtain ⟨m, _, hy⟩ := List.mem_flatMap.mp hy
    unfold onAll at hx hy
    obtain ⟨d, _, rfl⟩ := List.mem_map.mp hx
    obtain ⟨e, _, he⟩ := List.mem_map.mp hy
    have h1 := (Prod.mk.inj (Prod.mk.inj he).2)
    exact hbc (Prod.ext h1.1.symm (Prod.mk.inj h1.2).2.symm)

/-- **C122**: every one of these calls has led to one transmission, to a drop that was traced, or to a frame that waits in a queue; when
activity has ended, to one of the first two. -/
theorem C122_air {E : Env} {s0 : Sys} (h0 : Initial s0) {nodes : List NodeId} (hnodes : nodes.Nodup) {ports : NodeId → List DevId}
    (hports : PortsOf s0 nodes ports) {own : NodeId → Bytes → UInt16 → Bool} {bs : List (NodeId × Bytes × UInt16)} {t : Sys}
    (h : FloodRuns E own ports s0 bs t) (hd : Distinct own bs) :
    tally .begun t.log + tally .macTxDrop t.log ≤ (bs.map fun b => portCount (owners nodes t b) ports).sum ∧
      (t.pending = [] → tally .begun t.log + tally .macTxDrop t.log = (bs.map fun b => portCount (owners nodes t b) ports).sum) := by
  obtain ⟨ops, hx⟩ := (flooded_all h0 hports h hd).history
  obtain ⟨n, hn⟩ := exists_sendersBelow ops
  have hs := C102_senders h0 hx hn
  have hc := (C122_number h0 hnodes hports h hd).1
  refine ⟨by omega, fun hend => ?_⟩
  have hw : waiting n t = 0 := by
    unfold waiting
    rw [List.sum_eq_zero]
    intro x hx'
    obtain ⟨d, _, rfl⟩ := List.mem_map.mp hx'
    rw [queue_empty_at_end h0 hx hend]; rfl
  omega

/-- Calls other than `Send` and the dispatch of events do not leave the histories of floods. -/
theorem Spec.FloodRuns.asides {E : Env} {own : NodeId → Bytes → UInt16 → Bool} {ports : NodeId → List DevId} {s0 : Sys}
    {bs : List (NodeId × Bytes × UInt16)} : ∀ {ops : List Op} {t u : Sys}, FloodRuns E own ports s0 bs t → (∀ op ∈ ops, Aside op) →
      exec E t ops = .ok u → FloodRuns E own ports s0 bs u
  | [], _, _, h, _, hx => by
    obtain rfl := Outcome.ok.inj hx
    exact h
  | op :: ops, _, _, h, ha, hx => by
    simp only [exec] at hx
    obtain ⟨v, hv, hx⟩ := Outcome.bind_eq_ok.mp hx
    exact Spec.FloodRuns.asides (h.aside (ha op List.mem_cons_self) hv) (fun o ho => ha o (List.mem_cons_of_mem _ ho)) hx

theorem Spec.FloodRuns.from {E : Env} {own : NodeId → Bytes → UInt16 → Bool} {ports : NodeId → List DevId} {s0 s1 : Sys}
    {bs cs : List (NodeId × Bytes × UInt16)} {t : Sys} (h0 : FloodRuns E own ports s0 bs s1) (h : FloodRuns E own ports s1 cs t) :
    FloodRuns E own ports s0 (bs ++ cs) t := by
  induction h with
  | start => rw [List.append_nil]; exact h0
  | bring _ hb ih => rw [← List.append_assoc]; exact ih.bring hb
  | event _ he ih => exact ih.event he
  | aside _ ha hs ih => exact ih.aside ha hs

/-- The dispatch of any number of events. -/
theorem Spec.FloodRuns.events {E : Env} {own : NodeId → Bytes → UInt16 → Bool} {ports : NodeId → List DevId} {s0 : Sys}
    {bs : List (NodeId × Bytes × UInt16)} : ∀ (k : Nat) {t u : Sys}, FloodRuns E own ports s0 bs t →
      flood E (floodOnce own ports) k t = .ok u → FloodRuns E own ports s0 bs u
  | 0, _, _, h, hx => by
    obtain rfl := Outcome.ok.inj hx
    exact h
  | k + 1, _, _, h, hx => by
    rw [Nat.add_comm, flood_add] at hx
    obtain ⟨v, hv, hx⟩ := Outcome.bind_eq_ok.mp hx
    exact FloodRuns.events k (h.event hv) hx

/-- Which node brings up which packet. -/
def Demo.bringers (n : NodeId) (p : Bytes) (_ : UInt16) : Bool := decide ((p = [1] ∧ n = 0) ∨ (p = [2, 2] ∧ n = 2))

/-- Three nodes of a row of satellites: the first brings up a packet, and while it is under way the third brings up another one. -/
def Demo.twoFloods : Outcome Sys :=
  exec Demo.env Demo.sys [.attach 0 0, .attach 1 0, .attach 2 0] >>= fun s =>
  sendAll Demo.env (onAll Demo.threePorts 0 [1] 2048) s >>= flood Demo.env (floodOnce Demo.bringers Demo.threePorts) 1 >>=
  sendAll Demo.env (onAll Demo.threePorts 2 [2, 2] 2048) >>= flood Demo.env (floodOnce Demo.bringers Demo.threePorts) 13

example : ∃ t, Initial Demo.sys ∧ PortsOf Demo.sys [0, 1, 2] Demo.threePorts ∧ ([0, 1, 2] : List NodeId).Nodup ∧
    FloodRuns Demo.env Demo.bringers Demo.threePorts Demo.sys [(0, [1], 2048), (2, [2, 2], 2048)] t ∧
    Distinct Demo.bringers [(0, [1], 2048), (2, [2, 2], 2048)] ∧ t.pending = [] ∧ tally .sent t.log = 6 ∧ tally .begun t.log = 6 := by
  have hr : (match Demo.twoFloods with
      | .ok t => decide (t.pending.length = 0 ∧ tally .sent t.log = 6 ∧ tally .begun t.log = 6)
      | .fail _ => false) = true := by decide +kernel
  split at hr
  case h_2 => cases hr
  rename_i t ht
  obtain ⟨h1, h2, h3⟩ := of_decide_eq_true hr
  have h1 := List.eq_nil_of_length_eq_zero h1
  refine ⟨t, Demo.sys_initial, ⟨?_, ?_, ?_⟩, by decide, ?_, ⟨?_, ?_, ?_⟩, h1, h2, h3⟩
  · intro n d hd
    unfold Demo.threePorts at hd
    split at hd
    · rename_i hn
      rw [List.mem_singleton] at hd
      subst hd
      obtain h | h | h := Demo.lt_three hn
      all_goals subst h; rfl
    · cases hd
  · intro n
    unfold Demo.threePorts
    split <;> simp
  · intro n hn
    unfold Demo.threePorts at hn
    split at hn
    · rename_i hlt
      obtain h | h | h := Demo.lt_three hlt
      all_goals subst h; simp
    · exact absurd rfl hn
  · unfold Demo.twoFloods at ht
    obtain ⟨s1, e1, ht⟩ := Outcome.bind_eq_ok.mp ht
    obtain ⟨s4, e4, ht⟩ := Outcome.bind_eq_ok.mp ht
    obtain ⟨s3, e3, e4⟩ := Outcome.bind_eq_ok.mp e4
    obtain ⟨s2, e2, e3⟩ := Outcome.bind_eq_ok.mp e3
    have f1 : FloodRuns Demo.env Demo.bringers Demo.threePorts Demo.sys [] s1 := FloodRuns.asides .start (by
      intro op hop
      simp only [List.mem_cons, List.not_mem_nil, or_false] at hop
      rcases hop with rfl | rfl | rfl <;> trivial) e1
    exact (((f1.bring e2).event e3).bring e4).events 13 ht
  · simp
  · intro b hb
    simp only [List.mem_cons, List.not_mem_nil, or_false] at hb
    rcases hb with rfl | rfl <;> simp
  · intro b hb n
    simp only [List.mem_cons, List.not_mem_nil, or_false] at hb
    rcases hb with rfl | rfl <;> simp [Demo.bringers]

end Verif
