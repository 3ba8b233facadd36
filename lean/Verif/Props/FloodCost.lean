import Verif.Props.Floods
import Verif.Props.Converse
/-! # C122: what floods cost in the example networks -/

namespace Verif
open Spec

/-- The packets brought up in a conversation. -/
def Spec.broughtIn (ms : List Talk) : List (NodeId × Bytes × UInt16) := ms.map fun m => (m.src, m.packet, m.proto)

/-- Conversations are histories of floods. -/
theorem converse_floodRuns {E : Env} {own : NodeId → Bytes → UInt16 → Bool} {ports : NodeId → List DevId} {s : Sys} {ms : List Talk}
    {ts : List Time} {u : Sys} (h : Converse E (floodOnce own ports) ports s ms ts u) :
    FloodRuns E own ports s (broughtIn ms) u := by
  induction h with
  | done => exact .start
  | talk hw hf _ _ ih =>
    obtain ⟨v, hv, hf⟩ := Outcome.bind_eq_ok.mp hf
    exact ((((FloodRuns.start).aside (by trivial) hw).bring hv).events _ hf).from ih

/-- The ports of the nodes of the example programs. -/
theorem example_portsOf {s1 : Sys} {N base : Nat} (hle : N ≤ base) (hnode : ∀ k : Nat, k < base → (s1.dev k).node = some k)
    (hnodeI : ∀ k : Nat, k < N → (s1.dev (base + k : Nat)).node = some k) : PortsOf s1 (List.range base) (examplePorts N base) := by
  refine ⟨?_, ?_, ?_⟩
  · intro k d hd
    unfold examplePorts port at hd
    split at hd
    · rename_i hk
      simp only [List.mem_cons, List.not_mem_nil, or_false, Bool.false_eq_true, if_false, if_true] at hd
      rcases hd with hd | hd <;> rw [hd]
      · exact hnode k (Nat.lt_of_lt_of_le hk hle)
      · exact hnodeI k hk
    · split at hd
      · rename_i hk
        simp only [List.mem_cons, List.not_mem_nil, or_false, Bool.false_eq_true, if_false] at hd
        rw [hd]
        exact hnode k hk
      · cases hd
  · intro k
    unfold examplePorts port
    split
    · rename_i hk
      simp only [Bool.false_eq_true, if_false, if_true, List.nodup_cons, List.mem_singleton, List.not_mem_nil, not_false_eq_true, List.nodup_nil, and_true]
      intro e
      have e : @Eq Nat k (base + k) := e
      have hk : @LT.lt Nat _ k N := hk
      omega
    · split <;> simp
  · intro k hk
    unfold examplePorts at hk
    rw [List.mem_range]
    split at hk
    · rename_i h1
      exact Nat.lt_of_lt_of_le h1 hle
    · split at hk
      · assumption
      · exact absurd rfl hk

theorem portCount_example (N G : Nat) : portCount (List.range (N + G)) (examplePorts N (N + G)) = 2 * N + G := by
  unfold portCount
  rw [List.range_add, List.map_append, List.sum_append, List.map_map]
  have e1 : (List.range N).map (fun n => (examplePorts N (N + G) n).length) = (List.range N).map fun _ => 2 := by
    refine List.map_congr_left fun k hk => ?_
    unfold examplePorts
    rw [if_pos (List.mem_range.mp hk)]
    rfl
  have e2 : (List.range G).map ((fun n => (examplePorts N (N + G) n).length) ∘ fun x => N + x) = (List.range G).map fun _ => 1 := by
    refine List.map_congr_left fun k hk => ?_
    have hk := List.mem_range.mp hk
    have h1 : ¬ N + k < N := by omega
    have h2 : N + k < N + G := by omega
    show (examplePorts N (N + G) (N + k : Nat)).length = 1
    unfold examplePorts
    rw [if_neg h1, if_pos h2]
    rfl
  rw [e1, e2, List.map_const', List.map_const', List.sum_replicate, List.sum_replicate, List.length_range, List.length_range]
  simp only [smul_eq_mul]
  omega

/-- **C122** in the network of the example programs with inter-satellite links: whatever the constellation, wherever the satellites and the
stations are, however frames are lost, and however many packets are brought up anywhere at any time, while others are under way and while devices are
attached, detached and set up anew: every packet costs at most two calls of `Send` for each satellite and one for each station, and as many
transmissions; no device is given a packet twice. -/
theorem C122_example {junk : ℝ} {a : ExampleArgs} {p : Preset} (hp : p ∈ presets) (hn : a.constellation = p.name)
    (ho : ∀ o ∈ a.orbits, Installable o) (hisl : a.islEnabled = true)
    (hm : 2 * (places a.orbits).length + a.lonGws * a.latGws % 2 ^ 32 + 2 < 2 ^ 48) {s : Sys}
    (h0 : Initial s) {X : ExampleNet} (h : exampleMain junk a s = .ok X) {E : Env}
    {ports : NodeId → List DevId} (hports : ports = examplePorts (places a.orbits).length ((places a.orbits).length + X.ground.length))
    {own : NodeId → Bytes → UInt16 → Bool} {bs : List (NodeId × Bytes × UInt16)} {t : Sys}
    (hf : FloodRuns E own ports X.build.sys bs t) (hd : Distinct own bs) :
    tally .sent t.log ≤ bs.length * (2 * (places a.orbits).length + X.ground.length) ∧
    tally .begun t.log + tally .macTxDrop t.log ≤ tally .sent t.log ∧
    (t.pending = [] → tally .begun t.log + tally .macTxDrop t.log = tally .sent t.log) ∧
    (callsMade t.log).Nodup := by
  have B := built_of hp hn ho (by unfold satCount; exact hm) h
  obtain ⟨is, hr⟩ := B.run
  obtain ⟨s0, ops, hi, hatt, hex, _⟩ := C62_helper_network_is_history h0 hr
  have hf0 : FloodRuns E own ports s0 bs t := by
    have := (FloodRuns.asides (own := own) (ports := ports) .start (fun op hop => by
      obtain ⟨d, c, rfl, _⟩ := hatt op hop
      trivial) (hex E)).from hf
    exact this
  have hpo : PortsOf s0 (List.range ((places a.orbits).length + X.ground.length)) ports := by
    rw [hports]
    refine example_portsOf (Nat.le_add_right _ _) (fun k hk => ?_) (fun k hk => ?_)
    · rw [← node_exec (hex E)]
      obtain ⟨v, rfl, _, _, d3, _⟩ := B.dev k hk
      exact d3
    · rw [← node_exec (hex E)]
      obtain ⟨v, rfl, _, d2, _⟩ := (B.isl hisl).2.2.2 k hk
      exact d2
  have h1 := C122_number hi List.nodup_range hpo hf0 hd
  have h2 := C122_air hi List.nodup_range hpo hf0 hd
  rw [← h1.1] at h2
  refine ⟨?_, h2.1, h2.2, ?_⟩
  · have := h1.2
    rw [hports, portCount_example] at this
    exact this
  · exact C122_once hi hpo List.nodup_range hf0 hd

/-- **C122** for the shipped Starlink orbits: every packet costs at most 8850 calls of `Send` by satellites and one by each station. -/
theorem C122_starlink {junk : ℝ} {a : ExampleArgs} {p : Preset} (hR : StarlinkRun a p) (hisl : a.islEnabled = true) {s : Sys}
    (h0 : Initial s) {X : ExampleNet} (h : exampleMain junk a s = .ok X) {E : Env}
    {ports : NodeId → List DevId} (hports : ports = examplePorts 4425 (4425 + X.ground.length)) {own : NodeId → Bytes → UInt16 → Bool}
    {bs : List (NodeId × Bytes × UInt16)} {t : Sys} (hf : FloodRuns E own ports X.build.sys bs t) (hd : Distinct own bs) :
    tally .sent t.log ≤ bs.length * (8850 + X.ground.length) ∧ tally .begun t.log + tally .macTxDrop t.log ≤ tally .sent t.log := by
  have hi : ∀ o ∈ a.orbits, Installable o := by rw [hR.eq]; exact fun o ho => (starlink_installable o ho).1
  have hcnt : (places a.orbits).length = 4425 := by rw [hR.eq, starlink_count]
  have := C122_example hR.preset hR.name hi hisl (hR.count.trans (by norm_num)) h0 h (by rw [hcnt]; exact hports) hf hd
  rw [hcnt] at this
  exact ⟨this.1, this.2.1⟩

/-- **C122** for the programs run with inter-satellite links and no other options: a conversation of any length costs at most 1666 calls of
`Send` for each packet, and when it is over every one of them was a transmission or a drop that was traced. -/
theorem C122_default_users {junk : ℝ} {s : Sys} (h0 : Initial s) {X : ExampleNet} (h : exampleMain junk (defaultArgs true) s = .ok X)
    {E : Env} {ports : NodeId → List DevId} (hports : ports = examplePorts 632 (632 + 402)) {own : NodeId → Bytes → UInt16 → Bool}
    {ms : List Talk} (hms : ∀ m ∈ ms, m.packet.length ≤ 1492 ∧ (∀ n, own n m.packet m.proto = decide (n = m.src)))
    (hnd : ms.Pairwise fun x y => ¬ (x.packet = y.packet ∧ x.proto = y.proto)) {ts : List Time} {u : Sys}
    (hc : Converse E (floodOnce own ports) ports X.build.sys ms ts u) :
    tally .sent u.log ≤ ms.length * 1666 ∧ tally .begun u.log + tally .macTxDrop u.log ≤ tally .sent u.log ∧
      (u.pending = [] → tally .begun u.log + tally .macTxDrop u.log = tally .sent u.log) := by
  have hp : (⟨"TelesatGateway", 105.9, 20, 189.3, 4.8, 0.36, 9857.1, 31.8⟩ : Preset) ∈ presets := by simp [presets]
  have hi := fun o ho => (default_installable true o ho).1
  obtain ⟨Y, e, _, hgr, _⟩ := C91_builds junk (a := defaultArgs true) hp rfl hi (by rw [default_count]; simp [defaultArgs]) s
  rw [h] at e
  injection e with e
  subst e
  have e400 : (defaultArgs true).lonGws * (defaultArgs true).latGws % 2 ^ 32 = 400 := rfl
  rw [e400] at hgr
  have hd : Distinct own (broughtIn ms) := by
    refine ⟨List.pairwise_map.mpr (hnd.imp fun h e => h ⟨(Prod.mk.inj e).1, (Prod.mk.inj e).2⟩), ?_, ?_⟩
    · intro b hb
      obtain ⟨m, hm, rfl⟩ := List.mem_map.mp hb
      exact (hms m hm).1
    · intro b hb
      obtain ⟨m, hm, rfl⟩ := List.mem_map.mp hb
      exact (hms m hm).2
  have := C122_example hp rfl hi rfl (by rw [default_count]; simp [defaultArgs]) h0 h (by rw [default_count, hgr]; exact hports)
    (converse_floodRuns hc) hd
  rw [default_count, hgr] at this
  obtain ⟨a1, a2, a3, _⟩ := this
  unfold broughtIn at a1
  rw [List.length_map] at a1
  exact ⟨a1, a2, a3⟩

/-- The hypotheses are met: the users of the default program do talk, and three packets cost at most 4998 calls. -/
example : ∃ X K ts u, exampleMain 0 (defaultArgs true) Demo.sys = .ok X ∧
    Converse (Sky.env K Demo.env) (floodOnce Demo.brings (examplePorts 632 (632 + 402))) (examplePorts 632 (632 + 402)) X.build.sys Demo.talks ts u ∧
    u.pending = [] ∧ tally .sent u.log ≤ 4998 := by
  have hp : (⟨"TelesatGateway", 105.9, 20, 189.3, 4.8, 0.36, 9857.1, 31.8⟩ : Preset) ∈ presets := by simp [presets]
  have hi := fun o ho => (default_installable true o ho).1
  have hm : 2 * (places (defaultArgs true).orbits).length + (defaultArgs true).lonGws * (defaultArgs true).latGws % 2 ^ 32 + 2 < 2 ^ 48 := by
    rw [default_count]; simp [defaultArgs]
  obtain ⟨X, hX, _⟩ := C91_builds 0 hp rfl hi hm Demo.sys
  obtain ⟨K, hK, hsp, hof, _⟩ := sky_exists (defaultArgs true) X
  obtain ⟨hpe, hup⟩ := example_silent hp rfl hi (by unfold satCount; exact hm) Demo.sys_initial hX
  have ht : ∀ m ∈ Demo.talks, m.packet.length ≤ 1492 ∧ (∀ n, Demo.brings n m.packet m.proto = decide (n = m.src)) ∧
      (m.src = (632 + 400 : Nat) ∨ m.src = (632 + 401 : Nat)) := by
    intro m hm
    simp only [Demo.talks, List.mem_cons, List.not_mem_nil, or_false] at hm
    rcases hm with rfl | rfl | rfl
    · exact ⟨by decide, fun n => rfl, Or.inl rfl⟩
    · exact ⟨by decide, fun n => rfl, Or.inr rfl⟩
    · exact ⟨by decide, fun n => rfl, Or.inl rfl⟩
  have hnd : Demo.talks.Pairwise fun x y => ¬ (x.packet = y.packet ∧ x.proto = y.proto) := by simp [Demo.talks]
  have hC := C120_default_users Demo.sys_initial hX hK (E := Demo.env) (fun _ _ _ _ => rfl) hsp (fun x hx => by
      rw [hof]
      have := Nat.floor_le (a := x * 1000000000) (by positivity)
      linarith) (ops := []) (fun op hop => by cases hop) rfl hpe rfl ht hnd (by
      intro m _ e he
      rw [hup] at he
      cases he)
  obtain ⟨ts, u, hc⟩ := hC.1
  exact ⟨X, K, ts, u, hX, hc, (hC.2 ts u hc).1, (C122_default_users Demo.sys_initial hX rfl (fun m hm => ⟨(ht m hm).1, (ht m hm).2.1⟩) hnd hc).1⟩

end Verif
