import Verif.Lemmas.AddressPlan
import Verif.Props.Example
/-!
# The IPv4 addresses of the example programs: C116
-/

namespace Verif
open Spec

theorem base_eq {b : Nat} (h : b % 2 ^ 16 = 0) (P : AddrPlan) : P.setBase b 16 = some { P with net := b, bits := 16, host := 1 } := by
  unfold AddrPlan.setBase
  rw [if_pos h]

theorem getElem?_range' {s n i : Nat} {d : DevId} : (List.range' s n)[i]? = some d ↔ i < n ∧ d = s + i := by
  rw [List.getElem?_eq_some_iff]
  simp only [List.length_range', List.getElem_range', Nat.one_mul]
  constructor
  · rintro ⟨h, rfl⟩; exact ⟨h, rfl⟩
  · rintro ⟨h, rfl⟩; exact ⟨h, rfl⟩

/-- **C116**: if the network has at most 65534 nodes, every device gets exactly one address: the device of node `k` on the ground/space channel 10.1.0.0 plus `k + 1`, the
device of satellite `i` on the inter-satellite channel 10.2.0.0 plus `i + 1`; nobody has another one.  The destination of the traffic is an address of the second user. -/
theorem C116_plan {junk : ℝ} {a : ExampleArgs} {p : Preset} (hp : p ∈ presets) (hn : a.constellation = p.name)
    (ho : ∀ o ∈ a.orbits, Installable o) (hm : (places a.orbits).length + a.lonGws * a.latGws % 2 ^ 32 + 2 ≤ 65534)
    {s : Sys} {X : ExampleNet} (h : exampleMain junk a s = .ok X) :
    ∃ P, exampleAddresses X a.islEnabled = some P ∧
      (∀ d ip, Owns P d ip ↔
        (∃ k : Nat, k < (places a.orbits).length + X.ground.length ∧ d = k ∧ ip = dotted 10 1 0 0 + (k + 1)) ∨
        (a.islEnabled = true ∧ ∃ i : Nat, i < (places a.orbits).length ∧ d = (places a.orbits).length + X.ground.length + i ∧ ip = dotted 10 2 0 0 + (i + 1))) ∧
      P.remote ((places a.orbits).length + a.lonGws * a.latGws % 2 ^ 32 + 1) =
        some (dotted 10 1 0 0 + ((places a.orbits).length + a.lonGws * a.latGws % 2 ^ 32 + 2)) := by
  have B := built_of hp hn ho (by unfold satCount; omega) h
  obtain ⟨g, _, hgl, hgr⟩ := B.ground
  have hG : X.ground.length = a.lonGws * a.latGws % 2 ^ 32 + 2 := by rw [hgr]; simp [hgl]
  have hut := B.ut
  have hd1 : dotted 10 1 0 0 = utBase := by decide
  have hd2 : dotted 10 2 0 0 = islBase := by decide
  have hnode : ∀ k : Nat, k < satCount a + X.ground.length → (X.build.sys.dev k).node = some k := by
    intro k hk
    obtain ⟨v, rfl, _, _, hv, _⟩ := B.dev k hk
    exact hv
  obtain ⟨P1, p1, p2, p3⟩ := assign_fresh (node := fun d => (X.build.sys.dev d).node) (ds := X.utNet)
    (P := { AddrPlan.start with net := utBase, bits := 16, host := 1 })
    (by rw [hut]; exact List.nodup_range')
    (by
      intro d hd
      rw [hut] at hd
      obtain ⟨_, hd2⟩ := List.mem_range'_1.mp hd
      exact ⟨d, hnode d (by simpa using hd2)⟩)
    (by intro d _ n x hx; cases hx) (by intro ip hip; cases hip)
    (by
      rw [hut, List.length_range']
      show 1 + (satCount a + X.ground.length) ≤ 2 ^ 16 - 2 + 1
      unfold satCount
      omega)
  have q := assign_host p1
  have hlen : X.utNet.length = satCount a + X.ground.length := by rw [hut, List.length_range']
  have hin : ∀ n d l, (d, l) ∈ P1.ifaces n ↔ ∃ k : Nat, k < satCount a + X.ground.length ∧ d = k ∧ n = k ∧ l = [utBase + (k + 1)] := by
    intro n d l
    rw [p3 n]
    show (d, l) ∈ [] ++ _ ↔ _
    rw [List.nil_append, mem_handedOut, hut]
    constructor
    · rintro ⟨i, h1, h2, h3⟩
      obtain ⟨h4, rfl⟩ := getElem?_range'.mp h1
      rw [Nat.zero_add] at h2
      rw [hnode i h4] at h2
      exact ⟨i, h4, Nat.zero_add i, (Option.some.inj h2).symm, by rw [h3, Nat.add_comm 1 i]⟩
    · rintro ⟨k, h1, rfl, rfl, rfl⟩
      exact ⟨n, getElem?_range'.mpr ⟨h1, (Nat.zero_add n).symm⟩, hnode n h1, by rw [Nat.add_comm 1 n]⟩
  have hrem : P1.remote (satCount a + a.lonGws * a.latGws % 2 ^ 32 + 1) = some (utBase + (satCount a + a.lonGws * a.latGws % 2 ^ 32 + 2)) ∧
      ∃ x rest, P1.ifaces (satCount a + a.lonGws * a.latGws % 2 ^ 32 + 1) = x :: rest := by
    have hmem := (hin (satCount a + a.lonGws * a.latGws % 2 ^ 32 + 1) (satCount a + a.lonGws * a.latGws % 2 ^ 32 + 1) _).mpr
      ⟨satCount a + a.lonGws * a.latGws % 2 ^ 32 + 1, by omega, rfl, rfl, rfl⟩
    unfold AddrPlan.remote
    cases he : P1.ifaces (satCount a + a.lonGws * a.latGws % 2 ^ 32 + 1) with
    | nil => rw [he] at hmem; cases hmem
    | cons x rest =>
      obtain ⟨d, l⟩ := x
      obtain ⟨k, _, _, hk, rfl⟩ := (hin _ d l).mp (by rw [he]; exact List.mem_cons_self)
      exact ⟨by simp only [List.head?_cons]; rw [← hk], _, _, rfl⟩
  rw [hd1, hd2]
  have hstart : exampleAddresses X a.islEnabled = if a.islEnabled then
      (P1.setBase islBase 16).bind fun P => P.assign (fun d => (X.build.sys.dev d).node) X.islNet else some P1 := by
    unfold exampleAddresses
    rw [base_eq (by decide)]
    simp only [Option.bind_some]
    rw [p1]
    rfl
  rw [hstart]
  cases hi : a.islEnabled with
  | false =>
    refine ⟨P1, rfl, ?_, hrem.1⟩
    intro d ip
    constructor
    · rintro ⟨n, l, h1, h2⟩
      obtain ⟨k, k1, k2, _, rfl⟩ := (hin n d l).mp h1
      exact Or.inl ⟨k, k1, k2, List.mem_singleton.mp h2⟩
    · rintro (⟨k, k1, k2, k3⟩ | ⟨h, _⟩)
      · exact ⟨k, _, (hin k d _).mpr ⟨k, k1, k2, rfl, rfl⟩, by rw [k3]; exact List.mem_singleton.mpr rfl⟩
      · cases h
  | true =>
    obtain ⟨hisl, _, _, hdev⟩ := B.isl hi
    have hnode2 : ∀ i : Nat, i < satCount a → (X.build.sys.dev (satCount a + X.ground.length + i)).node = some i := by
      intro i hk
      obtain ⟨v, rfl, _, hv, _⟩ := hdev i hk
      exact hv
    obtain ⟨P2, r1, r2, r3⟩ := assign_fresh (node := fun d => (X.build.sys.dev d).node) (ds := X.islNet)
      (P := { P1 with net := islBase, bits := 16, host := 1 })
      (by rw [hisl]; exact List.nodup_range')
      (by
        intro d hd
        rw [hisl] at hd
        obtain ⟨i, i1, i2⟩ := List.mem_range'.mp hd
        rw [Nat.one_mul] at i2
        exact ⟨i, by simp only [i2]; exact hnode2 i i1⟩)
      (by
        intro d hd n x hx
        rw [hisl] at hd
        obtain ⟨k, k1, k2, _⟩ := (hin n d x).mp hx
        have := (List.mem_range'_1.mp hd).1
        rw [k2] at this
        exact absurd k1 (Nat.not_lt.mpr this))
      (by
        intro ip hip
        have h1 := p2 ip hip
        rw [q.1, q.2.2.1, hlen] at h1
        refine Nat.lt_of_lt_of_le h1 ?_
        show utBase + (1 + (satCount a + X.ground.length)) ≤ islBase + 1
        unfold satCount utBase islBase
        omega)
      (by
        rw [hisl, List.length_range']
        show 1 + satCount a ≤ 2 ^ 16 - 2 + 1
        unfold satCount
        omega)
    have hin2 : ∀ n d l, (d, l) ∈ P2.ifaces n ↔ (d, l) ∈ P1.ifaces n ∨
        ∃ i : Nat, i < satCount a ∧ d = satCount a + X.ground.length + i ∧ n = i ∧ l = [islBase + (i + 1)] := by
      intro n d l
      rw [r3 n, List.mem_append, mem_handedOut, hisl]
      apply or_congr Iff.rfl
      constructor
      · rintro ⟨i, h1, h2, h3⟩
        obtain ⟨h4, h5⟩ := getElem?_range'.mp h1
        simp only [h5, hnode2 i h4] at h2
        exact ⟨i, h4, h5, (Option.some.inj h2).symm, by rw [h3, Nat.add_comm 1 i]⟩
      · rintro ⟨i, h1, h2, rfl, rfl⟩
        exact ⟨n, getElem?_range'.mpr ⟨h1, h2⟩, by simp only [h2]; exact hnode2 n h1, by rw [Nat.add_comm 1 n]⟩
    refine ⟨P2, ?_, ?_, ?_⟩
    · rw [if_pos rfl, base_eq (by decide)]
      exact r1
    · intro d ip
      constructor
      · rintro ⟨n, l, h1, h2⟩
        rcases (hin2 n d l).mp h1 with h1 | ⟨i, i1, i2, _, rfl⟩
        · obtain ⟨k, k1, k2, _, rfl⟩ := (hin n d l).mp h1
          exact Or.inl ⟨k, k1, k2, List.mem_singleton.mp h2⟩
        · exact Or.inr ⟨rfl, i, i1, i2, List.mem_singleton.mp h2⟩
      · rintro (⟨k, k1, k2, k3⟩ | ⟨_, i, i1, i2, i3⟩)
        · exact ⟨k, _, (hin2 k d _).mpr (Or.inl ((hin k d _).mpr ⟨k, k1, k2, rfl, rfl⟩)), by rw [k3]; exact List.mem_singleton.mpr rfl⟩
        · exact ⟨i, _, (hin2 i d _).mpr (Or.inr ⟨i, i1, i2, rfl, rfl⟩), by rw [i3]; exact List.mem_singleton.mpr rfl⟩
    · obtain ⟨x, rest, hx⟩ := hrem.2
      have h1 := hrem.1
      unfold AddrPlan.remote at h1 ⊢
      have := r3 (satCount a + a.lonGws * a.latGws % 2 ^ 32 + 1)
      rw [show ({ P1 with net := islBase, bits := 16, host := 1 } : AddrPlan).ifaces = P1.ifaces from rfl, hx] at this
      unfold satCount at *
      rw [hx] at h1
      rw [this]
      exact h1

/-- **C116**: no two devices have the same address. -/
theorem C116_distinct {junk : ℝ} {a : ExampleArgs} {p : Preset} (hp : p ∈ presets) (hn : a.constellation = p.name)
    (ho : ∀ o ∈ a.orbits, Installable o) (hm : (places a.orbits).length + a.lonGws * a.latGws % 2 ^ 32 + 2 ≤ 65534)
    {s : Sys} {X : ExampleNet} (h : exampleMain junk a s = .ok X) {P : AddrPlan} (hP : exampleAddresses X a.islEnabled = some P)
    {d e : DevId} {ip : Ip} (h1 : Owns P d ip) (h2 : Owns P e ip) : d = e := by
  obtain ⟨Q, q1, q2, _⟩ := C116_plan hp hn ho hm h
  rw [hP] at q1
  obtain rfl := Option.some.inj q1
  have B := built_of hp hn ho (by unfold satCount; omega) h
  obtain ⟨g, _, hgl, hgr⟩ := B.ground
  have hG : X.ground.length = a.lonGws * a.latGws % 2 ^ 32 + 2 := by rw [hgr]; simp [hgl]
  rw [q2] at h1 h2
  have e1 : dotted 10 1 0 0 = 167837696 := by decide
  have e2 : dotted 10 2 0 0 = 167903232 := by decide
  rw [e1, e2] at h1 h2
  rcases h1 with ⟨k, k1, k2, k3⟩ | ⟨_, i, i1, i2, i3⟩ <;> rcases h2 with ⟨k', k1', k2', k3'⟩ | ⟨_, i', i1', i2', i3'⟩
  · rw [k2, k2']
    have : (167837696 : Nat) + (k + 1) = 167837696 + (k' + 1) := k3.symm.trans k3'
    have : k = k' := by omega
    rw [this]
  · have : (167837696 : Nat) + (k + 1) = 167903232 + (i' + 1) := k3.symm.trans i3'
    omega
  · have : (167903232 : Nat) + (i + 1) = 167837696 + (k' + 1) := i3.symm.trans k3'
    omega
  · rw [i2, i2']
    have : (167903232 : Nat) + (i + 1) = 167903232 + (i' + 1) := i3.symm.trans i3'
    have : i = i' := by omega
    rw [this]

/-- **C116**: the destination of the traffic is the second user: the only device with this address is the one of the last node, on the ground/space channel. -/
theorem C116_destination {junk : ℝ} {a : ExampleArgs} {p : Preset} (hp : p ∈ presets) (hn : a.constellation = p.name)
    (ho : ∀ o ∈ a.orbits, Installable o) (hm : (places a.orbits).length + a.lonGws * a.latGws % 2 ^ 32 + 2 ≤ 65534)
    {s : Sys} {X : ExampleNet} (h : exampleMain junk a s = .ok X) :
    ∃ P ip, exampleAddresses X a.islEnabled = some P ∧ P.remote ((places a.orbits).length + a.lonGws * a.latGws % 2 ^ 32 + 1) = some ip ∧
      ∀ d, Owns P d ip ↔ d = (places a.orbits).length + a.lonGws * a.latGws % 2 ^ 32 + 1 := by
  obtain ⟨P, q1, q2, q3⟩ := C116_plan hp hn ho hm h
  have B := built_of hp hn ho (by unfold satCount; omega) h
  obtain ⟨g, _, hgl, hgr⟩ := B.ground
  have hG : X.ground.length = a.lonGws * a.latGws % 2 ^ 32 + 2 := by rw [hgr]; simp [hgl]
  refine ⟨P, _, q1, q3, fun d => ?_⟩
  have hown : Owns P ((places a.orbits).length + a.lonGws * a.latGws % 2 ^ 32 + 1)
      (dotted 10 1 0 0 + ((places a.orbits).length + a.lonGws * a.latGws % 2 ^ 32 + 2)) := by
    rw [q2]
    exact Or.inl ⟨_, by omega, rfl, rfl⟩
  constructor
  · exact fun h1 => C116_distinct hp hn ho hm h q1 h1 hown
  · rintro rfl; exact hown

/-- **C116**: with more nodes the programs stop when the addresses run out. -/
theorem C116_too_many {junk : ℝ} {a : ExampleArgs} {p : Preset} (hp : p ∈ presets) (hn : a.constellation = p.name)
    (ho : ∀ o ∈ a.orbits, Installable o) (hm : 2 * (places a.orbits).length + a.lonGws * a.latGws % 2 ^ 32 + 2 < 2 ^ 48)
    (hN : 65534 < (places a.orbits).length + a.lonGws * a.latGws % 2 ^ 32 + 2)
    {s : Sys} {X : ExampleNet} (h : exampleMain junk a s = .ok X) : exampleAddresses X a.islEnabled = none := by
  have B := built_of hp hn ho (by unfold satCount; exact hm) h
  obtain ⟨g, _, hgl, hgr⟩ := B.ground
  have hG : X.ground.length = a.lonGws * a.latGws % 2 ^ 32 + 2 := by rw [hgr]; simp [hgl]
  have hlen : X.utNet.length = satCount a + X.ground.length := by rw [B.ut, List.length_range']
  unfold exampleAddresses
  rw [base_eq (by decide)]
  simp only [Option.bind_some]
  cases hP : AddrPlan.assign (fun d => (X.build.sys.dev d).node) { AddrPlan.start with net := utBase, bits := 16, host := 1 } X.utNet with
  | none => rfl
  | some P =>
    obtain ⟨_, _, h3, h4⟩ := assign_host hP
    have hne : X.utNet ≠ [] := by
      intro he
      rw [he, List.length_nil] at hlen
      omega
    have h4 := h4 hne
    rw [h3, hlen] at h4
    change 1 + (satCount a + X.ground.length) ≤ 2 ^ 16 - 2 + 1 at h4
    unfold satCount at h4
    omega

/-- **C116** for the programs without options: the second user is 10.1.4.10. -/
theorem C116_default {isl : Bool} {junk : ℝ} {s : Sys} {X : ExampleNet} (h : exampleMain junk (defaultArgs isl) s = .ok X) :
    ∃ P, exampleAddresses X isl = some P ∧ P.remote 1033 = some (dotted 10 1 4 10) := by
  obtain ⟨P, h1, _, h3⟩ := C116_plan (p := ⟨"TelesatGateway", 105.9, 20, 189.3, 4.8, 0.36, 9857.1, 31.8⟩) (by simp [presets]) rfl
    (fun o ho => (default_installable isl o ho).1) (by rw [default_count]; simp [defaultArgs]) h
  refine ⟨P, h1, ?_⟩
  have e400 : (defaultArgs isl).lonGws * (defaultArgs isl).latGws % 2 ^ 32 = 400 := rfl
  rw [default_count, e400] at h3
  have e : dotted 10 1 4 10 = dotted 10 1 0 0 + (632 + 400 + 2) := by decide
  rw [e]
  exact h3

/-- The programs without options get as far as this. -/
example : ∃ X, exampleMain 0 (defaultArgs true) Demo.sys = .ok X := by
  obtain ⟨X, h, _⟩ := C91_builds 0 (a := defaultArgs true) (p := ⟨"TelesatGateway", 105.9, 20, 189.3, 4.8, 0.36, 9857.1, 31.8⟩) (by simp [presets]) rfl
    (fun o ho => (default_installable true o ho).1) (by rw [default_count]; simp [defaultArgs]) Demo.sys
  exact ⟨X, h⟩

/-- The programs with 256 times 256 stations. -/
noncomputable def wideArgs : ExampleArgs := { defaultArgs true with latGws := 256, lonGws := 256 }

/-- This grid is too large, as in `C116_too_many`. -/
example : ∃ X, exampleMain 0 wideArgs Demo.sys = .ok X ∧ exampleAddresses X true = none := by
  have hc : (places wideArgs.orbits).length = 632 := default_count true
  have hg : wideArgs.lonGws * wideArgs.latGws % 2 ^ 32 = 65536 := rfl
  have hp : (⟨"TelesatGateway", 105.9, 20, 189.3, 4.8, 0.36, 9857.1, 31.8⟩ : Preset) ∈ presets := by simp [presets]
  have ho : ∀ o ∈ wideArgs.orbits, Installable o := fun o ho => (default_installable true o ho).1
  have hm : 2 * (places wideArgs.orbits).length + wideArgs.lonGws * wideArgs.latGws % 2 ^ 32 + 2 < 2 ^ 48 := by
    rw [hc, hg]; norm_num
  obtain ⟨X, h, _⟩ := C91_builds 0 (a := wideArgs) hp rfl ho hm Demo.sys
  exact ⟨X, h, C116_too_many (a := wideArgs) hp rfl ho hm (by rw [hc, hg]; norm_num) h⟩

end Verif
