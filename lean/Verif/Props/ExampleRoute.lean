import Verif.Spec.ExampleRoute
import Verif.Props.Relay
import Verif.Props.Example
/-!
# Routes through the network of the example programs (C92)
-/

namespace Verif
open Real Spec

theorem ofNat_even {n : Nat} (h : n < 2 ^ 40) : (Mac48.ofNat n).b0.toNat % 2 = 0 := by
  simp only [Mac48.ofNat, UInt8.toNat_ofNat']
  omega

/-- A hop between two satellites that see each other. -/
theorem isl_hop {K : Sky} {E : Env} {s : Sys} {h : Hop} {c : ChanId} {i j : NodeId} {f g : Time → Vec} {t : Time}
    (hlen : h.packet.length ≤ 1492) (hup : (s.dev h.src).linkUp = true) (hcap : 0 < (s.dev h.src).cap)
    (hmac : (s.dev h.dst).addr.b0.toNat % 2 = 0) (hc : (s.dev h.src).chan = some c) (hne : h.src ≠ h.dst)
    (hk : (s.chan c).kind = .isl) (hm : h.dst ∈ slots c s.log) (hi : (s.dev h.src).node = some i) (hj : (s.dev h.dst).node = some j)
    (hf : K.pos i = some f) (hg : K.pos j = some g) (hb : K.budget c = none) (hlos : islLos (f t) (g t) = true)
    (hpow : -900 ≤ (s.dev h.src).txPower) (hthr : (s.dev h.dst).rxThreshold ≤ effectivePower (s.dev h.dst) (s.dev h.src).txPower)
    (hd : h.delay = lightTime K t i j) : HopOk (K.env E) s t h := by
  refine ⟨hlen, hup, hcap, hmac, c, hc, hne, (fun h => by rw [hk] at h; cases h), fun _ => hm, (s.dev h.src).txPower, ?_, hthr⟩
  unfold reachDev reach
  simp only [hi, hj, Sky.env, hf, hg, Option.isSome_some, hb, Sky.loss, hlos, Bool.true_eq_false, if_false]
  rw [if_pos hpow, hd]
  simp only [lightTime, hf, hg, Option.map_some, Option.getD_some]

/-- A hop between ground and space within the slant range. -/
theorem slant_hop {K : Sky} {E : Env} {s : Sys} {h : Hop} {c : ChanId} {i j : NodeId} {f g : Time → Vec} {t : Time} {m : LeoBudget}
    (hlen : h.packet.length ≤ 1492) (hup : (s.dev h.src).linkUp = true) (hcap : 0 < (s.dev h.src).cap)
    (hmac : (s.dev h.dst).addr.b0.toNat % 2 = 0) (hc : (s.dev h.src).chan = some c)
    (hk : (s.chan c).kind = .leo) (hm1 : h.src ∈ members c s.log) (hm2 : h.dst ∈ members c s.log)
    (hside : (s.dev h.dst).side ≠ (s.dev h.src).side) (hi : (s.dev h.src).node = some i) (hj : (s.dev h.dst).node = some j)
    (hf : K.pos i = some f) (hg : K.pos j = some g) (hb : K.budget c = some m) (h1 : -90 < m.elev) (h2 : m.elev < 90)
    (hR : propEarthRad ≤ max (f t).len (g t).len) (hin : InSlantRange m.elev (f t) (g t))
    (hpow : -900 ≤ (s.dev h.src).txPower - m.atm - m.fspl - m.margin)
    (hthr : (s.dev h.dst).rxThreshold ≤ effectivePower (s.dev h.dst) ((s.dev h.src).txPower - m.atm - m.fspl - m.margin))
    (hd : h.delay = lightTime K t i j) : HopOk (K.env E) s t h := by
  refine ⟨hlen, hup, hcap, hmac, c, hc, fun e => hside (by rw [e]), fun _ => ⟨hm1, hm2, hside⟩, (fun h => by rw [hk] at h; cases h), _, ?_, hthr⟩
  unfold reachDev reach
  simp only [hi, hj, Sky.env, hf, hg, Option.isSome_some, hb]
  rw [(loss_slant h1 h2 _ hR).1 hin, if_pos hpow, hd]
  simp only [lightTime, hf, hg, Option.map_some, Option.getD_some]

/-- What the devices of the network of the example programs are after any traffic: where they are, what addresses they have, and that a leg
that can be made is a hop that can be made. -/
theorem example_legs {junk : ℝ} {a : ExampleArgs} {p : Preset} (hp : p ∈ presets) (hn : a.constellation = p.name)
    (ho : ∀ o ∈ a.orbits, Installable o) (halt : ∀ o ∈ a.orbits, 0.001 ≤ o.alt)
    (hm : 2 * (places a.orbits).length + a.lonGws * a.latGws % 2 ^ 32 + 2 < 2 ^ 40) {s : Sys}
    (h0 : Initial s) {X : ExampleNet} (h : exampleMain junk a s = .ok X) {K : Sky} (hK : SkyOf a X K) {E : Env}
    {ops : List Op} (ht : ∀ op ∈ ops, PlainTraffic op) {s1 : Sys} (hx : exec (K.env E) X.build.sys ops = .ok s1)
    {base : Nat} (hbase : base = (places a.orbits).length + X.ground.length) :
    (∀ (m : Leg) (t : Time), (m.isl = true → a.islEnabled = true) → LegOk K (places a.orbits).length base p.elev t m →
      (s1.dev (port base m.isl m.dst)).addr = Mac48.ofNat (port base m.isl m.dst + 1)) ∧
    (∀ (m : Leg) (t : Time), (m.isl = true → a.islEnabled = true) → LegOk K (places a.orbits).length base p.elev t m →
      HopOk (K.env E) s1 t ⟨port base m.isl m.src, port base m.isl m.dst, m.packet, m.proto, lightTime K t m.src m.dst⟩) ∧
    (∀ k : Nat, k < base → (s1.dev k).node = some k ∧ (s1.dev k).chan = some 0) ∧ (s1.chan 0).kind = .leo ∧
    (a.islEnabled = true → ∀ k : Nat, k < (places a.orbits).length → (s1.dev (base + k : Nat)).node = some k ∧
      (s1.dev (base + k : Nat)).chan = some 1) ∧
    (a.islEnabled = true → ∀ y ∈ slots 1 s1.log, (s1.dev y).addr ≠ Mac48.broadcast) := by
  have hN : (places a.orbits).length = satCount a := rfl
  rw [hN] at hm hbase ⊢
  have B := built_of hp hn ho (by omega) h
  obtain ⟨hkept, hchan⟩ := kept_exec ht hx
  obtain ⟨s0, o, hi, hpr, hex⟩ := built_history B h0 ht hx
  have hfit := reached_fit hi hpr hex
  have hmem := built_member B hkept hchan (hfit.index 0)
  have hG : base + satCount a < 2 ^ 40 := by
    obtain ⟨g, _, hgl, hgr⟩ := B.ground
    have : X.ground.length = a.lonGws * a.latGws % 2 ^ 32 + 2 := by rw [hgr]; simp [hgl]
    omega
  have hdev : ∀ k : Nat, k < base → (s1.dev k).leo = true ∧
      (s1.dev k).side = (if k < satCount a then .sat else .gnd) ∧ (s1.dev k).node = some k ∧ (s1.dev k).addr = Mac48.ofNat (k + 1) ∧
      (s1.dev k).linkUp = true ∧ (s1.dev k).cap = 100 ∧ (s1.dev k).chan = some 0 ∧ (s1.dev k).txPower = p.eirp ∧
      (s1.dev k).rxThreshold = -1000 ∧ (s1.dev k).rxGain = p.rxGain ∧ (s1.dev k).rxLoss = 0 := by
    intro k hk
    obtain ⟨v, hv, d1, d2, d3, d4, d5, d6, d7, d8, d9, d10, d11⟩ := B.dev k (hbase ▸ hk)
    have := hkept k
    rw [hv] at this
    exact ⟨this.leo.trans d1, this.side.trans d2, this.node.trans d3, this.addr.trans d4, this.linkUp.trans d5, this.cap.trans d6,
      this.chan.trans d7, this.txPower.trans d8, this.rxThreshold.trans d9, this.rxGain.trans d10, this.rxLoss.trans d11⟩
  have hdevI : a.islEnabled = true → ∀ k : Nat, k < satCount a → (s1.dev (base + k)).leo = false ∧ (s1.dev (base + k)).node = some k ∧
      (s1.dev (base + k)).addr = Mac48.ofNat (base + k + 1) ∧ (s1.dev (base + k)).linkUp = true ∧ (s1.dev (base + k)).cap = 100 ∧
      (s1.dev (base + k)).chan = some 1 ∧ (s1.dev (base + k)).txPower = 1 ∧ (s1.dev (base + k)).rxThreshold = -1000 ∧
      (s1.chan 1).kind = .isl ∧ base + k ∈ slots 1 s1.log ∧ K.budget 1 = none := by
    intro hisl k hk
    obtain ⟨b1, b2, b3, b4⟩ := B.isl hisl
    rw [← hbase] at b1 b4
    obtain ⟨v, hv, d1, d2, d3, d4, d5, d6, d7, d8⟩ := b4 k hk
    have := hkept (base + k)
    rw [hv] at this
    refine ⟨this.leo.trans d1, this.node.trans d2, this.addr.trans d3, this.linkUp.trans d4, this.cap.trans d5,
      this.chan.trans d6, this.txPower.trans d7, this.rxThreshold.trans d8, by rw [hchan, b2], ?_, hK.isl 1 b3⟩
    rw [← (hfit.index 1).link, hchan, b2, b1]
    exact List.mem_range'.mpr ⟨k, hk, by simp⟩
  have hb : K.budget 0 = some ⟨p.elev, p.atm, p.fspl, p.margin⟩ := hK.leo 0 _ B.loss
  obtain ⟨e1, e2⟩ := preset_elev hp
  obtain ⟨w1, w2⟩ := preset_power hp
  have haddr : ∀ (m : Leg) (t : Time), (m.isl = true → a.islEnabled = true) → LegOk K (satCount a) base p.elev t m →
      (s1.dev (port base m.isl m.dst)).addr = Mac48.ofNat (port base m.isl m.dst + 1) := by
    intro m t hmi ⟨_, f, g, _, _, hif⟩
    cases hI : m.isl with
    | true =>
      rw [if_pos hI] at hif
      exact (hdevI (hmi hI) m.dst hif.2.1).2.2.1
    | false =>
      rw [if_neg (by simp [hI])] at hif
      exact (hdev m.dst hif.2.1).2.2.2.1
  have hop : ∀ (m : Leg) (t : Time), (m.isl = true → a.islEnabled = true) → LegOk K (satCount a) base p.elev t m →
      HopOk (K.env E) s1 t ⟨port base m.isl m.src, port base m.isl m.dst, m.packet, m.proto, lightTime K t m.src m.dst⟩ := by
    intro m t hmi hlm
    have ha := haddr m t hmi hlm
    obtain ⟨hlen, f, g, hf, hg, hif⟩ := hlm
    obtain ⟨isl, src, dst, packet, proto⟩ := m
    simp only at *
    cases isl with
    | true =>
      simp only [if_true] at hif
      obtain ⟨i1, i2, i3, i4⟩ := hif
      obtain ⟨j1, j2, j3, j4, j5, j6, j7, j8, j9, j10, j11⟩ := hdevI (hmi rfl) src i1
      obtain ⟨k1, k2, k3, k4, k5, k6, k7, k8, k9, k10, k11⟩ := hdevI (hmi rfl) dst i2
      have hfl : islEarthRad ≤ (f t).len := by
        obtain ⟨f', hf', hl⟩ := sky_pos B hK halt t (k := src) (by omega)
        rw [hf] at hf'; injection hf' with hf'; subst hf'
        refine le_trans ?_ (hl i1)
        rw [islEarthRad, propEarthRad]; norm_num
      refine isl_hop (c := 1) (i := src) (j := dst) hlen j4 (by show 0 < (s1.dev (base + src)).cap; rw [j5]; decide) ?_ j6 ?_ j9 k10 j2 k2 hf hg j11
        ((C48_line_of_sight i3 (Or.inl hfl)).mpr i4) (by show -900 ≤ (s1.dev (base + src)).txPower; rw [j7]; norm_num) ?_ rfl
      · simp only [port, if_true] at ha ⊢
        rw [ha]
        exact ofNat_even (by omega)
      · intro he
        simp only [port, if_true] at he
        have : src = dst := Nat.add_left_cancel he
        subst this
        rw [hf] at hg; injection hg with hg
        exact i3 (by rw [hg])
      · simp only [port, if_true]
        rw [k8, effectivePower, k1, j7]
        norm_num
    | false =>
      simp only [Bool.false_eq_true, if_false] at hif
      obtain ⟨i1, i2, i3, i4⟩ := hif
      obtain ⟨j1, j2, j3, j4, j5, j6, j7, j8, j9, j10, j11⟩ := hdev src i1
      obtain ⟨k1, k2, k3, k4, k5, k6, k7, k8, k9, k10, k11⟩ := hdev dst i2
      refine slant_hop (c := 0) (i := src) (j := dst) (m := ⟨p.elev, p.atm, p.fspl, p.margin⟩) hlen j5
        (by show 0 < (s1.dev src).cap; rw [j6]; decide) ?_ j7 (by rw [hchan]; exact B.kind) ((hmem _).mpr (hbase ▸ i1))
        ((hmem _).mpr (hbase ▸ i2)) ?_ j3 k3 hf hg hb (by simp only; exact_mod_cast (by linarith : (-90 : Rat) < p.elev))
        (by simp only; exact_mod_cast e2) ?_ i4 (by show -900 ≤ (s1.dev src).txPower - p.atm - p.fspl - p.margin; rw [j8]; exact w1) ?_ rfl
      · rw [ha]
        exact ofNat_even (by simp only [port]; simp; omega)
      · simp only [port, Bool.false_eq_true, if_false]
        rw [k2, j2]
        unfold Across at i3
        by_cases h1 : dst < satCount a <;> by_cases h2 : src < satCount a <;> simp [h1, h2] <;> omega
      · obtain ⟨f', hf', hl⟩ := sky_pos B hK halt t (k := src) (by omega)
        rw [hf] at hf'; injection hf' with hf'; subst hf'
        obtain ⟨g', hg', hl'⟩ := sky_pos B hK halt t (k := dst) (by omega)
        rw [hg] at hg'; injection hg' with hg'; subst hg'
        rcases i3 with ⟨h1, _⟩ | ⟨_, h1⟩
        · exact le_max_of_le_left (hl h1)
        · exact le_max_of_le_right (hl' h1)
      · simp only [port, Bool.false_eq_true, if_false]
        rw [k9, effectivePower, k1, j8]
        simp only [if_true]
        rw [k10, k11]
        exact w2
  refine ⟨haddr, hop, fun k hk => ⟨(hdev k hk).2.2.1, (hdev k hk).2.2.2.2.2.2.1⟩, by rw [hchan]; exact B.kind,
    fun hisl k hk => ⟨(hdevI hisl k hk).2.1, (hdevI hisl k hk).2.2.2.2.2.1⟩, fun hisl y hy => ?_⟩
  obtain ⟨b1, b2, _⟩ := B.isl hisl
  rw [← hbase] at b1
  rw [← (hfit.index 1).link, hchan, b2, b1] at hy
  obtain ⟨k, hk, rfl⟩ := List.mem_range'.mp hy
  rw [Nat.one_mul, (hdevI hisl k hk).2.2.1]
  intro e
  have := ofNat_even (n := base + k + 1) (by omega)
  rw [e] at this
  exact absurd this (by decide)

/-- **C92 in the network of the example programs**: after any traffic, when nothing is in flight, a packet sent along legs each of which can be
made when its time comes — between ground and space within the slant range, between satellites not hidden by the Earth —
is received by exactly the devices at the ends of the legs, in order, the light times of the legs later. -/
theorem C92_example_route {junk : ℝ} {a : ExampleArgs} {p : Preset} (hp : p ∈ presets) (hn : a.constellation = p.name)
    (ho : ∀ o ∈ a.orbits, Installable o) (halt : ∀ o ∈ a.orbits, 0.001 ≤ o.alt)
    (hm : 2 * (places a.orbits).length + a.lonGws * a.latGws % 2 ^ 32 + 2 < 2 ^ 40) {s : Sys}
    (h0 : Initial s) {X : ExampleNet} (h : exampleMain junk a s = .ok X) {K : Sky} (hK : SkyOf a X K) {E : Env} (hE : ErrorFree E)
    {ops : List Op} (ht : ∀ op ∈ ops, PlainTraffic op) {s1 : Sys} (hx : exec (K.env E) X.build.sys ops = .ok s1) (hq : s1.pending = [])
    {base : Nat} (hbase : base = (places a.orbits).length + X.ground.length) {l : Leg} {ls : List Leg}
    (hisl : ∀ m ∈ l :: ls, m.isl = true → a.islEnabled = true)
    (hok : LegsOk K (places a.orbits).length base p.elev s1.now (l :: ls))
    (hnd : (timed s1.now (hopsOf K base s1.now (l :: ls))).Pairwise
      fun x y => x.2.src = y.2.src → x.1 + x.2.occupies (K.env E) s1 < y.1)
    {R : Forwarder} (hR : Follows s1 R (hopsOf K base s1.now (l :: ls))) :
    ∃ n s2, (send (K.env E) s1 (port base l.isl l.src) l.packet (.mac (Mac48.ofNat (port base l.isl l.dst + 1))) l.proto >>=
        relay (K.env E) R n) = .ok s2 ∧ s2.pending = [] ∧
      allUps s2.log = allUps s1.log ++ arrivals s1 s1.now (hopsOf K base s1.now (l :: ls)) := by
  have hN : (places a.orbits).length = satCount a := rfl
  obtain ⟨haddr, hop, _⟩ := example_legs hp hn ho halt hm h0 h hK (E := E) ht hx hbase
  rw [hN] at hm hok hbase haddr hop
  have B := built_of hp hn ho (by omega) h
  obtain ⟨s0, o, hi, hpr, hex⟩ := built_history B h0 ht hx
  have hhops : ∀ (ms : List Leg) (t : Time), (∀ m ∈ ms, m.isl = true → a.islEnabled = true) → LegsOk K (satCount a) base p.elev t ms →
      ∀ e ∈ timed t (hopsOf K base t ms), HopOk (K.env E) s1 e.1 e.2 := by
    intro ms
    induction ms with
    | nil => intro t _ _ e he; cases he
    | cons m ms ih =>
      intro t hmi hl e he
      rcases List.mem_cons.mp he with rfl | he
      · exact hop m t (hmi m List.mem_cons_self) hl.1
      · exact ih _ (fun m' hm' => hmi m' (List.mem_cons_of_mem _ hm')) hl.2 e he
  obtain ⟨n, s2, r1, r2, r3⟩ := C92_route (E := K.env E) (by exact hE) hi hpr hex hq (R := R)
    (a := ⟨port base l.isl l.src, port base l.isl l.dst, l.packet, l.proto, lightTime K s1.now l.src l.dst⟩)
    (hs := hopsOf K base (s1.now + lightTime K s1.now l.src l.dst) ls) ⟨hhops _ _ hisl hok, hnd⟩ hR
  rw [haddr l s1.now (hisl l List.mem_cons_self) hok.1] at r1
  exact ⟨n, s2, r1, r2, r3⟩

/-- The hypotheses of `C92_example_route` are met: in the network of the programs without options the source sends a packet to a satellite,
which sends it back. -/
example : ∃ X K s1 R, ∃ n i : Nat, exampleMain 0 (defaultArgs true) Demo.sys = .ok X ∧ SkyOf (defaultArgs true) X K ∧
    exec (K.env Demo.env) X.build.sys [.wait n] = .ok s1 ∧ s1.pending = [] ∧ i < 632 ∧
    LegsOk K (places (defaultArgs true).orbits).length (632 + 402) 20 s1.now
      [⟨false, 632 + 400, i, [1, 2, 3], 0x800⟩, ⟨false, i, 632 + 400, [1, 2, 3], 0x800⟩] ∧
    ((timed s1.now (hopsOf K (632 + 402) s1.now
      [⟨false, 632 + 400, i, [1, 2, 3], 0x800⟩, ⟨false, i, 632 + 400, [1, 2, 3], 0x800⟩])).Pairwise
      fun x y => x.2.src = y.2.src → x.1 + x.2.occupies (K.env Demo.env) s1 < y.1) ∧
    Follows s1 R (hopsOf K (632 + 402) s1.now
      [⟨false, 632 + 400, i, [1, 2, 3], 0x800⟩, ⟨false, i, 632 + 400, [1, 2, 3], 0x800⟩]) := by
  have hp : (⟨"TelesatGateway", 105.9, 20, 189.3, 4.8, 0.36, 9857.1, 31.8⟩ : Preset) ∈ presets := by simp [presets]
  have hi := fun o ho => (default_installable true o ho).1
  have ha := fun o ho => (default_installable true o ho).2
  have hm : 2 * (places (defaultArgs true).orbits).length + (defaultArgs true).lonGws * (defaultArgs true).latGws % 2 ^ 32 + 2 < 2 ^ 48 := by
    rw [default_count]; simp [defaultArgs]
  obtain ⟨X, hX, _, hG, _⟩ := C91_builds 0 hp rfl hi hm Demo.sys
  obtain ⟨K, hK, hsp, hof, hst⟩ := sky_exists (defaultArgs true) X
  have B := built_of hp rfl hi (by unfold satCount; exact hm) hX
  obtain ⟨is, hr⟩ := B.run
  obtain ⟨s0, o, h0, hat, hex, _⟩ := C62_helper_network_is_history Demo.sys_initial hr
  obtain ⟨hpe, _⟩ := attached_only h0 (fun op hop => by
    obtain ⟨d, c, e, _⟩ := hat op hop
    exact ⟨d, c, e⟩) (hex (K.env Demo.env))
  obtain ⟨n, i, f, g, a1, a2, a3, a4, a5, a6⟩ := C91_default_users_served hX hK (Or.inl rfl) X.build.sys.now
  obtain ⟨dt, hdt⟩ := Nat.exists_eq_add_of_le (show (X.build.sys.now : Nat) ≤ n * 1000000000 + 1 by
    have : n ≤ n * 1000000000 := Nat.le_mul_of_pos_right n (by norm_num)
    exact Nat.le_trans a1 (Nat.le_trans this (Nat.le_add_right _ _)))
  have hw : exec (K.env Demo.env) X.build.sys [.wait dt] = .ok { X.build.sys with now := X.build.sys.now + dt } := by
    simp only [exec, step, hpe]
    rfl
  have hG' : X.ground.length = 402 := hG
  have hgl : ∃ v, g = (fun _ => v) ∧ v.len = 6371000 := by
    have hj : 400 < X.ground.length := by omega
    obtain ⟨v, hv, hl⟩ := B.surface X.ground[400] (List.getElem_mem hj)
    have := hK.gnd 400 v (by rw [List.getElem?_eq_getElem hj, hv])
    rw [default_count, a5] at this
    injection this with this
    exact ⟨v, this, hl⟩
  obtain ⟨v, rfl, hvl⟩ := hgl
  have hfl : ∀ t, (f t).len ≤ 7572000 := by
    intro t
    obtain ⟨⟨o, q, j⟩, hx⟩ : ∃ x, (places (defaultArgs true).orbits)[i]? = some x :=
      ⟨_, List.getElem?_eq_getElem (by rw [default_count]; exact a3)⟩
    obtain ⟨f', h1, h2⟩ := hK.sat i o q j hx
    rw [a4] at h1
    injection h1 with h1
    subst h1
    obtain ⟨u, _, hu⟩ := h2 t
    have hmem := (places_orbit (List.mem_of_getElem? hx)).1
    simp only [defaultArgs, List.mem_cons, List.not_mem_nil, or_false] at hmem
    rw [hu, track_len (by rcases hmem with rfl | rfl <;> norm_num), radius]
    rcases hmem with rfl | rfl <;> norm_num
  let T : Nat := n * 1000000000 + 1
  have hT : ({ X.build.sys with now := X.build.sys.now + dt } : Sys).now = T := hdt.symm
  have hlight : lightTime K T (632 + 400) i < 500000000 := by
    simp only [lightTime, a4, a5, hsp, hof]
    rw [Nat.floor_lt' (by norm_num)]
    have h1 := len_add_le (f T) (⟨-v.x, -v.y, -v.z⟩ : Vec)
    have h2 : f T + (⟨-v.x, -v.y, -v.z⟩ : Vec) = f T - v := by ext <;> simp [sub_eq_add_neg]
    have h3 : (⟨-v.x, -v.y, -v.z⟩ : Vec).len = v.len := by simp [Vec.len]
    rw [h2, h3, hvl] at h1
    have h4 := hfl T
    rw [div_mul_eq_mul_div, div_lt_iff₀ (by norm_num)]
    push_cast
    linarith
  have hsame : f (T + lightTime K T (632 + 400) i) = f T := by
    have hprec : (defaultArgs true).prec.toNat = 1000000000 := rfl
    refine hst i f (by rw [default_count]; exact a3) a4 _ _ (by rw [hprec]; decide) ?_
    rw [hprec]
    generalize lightTime K T (632 + 400) i = x at hlight
    simp only [T]
    omega
  have hin : InSlantRange 20 v (f T) := by exact_mod_cast a6
  refine ⟨X, K, _, fun x p proto _ => if x = i then some (i, p, .mac (Mac48.ofNat (632 + 400 + 1)), proto) else none, dt, i, hX, hK, hw, hpe, a3,
    ⟨⟨by simp, _, _, a5, a4, ?_⟩, ⟨by simp, _, _, a4, a5, ?_⟩, trivial⟩, ?_, ?_, ?_⟩
  · rw [if_neg (by simp), default_count, hT]
    exact ⟨by norm_num, by simp only; omega, Or.inr ⟨by norm_num, a3⟩, hin⟩
  · rw [if_neg (by simp), default_count, hT]
    refine ⟨by simp only; omega, by norm_num, Or.inl ⟨a3, by norm_num⟩, ?_⟩
    simp only
    rw [hsame]
    unfold InSlantRange at hin ⊢
    rw [dist_comm', max_comm]
    exact hin
  · simp only [hopsOf, timed, port, List.pairwise_cons, List.mem_singleton, List.not_mem_nil]
    refine ⟨?_, by simp, List.Pairwise.nil⟩
    rintro e rfl he
    have he' : (1032 : Nat) = i := he
    omega
  · obtain ⟨v, hv, _, _, _, hv4, _⟩ := B.dev (632 + 400) (by unfold satCount; rw [default_count]; omega)
    have : (X.build.sys.dev (632 + 400)).addr = Mac48.ofNat (632 + 400 + 1) := by rw [hv, hv4]
    simp only [port, Bool.false_eq_true, if_false, if_true]
    rw [this]
  · simp only [port, Bool.false_eq_true, if_false]
    have hne : (632 + 400 : Nat) ≠ i := by omega
    exact if_neg hne

end Verif
