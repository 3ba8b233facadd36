import Verif.Lemmas.Example
import Verif.Props.Fleet
import Verif.Props.Visibility
import Verif.Props.Reach
/-!
# The network of the example programs (C91)
-/

namespace Verif
open Real Spec

theorem track_eq {x : OrbitRec × Nat × Nat} (ha : -6371.009 < x.1.alt) (t : Time) :
    (orbitOf x).position t = track x.1 x.2.1 x.2.2 (t / 1000000000) := by
  have := congrArg TrackLine.pos (lineOf_orbitOf ha t 0)
  exact this

theorem track_len {o : OrbitRec} {p k : Nat} (ha : -6371.009 ≤ o.alt) (t : ℝ) : (track o p k t).len = radius o := by
  refine len_eq (by unfold radius; nlinarith) ?_
  simp only [track, dot]
  generalize 2 * Real.pi * k / o.sats + _ = th
  generalize 2 * Real.pi * p / o.planes + _ = lam
  generalize o.inc * (Real.pi / 180) = i
  have h1 := sin_sq_add_cos_sq th
  have h2 := sin_sq_add_cos_sq lam
  have h3 := sin_sq_add_cos_sq i
  have e1 : sin th ^ 2 = 1 - cos th ^ 2 := by linarith
  have e2 : sin lam ^ 2 = 1 - cos lam ^ 2 := by linarith
  have e3 : sin i ^ 2 = 1 - cos i ^ 2 := by linarith
  ring_nf
  rw [e1, e2, e3]
  ring

theorem places_orbit {os : List OrbitRec} {x : OrbitRec × Nat × Nat} (h : x ∈ places os) : x.1 ∈ os ∧ x.2.1 < x.1.planes ∧ x.2.2 < x.1.sats := by
  simp only [places, List.mem_flatMap, List.mem_map, List.mem_range] at h
  obtain ⟨o, ho, p, hp, k, hk, rfl⟩ := h
  exact ⟨ho, hp, hk⟩

/-- **C91**: with an existing name of link settings, orbits that can be installed and fewer than 2^48 devices the program builds its
network: satellites, grid and users in this order with one device each on channel 0, which is the ground/space channel with the
loss model of the settings, and, unless disabled, one more device for each satellite on channel 1, the inter-satellite
channel.  The users are placed on the Earth at latitude 90 degrees minus twice the given one. -/
theorem C91_builds (junk : ℝ) {a : ExampleArgs} {p : Preset} (hp : p ∈ presets) (hn : a.constellation = p.name)
    (ho : ∀ o ∈ a.orbits, Installable o) (hm : 2 * (places a.orbits).length + a.lonGws * a.latGws % 2 ^ 32 + 2 < 2 ^ 48) (s : Sys) :
    ∃ X, exampleMain junk a s = .ok X ∧
      X.fleet.mobs.length = (places a.orbits).length ∧
      X.ground.length = a.lonGws * a.latGws % 2 ^ 32 + 2 ∧
      X.ground[a.lonGws * a.latGws % 2 ^ 32]? = some (some (location (90 - 2 * a.source.latitude) a.source.longitude)) ∧
      X.ground[a.lonGws * a.latGws % 2 ^ 32 + 1]? = some (some (location (90 - 2 * a.destination.latitude) a.destination.longitude)) ∧
      (∀ x ∈ X.ground, ∃ v, x = some v ∧ v.len = 6371000) ∧
      X.utNet = List.range ((places a.orbits).length + X.ground.length) ∧
      (∀ k ∈ X.utNet, (X.build.sys.dev k).node = some k ∧ (X.build.sys.dev k).addr = Mac48.ofNat (k + 1) ∧
        (X.build.sys.dev k).chan = some 0 ∧ ((X.build.sys.dev k).side = .sat ↔ k < (places a.orbits).length)) ∧
      (X.build.sys.chan 0).kind = .leo ∧ X.build.lossOf 0 = some (.leo ⟨p.elev, p.atm, p.fspl, p.margin⟩) ∧
      X.islNet = (if a.islEnabled then List.range' ((places a.orbits).length + X.ground.length) (places a.orbits).length else []) ∧
      (∀ i : Nat, X.islNet[i]? = some ((places a.orbits).length + X.ground.length + i) →
        ∃ v, X.build.sys.dev ((places a.orbits).length + X.ground.length + i) = v ∧ v.node = some i ∧ v.chan = some 1 ∧
          (X.build.sys.chan 1).kind = .isl ∧ X.build.lossOf 1 = some .isl) := by
  obtain ⟨X, e, B⟩ := example_built junk hp hn ho hm s
  obtain ⟨g, hg, hgl, hgr⟩ := B.ground
  have hG : X.ground.length = a.lonGws * a.latGws % 2 ^ 32 + 2 := by rw [hgr]; simp [hgl]
  refine ⟨X, e, by rw [B.fleet]; simp [fleetOf], hG, ?_, ?_, B.surface, ?_, ?_, B.kind, B.loss, ?_, ?_⟩
  · rw [hgr, ← hgl, List.getElem?_append_right (Nat.le_refl _), Nat.sub_self, C43_law]
    rfl
  · rw [hgr, ← hgl, List.getElem?_append_right (Nat.le_add_right _ 1), Nat.add_sub_cancel_left, C43_law a.destination]
    rfl
  · rw [B.ut, List.range_eq_range']; rfl
  · intro k hk
    rw [B.ut] at hk
    have hk' : (k : Nat) < satCount a + X.ground.length := by simpa using List.mem_range'.mp hk
    obtain ⟨v, hv, _, h2, h3, h4, _, _, h7, _⟩ := B.dev k hk'
    rw [hv]
    refine ⟨h3, h4, h7, ?_⟩
    rw [h2]
    change _ ↔ (k : Nat) < satCount a
    split <;> simp_all
  · cases hi : a.islEnabled with
    | true => rw [(B.isl hi).1]; rfl
    | false => rw [B.noIsl hi]; rfl
  · intro i hi
    cases hisl : a.islEnabled with
    | false => rw [B.noIsl hisl] at hi; simp at hi
    | true =>
      obtain ⟨h1, h2, h3, h4⟩ := B.isl hisl
      have hlt : i < satCount a := by
        rw [h1] at hi
        have := (List.getElem?_eq_some_iff.mp hi).1
        simpa using this
      obtain ⟨v, hv, _, h5, _, _, _, h6, _⟩ := h4 i hlt
      exact ⟨v, hv, h5, h6, by rw [h2], h3⟩

/-- C91: the places of the grid, column by column from pole to pole. -/
theorem C91_grid {junk : ℝ} {a : ExampleArgs} {p : Preset} (hp : p ∈ presets) (hn : a.constellation = p.name)
    (ho : ∀ o ∈ a.orbits, Installable o) (hm : 2 * (places a.orbits).length + a.lonGws * a.latGws % 2 ^ 32 + 2 < 2 ^ 48)
    (h1 : 0 < a.latGws) (h2 : 0 < a.lonGws) (h3 : a.latGws + 1 < 2 ^ 32) (h4 : a.lonGws < 2 ^ 32) (h5 : a.latGws * a.lonGws < 2 ^ 32)
    {s : Sys} {X : ExampleNet} (h : exampleMain junk a s = .ok X) {i : Nat} (hi : i < a.latGws * a.lonGws) :
    X.ground[i]? = some (some (Spec.gridPoint a.latGws a.lonGws (i % (a.latGws + 1)) (i / (a.latGws + 1) % a.lonGws))) := by
  obtain ⟨Y, e, B⟩ := example_built junk hp hn ho hm s
  rw [h] at e
  injection e with e
  subst e
  obtain ⟨g, hg, hgl, hgr⟩ := B.ground
  rw [gridInstall_eq h1 h2 h3 h4 h5] at hg
  injection hg with hg
  rw [hgr, ← hg, List.getElem?_append_left (by simpa using hi), List.getElem?_map, List.getElem?_range hi]
  rfl

/-- C91: other names of link settings stop the program, whatever the orbits. -/
theorem C91_unknown_constellation (junk : ℝ) {a : ExampleArgs} (hn : ∀ p ∈ presets, p.name ≠ a.constellation)
    (ho : ∀ o ∈ a.orbits, Installable o) (s : Sys) : exampleMain junk a s = .fail .unknownConstellation := by
  obtain ⟨g, hg, _, _⟩ := gridInstall_total a.latGws a.lonGws
  unfold exampleMain
  rw [fleet_empty a.prec, fleetOrbits_eq junk a.prec ho, hg, (C59_other_names hn _).1]
  rfl

/-! ### Positions -/

theorem fleetInv_fleetOf {prec : Int} (L : List (OrbitRec × Nat × Nat)) : FleetInv (fleetOf prec L) := by
  constructor
  · simp only [fleetOf]
    split
    · rw [List.pairwise_map]
      exact List.pairwise_of_forall fun _ _ => Nat.le_refl _
    · exact List.Pairwise.nil
  · intro e he
    exact Nat.zero_le _
  · intro t i h
    simp only [fleetOf] at h ⊢
    split at h
    · simp only [List.mem_map, List.mem_range, Prod.mk.injEq, FleetEv.update.injEq] at h
      obtain ⟨j, hj, _, rfl⟩ := h
      simpa using hj
    · cases h
  · intro t i h
    simp only [fleetOf, List.mem_flatMap, List.mem_range, List.mem_cons, Prod.mk.injEq, List.not_mem_nil, or_false, or_self] at h
    obtain ⟨j, hj, _, rfl⟩ := h
    simpa [fleetOf] using hj

theorem times_range (p : Nat) (N i : Nat) (hi : i < N) :
    timesOf i ((List.range N).map fun j => (p, FleetEv.update j)) = [p] := by
  unfold timesOf
  rw [List.filterMap_map]
  induction N with
  | zero => omega
  | succ n ih =>
    rw [List.range_succ, List.filterMap_append]
    by_cases h : i < n
    · rw [ih h]
      have : n ≠ i := by omega
      simp [this]
    · have : i = n := by omega
      subst this
      have : (List.range i).filterMap ((fun e : Time × FleetEv => if e.2 = .update i then some e.1 else none) ∘
          fun j => (p, FleetEv.update j)) = [] := by
        rw [List.filterMap_eq_nil_iff]
        intro j hj
        have := List.mem_range.mp hj
        have hne : j ≠ i := by omega
        simp [hne]
      rw [this]
      simp

theorem sat_periodic {p : Nat} (hp : 0 < p) {o : Orbit} {ops : List SatOp} : ∀ {s s' : Sat}, (∀ x ∈ ops, isSetterCall x = false) →
    s.exec ops = .ok s' →
    (s.orbit = o ∧ s.prec = p ∧ ∃ j, s.pos = o.position (j * p) ∧ s.pending = [(j + 1) * p] ∧ j * p ≤ s.now ∧ s.now ≤ (j + 1) * p) →
    s'.orbit = o ∧ s'.prec = p ∧ ∃ j, s'.pos = o.position (j * p) ∧ s'.pending = [(j + 1) * p] ∧ j * p ≤ s'.now ∧ s'.now ≤ (j + 1) * p := by
  induction ops with
  | nil => intro s s' _ h hi; injection h with h; subst h; exact hi
  | cons op ops ih =>
    intro s s' hs h hi
    simp only [Sat.exec] at h
    rw [Outcome.bind_eq_ok] at h
    obtain ⟨s1, h1, h2⟩ := h
    refine ih (fun x hx => hs x (List.mem_cons_of_mem _ hx)) h2 ?_
    obtain ⟨i1, i2, j, i3, i4, i5, i6⟩ := hi
    have hop := hs op List.mem_cons_self
    cases op with
    | run =>
      simp only [Sat.step, i4] at h1
      injection h1 with h1
      subst h1
      refine ⟨i1, i2, j + 1, by simp only [Sat.update, i1], ?_, Nat.le_refl _, ?_⟩
      · simp only [Sat.update, i2]
        rw [if_pos (by exact_mod_cast hp)]
        simp only [insertTime, Int.toNat_natCast]
        congr 1
        ring
      · simp only [Sat.update]
        exact Nat.mul_le_mul_right _ (by omega)
    | wait dt =>
      simp only [Sat.step, i4] at h1
      split at h1
      · injection h1 with h1; subst h1
        rename_i hle
        exact ⟨i1, i2, j, i3, rfl, Nat.le_trans i5 (Nat.le_add_right _ _), hle⟩
      · injection h1 with h1; subst h1
        exact ⟨i1, i2, j, i3, i4, i5, i6⟩
    | _ => simp [isSetterCall] at hop

theorem sat_still {o : Orbit} {P : Int} {ops : List SatOp} : ∀ {s s' : Sat}, (∀ x ∈ ops, isSetterCall x = false) →
    s.exec ops = .ok s' → s.orbit = o ∧ s.prec = P → s'.orbit = o ∧ s'.prec = P := by
  induction ops with
  | nil => intro s s' _ h hi; injection h with h; subst h; exact hi
  | cons op ops ih =>
    intro s s' hs h hi
    simp only [Sat.exec] at h
    rw [Outcome.bind_eq_ok] at h
    obtain ⟨s1, h1, h2⟩ := h
    refine ih (fun x hx => hs x (List.mem_cons_of_mem _ hx)) h2 ?_
    have hop := hs op List.mem_cons_self
    cases op with
    | run =>
      simp only [Sat.step] at h1
      split at h1 <;> injection h1 with h1 <;> subst h1 <;> exact hi
    | wait dt =>
      simp only [Sat.step] at h1
      split at h1
      · injection h1 with h1; subst h1; exact hi
      · split at h1 <;> injection h1 with h1 <;> subst h1 <;> exact hi
    | _ => simp [isSetterCall] at hop

/-- **C91**: what the satellites report while the program runs, that is while nobody calls setters of their mobility models: the place
on the track at the current time if the precision is 0, and else at a multiple of the precision at most one interval ago. -/
theorem C91_reported {junk : ℝ} {a : ExampleArgs} {s : Sys} {X : ExampleNet} (h : exampleMain junk a s = .ok X)
    (ho : ∀ o ∈ a.orbits, Installable o) (hprec : 0 ≤ a.prec) {ops : List FleetOp} (hops : ∀ op ∈ ops, ∀ i, callOf i op = none)
    {F : Fleet} (hF : X.fleet.exec junk ops = .ok F) {i : Nat} {o : OrbitRec} {p k : Nat} (hi : (places a.orbits)[i]? = some (o, p, k)) :
    ∃ m u, F.mobs[i]? = some m ∧ Reported a.prec.toNat F.now u ∧ m.getPosition F.now = track o p k (u / 1000000000) := by
  have hX : X.fleet = fleetOf a.prec (places a.orbits) := by
    unfold exampleMain at h
    rw [fleet_empty a.prec, fleetOrbits_eq junk a.prec ho, Outcome.ok_bind] at h
    obtain ⟨g, _, h⟩ := Outcome.bind_eq_ok.mp h
    obtain ⟨c, _, h⟩ := Outcome.bind_eq_ok.mp h
    obtain ⟨u, _, h⟩ := Outcome.bind_eq_ok.mp h
    split at h
    · obtain ⟨w, _, h⟩ := Outcome.bind_eq_ok.mp h
      injection h with h; rw [← h, List.nil_append]
    · injection h with h; rw [← h, List.nil_append]
  have halt : -6371.009 < o.alt := (ho o (places_orbit (List.mem_of_getElem? hi)).1).2.2.2.2
  have hlt : i < (places a.orbits).length := (List.getElem?_eq_some_iff.mp hi).1
  have hs0 : satOf X.fleet i = some ⟨orbitOf (o, p, k), (orbitOf (o, p, k)).position 0, a.prec, 0,
      timesOf i X.fleet.pending, notesOf i X.fleet.log⟩ := by
    rw [satOf_eq, hX]
    simp only [fleetOf, List.getElem?_map, hi, Option.map_some]
  obtain ⟨sops, s', e1, e2, e3⟩ := satOf_exec (by rw [hX]; exact fleetInv_fleetOf _) hF hs0
  have hset : ∀ x ∈ sops, isSetterCall x = false := by
    intro x hx
    have hnil : ops.filterMap (callOf i) = [] := by
      rw [List.filterMap_eq_nil_iff]
      exact fun op hop => hops op hop i
    rw [hnil, List.filter_eq_nil_iff] at e3
    simpa using e3 x hx
  rw [satOf_eq] at e2
  obtain ⟨m, hm, hs'⟩ := Option.map_eq_some_iff.mp e2
  obtain ⟨P, hP⟩ := Int.eq_ofNat_of_zero_le hprec
  by_cases h0 : P = 0
  · obtain ⟨q1, q2⟩ := sat_still hset e1 ⟨rfl, rfl⟩
    rw [← hs'] at q1 q2
    simp only at q1 q2
    refine ⟨m, F.now, hm, ?_, ?_⟩
    · simp [Reported, hP, h0]
    · unfold Mob.getPosition
      rw [if_pos (by rw [q2, hP, h0]; rfl), q1, track_eq halt]
  · have hpos : 0 < P := Nat.pos_of_ne_zero h0
    obtain ⟨q1, q2, j, q3, q4, q5, q6⟩ := sat_periodic hpos (o := orbitOf (o, p, k)) hset e1
      ⟨rfl, hP, 0, by simp, by
        simp only [hX, fleetOf]
        rw [if_pos (by omega), times_range _ _ _ hlt, hP]
        simp, by simp, by simp⟩
    rw [← hs'] at q1 q2 q3 q5 q6
    refine ⟨m, j * P, hm, ?_, ?_⟩
    · simp only [Reported, hP, Int.toNat_natCast, if_neg h0]
      exact ⟨Nat.dvd_mul_left _ _, q5, by rw [Nat.add_mul, Nat.one_mul] at q6; exact q6⟩
    · unfold Mob.getPosition
      simp only at q2 q3
      rw [if_neg (by rw [q2]; exact_mod_cast h0), q3, track_eq halt]

/-! ### Traffic -/

theorem built_of {junk : ℝ} {a : ExampleArgs} {p : Preset} (hp : p ∈ presets) (hn : a.constellation = p.name)
    (ho : ∀ o ∈ a.orbits, Installable o) (hm : 2 * satCount a + a.lonGws * a.latGws % 2 ^ 32 + 2 < 2 ^ 48) {s : Sys} {X : ExampleNet}
    (h : exampleMain junk a s = .ok X) : Built a p s X := by
  obtain ⟨Y, e, B⟩ := example_built junk hp hn ho hm s
  rw [h] at e
  injection e with e
  rw [e]
  exact B

/-- C91: no traffic makes the simulation fail, and when the program stops sending the events run out with every accepted packet
transmitted. -/
theorem C91_never_fails {junk : ℝ} {a : ExampleArgs} {p : Preset} (hp : p ∈ presets) (hn : a.constellation = p.name)
    (ho : ∀ o ∈ a.orbits, Installable o) (hm : 2 * (places a.orbits).length + a.lonGws * a.latGws % 2 ^ 32 + 2 < 2 ^ 48) {s : Sys}
    (h0 : Initial s) {X : ExampleNet} (h : exampleMain junk a s = .ok X) {E : Env} {ops : List Op} (ht : ∀ op ∈ ops, Traffic op) :
    (∃ s', exec E X.build.sys ops = .ok s') ∧
    ∃ n s', exec E X.build.sys (ops ++ List.replicate n .run) = .ok s' ∧ s'.pending = [] ∧
      ∀ d, accepted d s'.log = begun d s'.log ∧ begun d s'.log = ended d s'.log ∧ (s'.dev d).queue = [] ∧ (s'.dev d).busy = false := by
  have B := built_of hp hn ho hm h
  obtain ⟨is, hr⟩ := B.run
  obtain ⟨h1, n, s', h2, h3, h4, _⟩ := C62_helper_network_never_fails (E := E) h0 hr B.mac ht
  exact ⟨h1, n, s', h2, h3, h4⟩

theorem built_history {a : ExampleArgs} {p : Preset} {s : Sys} {X : ExampleNet} (B : Built a p s X) (h0 : Initial s) {E : Env}
    {ops : List Op} (ht : ∀ op ∈ ops, PlainTraffic op) {s1 : Sys} (hx : exec E X.build.sys ops = .ok s1) :
    ∃ s0 o, Initial s0 ∧ ProperRun E s0 o ∧ exec E s0 o = .ok s1 := by
  obtain ⟨is, hr⟩ := B.run
  obtain ⟨s0, o, hi, _, hex, hpr⟩ := C62_helper_network_is_history h0 hr
  refine ⟨s0, o ++ ops, hi, properRun_append (hpr B.mac E) (hex E) (traffic_proper fun op h => plain_traffic (ht op h)), ?_⟩
  rw [exec_append, hex E]
  exact hx

theorem built_member {a : ExampleArgs} {p : Preset} {s : Sys} {X : ExampleNet} (B : Built a p s X) {s1 : Sys}
    (hk : ∀ x, Kept (s1.dev x) (X.build.sys.dev x)) (hc : s1.chan = X.build.sys.chan) (hi : IndexInv 0 s1) (x : DevId) :
    x ∈ members 0 s1.log ↔ (x : Nat) < satCount a + X.ground.length := by
  have hkind : (s1.chan 0).kind = .leo := by rw [hc]; exact B.kind
  constructor
  · intro hx
    cases hs : (s1.dev x).side with
    | sat =>
      have := (hi.sat hkind _ x).mpr ⟨hx, hs, rfl⟩
      rw [hc, B.sat] at this
      exact Nat.lt_of_lt_of_le this.1 (Nat.le_add_right _ _)
    | gnd =>
      have := (hi.gnd hkind _ x).mpr ⟨hx, hs, rfl⟩
      rw [hc, B.gnd] at this
      exact this.1.2
  · intro hx
    by_cases hlt : (x : Nat) < satCount a
    · have := (B.sat (Mac48.ofNat (x + 1)) x).mpr ⟨hlt, rfl⟩
      rw [← hc] at this
      exact ((hi.sat hkind _ x).mp this).1
    · have := (B.gnd (Mac48.ofNat (x + 1)) x).mpr ⟨⟨Nat.le_of_not_lt hlt, hx⟩, rfl⟩
      rw [← hc] at this
      exact ((hi.gnd hkind _ x).mp this).1

theorem preset_elev {p : Preset} (hp : p ∈ presets) : 0 < p.elev ∧ p.elev < 90 := by
  simp only [presets, List.mem_cons, List.not_mem_nil, or_false] at hp
  rcases hp with rfl | rfl | rfl | rfl <;> norm_num

theorem preset_power {p : Preset} (hp : p ∈ presets) : -900 ≤ p.eirp - p.atm - p.fspl - p.margin ∧
    -1000 ≤ p.eirp - p.atm - p.fspl - p.margin + p.rxGain - 0 := by
  simp only [presets, List.mem_cons, List.not_mem_nil, or_false] at hp
  rcases hp with rfl | rfl | rfl | rfl <;> norm_num

/-- Every node has a position; satellites are outside of the Earth. -/
theorem sky_pos {a : ExampleArgs} {p : Preset} {s : Sys} {X : ExampleNet} (B : Built a p s X) {K : Sky} (hK : SkyOf a X K)
    (halt : ∀ o ∈ a.orbits, 0.001 ≤ o.alt) (t : Nat) {k : Nat} (hk : k < satCount a + X.ground.length) :
    ∃ f, K.pos k = some f ∧ (k < satCount a → propEarthRad ≤ (f t).len) := by
  by_cases hlt : k < satCount a
  · obtain ⟨⟨o, q, j⟩, hx⟩ : ∃ x, (places a.orbits)[k]? = some x := ⟨_, List.getElem?_eq_getElem hlt⟩
    obtain ⟨f, h1, h2⟩ := hK.sat k o q j hx
    refine ⟨f, h1, fun _ => ?_⟩
    obtain ⟨u, _, hu⟩ := h2 t
    have ha := halt o (places_orbit (List.mem_of_getElem? hx)).1
    rw [hu, track_len (by linarith), radius, propEarthRad]
    linarith
  · obtain ⟨j, rfl⟩ := Nat.exists_eq_add_of_le (Nat.le_of_not_lt hlt)
    have hj : j < X.ground.length := by omega
    obtain ⟨v, hv, _⟩ := B.surface X.ground[j] (List.getElem_mem hj)
    exact ⟨_, hK.gnd j v (by rw [List.getElem?_eq_getElem hj, hv]), fun h => absurd h hlt⟩

open Classical in
/-- **C91**: after any traffic, when nothing is in flight, a packet sent by the device of node `j` on the ground/space network is
received exactly once by every node on the other side that is within the slant range for the mask of the link settings at
that time, if the packet is for it; by nobody else. -/
theorem C91_ground_space_packet {junk : ℝ} {a : ExampleArgs} {p : Preset} (hp : p ∈ presets) (hn : a.constellation = p.name)
    (ho : ∀ o ∈ a.orbits, Installable o) (halt : ∀ o ∈ a.orbits, 0.001 ≤ o.alt)
    (hm : 2 * (places a.orbits).length + a.lonGws * a.latGws % 2 ^ 32 + 2 < 2 ^ 48) {s : Sys}
    (h0 : Initial s) {X : ExampleNet} (h : exampleMain junk a s = .ok X) {K : Sky} (hK : SkyOf a X K) {E : Env} (hE : ErrorFree E)
    {ops : List Op} (ht : ∀ op ∈ ops, PlainTraffic op) {s1 : Sys} (hx : exec (K.env E) X.build.sys ops = .ok s1) (hq : s1.pending = [])
    {j : Nat} (hj : j < (places a.orbits).length + X.ground.length) {q : Bytes} (hlen : q.length ≤ 1492) {proto : UInt16} {m : Mac48} :
    ∃ n s2, exec (K.env E) s1 (.send j q (.mac m) proto :: List.replicate n .run) = .ok s2 ∧ s2.pending = [] ∧
      ∀ x : Nat, upcallLog x s2.log = upcallLog x s1.log ++
        if x < (places a.orbits).length + X.ground.length ∧ Across (places a.orbits).length j x ∧ ForMe m (Mac48.ofNat (x + 1)) ∧
          (∃ f g, K.pos j = some f ∧ K.pos x = some g ∧ InSlantRange p.elev (f s1.now) (g s1.now)) then
          [(q, proto, Mac48.ofNat (j + 1))] else [] := by
  have B := built_of hp hn ho hm h
  obtain ⟨hkept, hchan⟩ := kept_exec ht hx
  obtain ⟨s0, o, hi, hpr, hex⟩ := built_history B h0 ht hx
  have hfit := reached_fit hi hpr hex
  have hmem := built_member B hkept hchan (hfit.index 0)
  have hdev : ∀ k : Nat, k < satCount a + X.ground.length → (s1.dev k).leo = true ∧
      (s1.dev k).side = (if k < satCount a then .sat else .gnd) ∧ (s1.dev k).node = some k ∧ (s1.dev k).addr = Mac48.ofNat (k + 1) ∧
      (s1.dev k).linkUp = true ∧ (s1.dev k).cap = 100 ∧ (s1.dev k).chan = some 0 ∧ (s1.dev k).txPower = p.eirp ∧
      (s1.dev k).rxThreshold = -1000 ∧ (s1.dev k).rxGain = p.rxGain ∧ (s1.dev k).rxLoss = 0 := by
    intro k hk
    obtain ⟨v, hv, d1, d2, d3, d4, d5, d6, d7, d8, d9, d10, d11⟩ := B.dev k hk
    have := hkept k
    rw [hv] at this
    exact ⟨this.leo.trans d1, this.side.trans d2, this.node.trans d3, this.addr.trans d4, this.linkUp.trans d5, this.cap.trans d6,
      this.chan.trans d7, this.txPower.trans d8, this.rxThreshold.trans d9, this.rxGain.trans d10, this.rxLoss.trans d11⟩
  have hN : (places a.orbits).length = satCount a := rfl
  rw [hN] at hj ⊢
  have hpos : ∀ k : Nat, k < satCount a + X.ground.length → ∃ f, K.pos k = some f ∧ (k < satCount a → propEarthRad ≤ (f s1.now).len) :=
    fun k hk => sky_pos B hK halt s1.now hk
  let P : DevId → Vec := fun x => ((K.pos x).map fun f => f s1.now).getD ⟨0, 0, 0⟩
  have hP : ∀ k f, K.pos k = some f → P k = f s1.now := by
    intro k f hk
    simp only [P, hk, Option.map_some, Option.getD_some]
  have hb : K.budget 0 = some ⟨p.elev, p.atm, p.fspl, p.margin⟩ := hK.leo 0 _ B.loss
  obtain ⟨e1, e2⟩ := preset_elev hp
  obtain ⟨w1, w2⟩ := preset_power hp
  obtain ⟨_, dj2, dj3, dj4, dj5, dj6, dj7, dj8, _⟩ := hdev j hj
  have hside : ∀ x : Nat, x < satCount a + X.ground.length → ((s1.dev x).side ≠ (s1.dev j).side ↔ Across (satCount a) j x) := by
    intro x hx
    rw [(hdev x hx).2.1, dj2]
    unfold Across
    by_cases h1 : x < satCount a <;> by_cases h2 : j < satCount a <;> simp [h1, h2] <;> omega
  obtain ⟨n, s2, r1, r2, r3⟩ := C68_ground_space_packet (K := K) (E := E) (P := P) (d := j) (c := 0) (proto := proto) (mac := m)
    (m := ⟨p.elev, p.atm, p.fspl, p.margin⟩) (by simp only; exact_mod_cast (by linarith : (-90 : Rat) < p.elev))
    (by simp only; exact_mod_cast e2) hb
    (fun x hx => by
      obtain ⟨f, hf, _⟩ := hpos x ((hmem x).mp hx)
      exact ⟨x, f, (hdev x ((hmem x).mp hx)).2.2.1, hf, (hP x f hf).symm⟩)
    (fun x hx hne => by
      have hx' := (hmem x).mp hx
      obtain ⟨f, hf, hf2⟩ := hpos x hx'
      obtain ⟨g, hg, hg2⟩ := hpos j hj
      rw [hP j g hg, hP x f hf]
      rcases (hside x hx').mp hne with ⟨h1, _⟩ | ⟨_, h1⟩
      · exact le_max_of_le_left (hg2 h1)
      · exact le_max_of_le_right (hf2 h1))
    hE hi hpr hex hq dj5 (by rw [dj6]; decide) hlen dj7 (by rw [hchan]; exact B.kind) (by rw [dj8]; exact w1)
  refine ⟨n, s2, r1, r2, fun x => ?_⟩
  rw [r3 x, dj4]
  congr 1
  refine if_congr ?_ rfl rfl
  have hjm : (j : DevId) ∈ members 0 s1.log := (hmem j).mpr hj
  rw [hmem x]
  constructor
  · rintro ⟨_, hx1, hx2, hx3, _, _, hx5⟩
    obtain ⟨f, hf, _⟩ := hpos x hx1
    obtain ⟨g, hg, _⟩ := hpos j hj
    rw [hP j g hg, hP x f hf] at hx3
    rw [(hdev x hx1).2.2.2.1] at hx5
    exact ⟨hx1, (hside x hx1).mp hx2, hx5, g, f, hg, hf, hx3⟩
  · rintro ⟨hx1, hx2, hx5, g, f, hg, hf, hx3⟩
    obtain ⟨v1, _, _, v4, _, _, _, _, v9, v10, v11⟩ := hdev x hx1
    refine ⟨hjm, hx1, (hside x hx1).mpr hx2, ?_, ?_, ?_, ?_⟩
    · rw [hP j g hg, hP x f hf]; exact hx3
    · rintro rfl
      unfold Across at hx2
      omega
    · rw [v9, effectivePower, v1, dj8]
      simp only
      rw [v10, v11]
      exact w2
    · rw [v4]; exact hx5

theorem ofNat_ne_broadcast {n : Nat} (h : n < 2 ^ 48 - 1) : (Mac48.ofNat n).bytes ≠ [0xff, 0xff, 0xff, 0xff, 0xff, 0xff] := by
  intro hb
  have e : Mac48.ofNat n = Mac48.broadcast := by
    generalize Mac48.ofNat n = m at hb
    obtain ⟨b0, b1, b2, b3, b4, b5⟩ := m
    simp only [Mac48.bytes, List.cons.injEq, and_true] at hb
    obtain ⟨rfl, rfl, rfl, rfl, rfl, rfl⟩ := hb
    rfl
  have := congrArg Mac48.toNat e
  rw [Mac48.toNat_ofNat (by omega)] at this
  have h2 : Mac48.broadcast.toNat = 2 ^ 48 - 1 := by decide
  omega

open Classical in
/-- **C91**: after any traffic, when nothing is in flight, a packet sent by satellite `j` on the inter-satellite network to the broadcast
address or the address of a satellite is received exactly once by every satellite it is addressed to that is elsewhere and not
hidden by the Earth at that time; by nobody else. -/
theorem C91_isl_packet {junk : ℝ} {a : ExampleArgs} {p : Preset} (hp : p ∈ presets) (hn : a.constellation = p.name)
    (hisl : a.islEnabled = true) (ho : ∀ o ∈ a.orbits, Installable o) (halt : ∀ o ∈ a.orbits, 0.001 ≤ o.alt)
    (hm : 2 * (places a.orbits).length + a.lonGws * a.latGws % 2 ^ 32 + 2 < 2 ^ 48 - 1) {s : Sys}
    (h0 : Initial s) {X : ExampleNet} (h : exampleMain junk a s = .ok X) {K : Sky} (hK : SkyOf a X K) {E : Env} (hE : ErrorFree E)
    {ops : List Op} (ht : ∀ op ∈ ops, PlainTraffic op) {s1 : Sys} (hx : exec (K.env E) X.build.sys ops = .ok s1) (hq : s1.pending = [])
    {base j : Nat} (hbase : base = (places a.orbits).length + X.ground.length) (hj : j < (places a.orbits).length)
    {q : Bytes} (hlen : q.length ≤ 1492) {proto : UInt16} {m : Mac48}
    (hdest : m = Mac48.broadcast ∨ ∃ k, k < (places a.orbits).length ∧ m = Mac48.ofNat (base + k + 1)) :
    ∃ n s2, exec (K.env E) s1 (.send (base + j) q (.mac m) proto :: List.replicate n .run) = .ok s2 ∧ s2.pending = [] ∧
      ∀ x : Nat, upcallLog x s2.log = upcallLog x s1.log ++
        if ∃ k f g, k < (places a.orbits).length ∧ x = base + k ∧ k ≠ j ∧ (m = Mac48.broadcast ∨ m = Mac48.ofNat (base + k + 1)) ∧
          K.pos j = some f ∧ K.pos k = some g ∧ f s1.now ≠ g s1.now ∧ ¬ Obstructed islEarthRad (f s1.now) (g s1.now) then
          [(q, proto, Mac48.ofNat (base + j + 1))] else [] := by
  have B := built_of hp hn ho (by unfold satCount; omega) h
  obtain ⟨hkept, hchan⟩ := kept_exec ht hx
  obtain ⟨s0, o, hi, hpr, hex⟩ := built_history B h0 ht hx
  obtain ⟨b1, b2, b3, b4⟩ := B.isl hisl
  have hN : (places a.orbits).length = satCount a := rfl
  have hG : satCount a + X.ground.length + satCount a < 2 ^ 48 - 1 := by
    obtain ⟨g, _, hgl, hgr⟩ := B.ground
    have : X.ground.length = a.lonGws * a.latGws % 2 ^ 32 + 2 := by rw [hgr]; simp [hgl]
    rw [hN] at hm
    omega
  rw [hN] at hj hdest hbase ⊢
  rw [← hbase] at b1 b4 hG
  have hdev : ∀ k : Nat, k < satCount a → (s1.dev (base + k)).leo = false ∧ (s1.dev (base + k)).node = some k ∧
      (s1.dev (base + k)).addr = Mac48.ofNat (base + k + 1) ∧ (s1.dev (base + k)).linkUp = true ∧ (s1.dev (base + k)).cap = 100 ∧
      (s1.dev (base + k)).chan = some 1 ∧ (s1.dev (base + k)).txPower = 1 ∧ (s1.dev (base + k)).rxThreshold = -1000 := by
    intro k hk
    obtain ⟨v, hv, d1, d2, d3, d4, d5, d6, d7, d8⟩ := b4 k hk
    have := hkept (base + k)
    rw [hv] at this
    exact ⟨this.leo.trans d1, this.node.trans d2, this.addr.trans d3, this.linkUp.trans d4, this.cap.trans d5,
      this.chan.trans d6, this.txPower.trans d7, this.rxThreshold.trans d8⟩
  have hch : s1.chan 1 = ⟨.isl, List.range' base (satCount a), [], []⟩ := by rw [hchan, b2, b1]
  have hb : K.budget 1 = none := hK.isl 1 b3
  have hpos : ∀ k : Nat, k < satCount a → ∃ f, K.pos k = some f ∧ propEarthRad ≤ (f s1.now).len := by
    intro k hk
    obtain ⟨f, h1, h2⟩ := sky_pos B hK halt s1.now (k := k) (by omega)
    exact ⟨f, h1, h2 hk⟩
  obtain ⟨_, dj2, dj3, dj4, dj5, dj6, dj7, dj8⟩ := hdev j hj
  have hears : ∀ k : Nat, k < satCount a → ∀ m', (m' = Mac48.broadcast ∨ m' = Mac48.ofNat (base + k + 1)) →
      (Hears (K.env E) s1 1 (base + j) m' (base + k) ↔ k ≠ j ∧ ∃ f g, K.pos j = some f ∧ K.pos k = some g ∧ f s1.now ≠ g s1.now ∧
        ¬ Obstructed islEarthRad (f s1.now) (g s1.now)) := by
    intro k hk m' hm'
    obtain ⟨f, hf, hfl⟩ := hpos j hj
    obtain ⟨g, hg, hgl⟩ := hpos k hk
    obtain ⟨k1, k2, k3, _, _, _, _, k8⟩ := hdev k hk
    rw [hears_los hf hg dj2 k2 hb (by rw [dj7]; norm_num)]
    have hisR : islEarthRad ≤ (f s1.now).len := by
      refine le_trans ?_ hfl
      rw [islEarthRad, propEarthRad]; norm_num
    constructor
    · rintro ⟨hl, hne, _, _⟩
      refine ⟨fun e => hne (by rw [e]), f, g, hf, hg, ?_⟩
      by_cases he : f s1.now = g s1.now
      · rw [he, (C48_coincident _ 0).1] at hl; cases hl
      · exact ⟨he, (C48_line_of_sight he (Or.inl hisR)).mp hl⟩
    · rintro ⟨hne, f', g', hf', hg', h1, h2⟩
      rw [hf] at hf'; injection hf' with hf'; subst hf'
      rw [hg] at hg'; injection hg' with hg'; subst hg'
      refine ⟨(C48_line_of_sight h1 (Or.inl hisR)).mpr h2, fun e => hne (Nat.add_left_cancel e).symm, ?_, ?_⟩
      · rw [k8, effectivePower, k1, dj7]
        norm_num
      · rw [k3]
        rcases hm' with rfl | rfl
        · exact Or.inl rfl
        · exact Or.inr (Or.inl rfl)
  rcases hdest with rfl | ⟨k, hk, rfl⟩
  · obtain ⟨n, s2, r1, r2, r3⟩ := C63_isl_broadcast (E := K.env E) (d := base + j) (c := 1) (proto := proto) (by exact hE) hi hpr hex hq dj4
      (by rw [dj5]; decide) hlen dj6 (by rw [hch]) (by rw [hch]; exact List.nodup_range' ..)
      (by
        intro y hy
        rw [hch] at hy
        obtain ⟨i, hi, rfl⟩ := List.mem_range'.mp hy
        rw [Nat.one_mul, (hdev i hi).2.2.1]
        exact ofNat_ne_broadcast (by omega))
    refine ⟨n, s2, r1, r2, fun x => ?_⟩
    rw [r3 x, dj3]
    congr 1
    refine if_congr ?_ rfl rfl
    rw [hch]
    simp only [List.mem_range', Nat.one_mul]
    constructor
    · rintro ⟨⟨i, hi, rfl⟩, hh⟩
      obtain ⟨h1, f, g, h2, h3, h4, h5⟩ := (hears i hi _ (Or.inl rfl)).mp hh
      exact ⟨i, f, g, hi, rfl, h1, by simp, h2, h3, h4, h5⟩
    · rintro ⟨i, f, g, hi, rfl, h1, _, h2⟩
      exact ⟨⟨i, hi, rfl⟩, (hears i hi _ (Or.inl rfl)).mpr ⟨h1, f, g, h2⟩⟩
  · obtain ⟨n, s2, r1, r2, r3⟩ := C63_isl_unicast (E := K.env E) (d := base + j) (c := 1) (proto := proto) (i := k) (dst := base + k)
      (by exact hE) hi hpr hex hq dj4 (by rw [dj5]; decide) hlen dj6 (by rw [hch])
      (by rw [hch]; simp only; rw [List.getElem?_range' hk, Nat.one_mul]) (hdev k hk).2.2.1
    refine ⟨n, s2, r1, r2, fun x => ?_⟩
    rw [r3 x, dj3]
    congr 1
    refine if_congr ?_ rfl rfl
    rw [hears k hk _ (Or.inr rfl)]
    constructor
    · rintro ⟨rfl, h1, f, g, h2⟩
      exact ⟨k, f, g, hk, rfl, h1, Or.inr rfl, h2⟩
    · rintro ⟨i, f, g, hi, rfl, h1, h3, h2⟩
      have hik : i = k := by
        rcases h3 with h3 | h3
        · exact absurd (congrArg Mac48.bytes h3) (ofNat_ne_broadcast (by omega))
        · have := Mac48.ofNat_inj (by omega) (by omega) h3
          omega
      subst hik
      exact ⟨rfl, h1, f, g, h2⟩

/-! ### Service -/

theorem reported_after {prec n u : Nat} (hp : 2 ≤ prec) (h : Reported prec (n * prec + 1) u) : u = n * prec := by
  unfold Reported at h
  rw [if_neg (by omega)] at h
  obtain ⟨⟨c, rfl⟩, h1, h2⟩ := h
  have e : c = n := by
    by_contra hne
    rcases Nat.lt_or_gt_of_ne hne with hlt | hgt
    · have := Nat.mul_le_mul_left prec (show c + 1 ≤ n by omega)
      rw [Nat.mul_comm n prec] at h2
      rw [Nat.mul_add, Nat.mul_one] at this
      omega
    · have := Nat.mul_le_mul_left prec (show n + 1 ≤ c by omega)
      rw [Nat.mul_comm n prec] at h1
      rw [Nat.mul_add, Nat.mul_one] at this
      omega
  rw [e, Nat.mul_comm]

/-- **C91**: a station between the turning points of an orbit whose slant range covers half the spacing of its satellites has one of
them in range at least once in every `planes`-th of a day, according to the positions reported. -/
theorem C91_service {a : ExampleArgs} {X : ExampleNet} {K : Sky} (hK : SkyOf a X K) (ho : ∀ o ∈ a.orbits, Installable o)
    {o : OrbitRec} (hmem : o ∈ a.orbits) (hs : 2 ≤ o.sats) (halt : 0.001 ≤ o.alt) (hp2 : 2 ≤ a.prec.toNat) (hp7 : 7 * a.prec.toNat ≤ day)
    {j : Nat} {g : Vec} (hg : X.ground[j]? = some (some g)) (hgl : g.len ≤ radius o) (hlat : |latOf g| ≤ tilt (rad o.inc))
    {e x : ℝ} (hx0 : 0 ≤ x)
    (hx : radius o ^ 2 + g.len ^ 2 -
      2 * radius o * g.len * ((1 - (2 * Real.pi * a.prec.toNat / day) ^ 2) * cos (Real.pi / o.sats)) ≤ x ^ 2)
    (hr : x ≤ slantRange propEarthRad (radius o) |sin (rad e)|) (n0 : Nat) :
    ∃ n i : Nat, ∃ f f', n0 ≤ n ∧ n * a.prec.toNat ≤ n0 * a.prec.toNat + day / o.planes ∧ i < (places a.orbits).length ∧
      K.pos i = some f ∧ K.pos ((places a.orbits).length + j) = some f' ∧
      InSlantRange e (f' (n * a.prec.toNat + 1)) (f (n * a.prec.toNat + 1)) := by
  obtain ⟨i1, i2, i3, i4, i5⟩ := ho o hmem
  obtain ⟨n, p, k, a1, a2, a3, a4, a5⟩ := C84_regular_passes (h := 6371.009 + o.alt) (by linarith) i1 hs hlat 0 (w := a.prec.toNat)
    (by omega) hp7 n0
  have hpl : (o, p, k) ∈ places a.orbits := by
    simp only [places, List.mem_flatMap, List.mem_map, List.mem_range]
    exact ⟨o, hmem, p, a3, k, a4, rfl⟩
  obtain ⟨i, hi, he⟩ := List.mem_iff_getElem.mp hpl
  obtain ⟨f, hf, hrep⟩ := hK.sat i o p k (by rw [List.getElem?_eq_getElem hi, he])
  obtain ⟨u, hu, hfu⟩ := hrep (n * a.prec.toNat + 1)
  have hu' := reported_after hp2 hu
  refine ⟨n, i, f, _, a1, a2, hi, hf, hK.gnd j g hg, ?_⟩
  have hpos : f (n * a.prec.toNat + 1) = Orbit.position ⟨6371.009 + o.alt, rad o.inc, 2 * Real.pi * p / o.planes, 2 * Real.pi * k / o.sats⟩
      (0 + n * a.prec.toNat) := by
    rw [hfu, hu', ← track_eq (x := (o, p, k)) i5, Nat.zero_add]
    have : o.inc / 180 * Real.pi = rad o.inc := by unfold rad; ring
    simp only [orbitOf, earthRadKm, this]
    norm_num
  rw [← hpos] at a5
  have hl : (f (n * a.prec.toNat + 1)).len = radius o := by rw [hfu]; exact track_len i5.le _
  have hmax : max g.len (f (n * a.prec.toNat + 1)).len = radius o := by rw [hl]; exact max_eq_right hgl
  have hrad : radius o = (6371.009 + o.alt) * 1000 := rfl
  rw [slant_range_iff (by rw [hmax, hrad, propEarthRad]; linarith), hmax, dist_comm']
  refine le_trans ?_ hr
  rw [hrad] at hx
  exact le_of_sq_le_sq (a5.trans hx) hx0

theorem location_len (x y : ℝ) : (location x y).len = 6371000 := by
  refine len_eq (by norm_num) ?_
  simp only [location, dot]
  have h1 := sin_sq_add_cos_sq (x * (Real.pi / 180))
  have h2 := sin_sq_add_cos_sq (y * (Real.pi / 180))
  have e1 : sin (x * (Real.pi / 180)) ^ 2 = 1 - cos (x * (Real.pi / 180)) ^ 2 := by linarith
  have e2 : sin (y * (Real.pi / 180)) ^ 2 = 1 - cos (y * (Real.pi / 180)) ^ 2 := by linarith
  ring_nf
  ring_nf at e1 e2
  rw [e1, e2]
  ring

theorem location_lat {x : ℝ} (h1 : -90 ≤ x) (h2 : x ≤ 90) (y : ℝ) : latOf (location x y) = rad x := by
  have hpi := Real.pi_pos
  unfold latOf
  rw [location_len]
  simp only [location, rad]
  rw [mul_div_cancel_left₀ _ (by norm_num), Real.arcsin_sin (by nlinarith) (by nlinarith)]

theorem sin_twenty : 0.33 ≤ sin (rad 20) ∧ sin (rad 20) ≤ 0.35 := by
  have h1 := Real.pi_gt_d2
  have h2 := Real.pi_lt_d2
  have e : rad 20 = Real.pi / 9 := by unfold rad; ring
  rw [e]
  constructor
  · have := Real.sin_gt_sub_cube (x := Real.pi / 9) (by linarith)
    have h3 : Real.pi / 9 ≤ 0.35 := by linarith
    have h4 : 0.348 ≤ Real.pi / 9 := by linarith
    have h5 : (Real.pi / 9) ^ 3 ≤ 0.35 ^ 3 := pow_le_pow_left₀ (by linarith) h3 3
    norm_num at h5 ⊢
    linarith
  · have := Real.sin_le (x := Real.pi / 9) (by linarith)
    linarith

/-- The users of the programs without options: requested at 51.399 degrees north, 10.536 east and 40.76 north, 73.96 west
(examples/leo-delay-tracing-example.cc:93-94). -/
noncomputable def defaultArgs (isl : Bool) : ExampleArgs :=
  ⟨1000000000, [⟨1200, 20, 32, 16⟩, ⟨1180, 30, 12, 10⟩], 20, 20, ⟨51.399, 10.536⟩, ⟨40.76, -73.96⟩, "TelesatGateway", isl⟩

/-- The built-in orbits are those of the tracing program (the same three lines in all programs). -/
theorem C91_default_orbits (isl : Bool) (mem : Nat → Char × Char × Char) : (defaultArgs isl).orbits = tracingOrbits mem none := rfl

theorem default_installable (isl : Bool) : ∀ o ∈ (defaultArgs isl).orbits, Installable o ∧ 0.001 ≤ o.alt := by
  intro o ho
  simp only [defaultArgs, List.mem_cons, List.not_mem_nil, or_false] at ho
  rcases ho with rfl | rfl <;> exact ⟨⟨by norm_num, by norm_num, by norm_num, by norm_num, by norm_num⟩, by norm_num⟩

theorem default_count (isl : Bool) : (places (defaultArgs isl).orbits).length = 632 := by
  simp [defaultArgs, places]

theorem rad_mem {x y : ℝ} (h1 : -y ≤ x) (h2 : x ≤ y) : -rad y ≤ rad x ∧ rad x ≤ rad y := by
  have := Real.pi_pos
  unfold rad
  constructor <;> nlinarith

theorem default_chord : radius ⟨1200, 20, 32, 16⟩ ^ 2 + 6371000 ^ 2 -
    2 * radius ⟨1200, 20, 32, 16⟩ * 6371000 * ((1 - (2 * Real.pi * ((1000000000 : Nat) : ℝ) / (day : ℝ)) ^ 2) * cos (Real.pi / (16 : Nat))) ≤
      2000000 ^ 2 := by
  have hpi0 := Real.pi_pos
  have hpi := Real.pi_lt_d2
  rw [radius]
  have hc := Real.one_sub_sq_div_two_le_cos (x := Real.pi / (16 : Nat))
  have hb : (Real.pi / (16 : Nat)) ^ 2 ≤ 0.04 := by
    push_cast
    have : Real.pi / 16 ≤ 0.2 := by linarith
    have h0 : 0 ≤ Real.pi / 16 := by positivity
    nlinarith
  have hdd : (2 * Real.pi * ((1000000000 : Nat) : ℝ) / (day : ℝ)) = 2 * Real.pi / 86400 := by
    unfold day; push_cast; ring
  have hd : (2 * Real.pi / 86400) ^ 2 ≤ 1e-7 := by
    have : 2 * Real.pi / 86400 ≤ 0.0001 := by linarith
    have h0 : 0 ≤ 2 * Real.pi / 86400 := by positivity
    nlinarith
  rw [hdd]
  have hc' : 0.979 ≤ (1 - (2 * Real.pi / 86400) ^ 2) * cos (Real.pi / (16 : Nat)) := by
    have := Real.cos_le_one (Real.pi / (16 : Nat))
    nlinarith
  generalize (1 - (2 * Real.pi / 86400) ^ 2) * cos (Real.pi / (16 : Nat)) = c at hc' ⊢
  norm_num at hc' ⊢
  linarith

theorem default_range : (2000000 : ℝ) ≤ slantRange propEarthRad (radius ⟨1200, 20, 32, 16⟩) |sin (rad 20)| := by
  obtain ⟨h1, h2⟩ := sin_twenty
  have hs : |sin (rad 20)| ≤ 0.35 := by rw [abs_of_nonneg (by linarith)]; exact h2
  rw [radius, ← slant_dist (by norm_num) (abs_nonneg _) (by norm_num) (by rw [propEarthRad]; norm_num), propEarthRad]
  norm_num at hs ⊢
  linarith

/-- **C91**: without options both users have a satellite in range at least once every 45 minutes. -/
theorem C91_default_users_served {isl : Bool} {junk : ℝ} {s : Sys} {X : ExampleNet} (h : exampleMain junk (defaultArgs isl) s = .ok X) {K : Sky}
    (hK : SkyOf (defaultArgs isl) X K) {user : Nat} (hu : user = 632 + 400 ∨ user = 632 + 401) (n0 : Nat) :
    ∃ n i : Nat, ∃ f g, n0 ≤ n ∧ n ≤ n0 + 45 * 60 ∧ i < 632 ∧ K.pos i = some f ∧ K.pos user = some g ∧
      InSlantRange 20 (g (n * 1000000000 + 1)) (f (n * 1000000000 + 1)) := by
  have hpi0 := Real.pi_pos
  have hpi := Real.pi_lt_d2
  obtain ⟨Y, e, _, _, hg1, hg2, _⟩ := C91_builds junk (a := defaultArgs isl) (p := ⟨"TelesatGateway", 105.9, 20, 189.3, 4.8, 0.36, 9857.1, 31.8⟩)
    (by simp [presets]) rfl (fun o ho => (default_installable isl o ho).1) (by rw [default_count]; simp [defaultArgs]) s
  rw [h] at e
  injection e with e
  subst e
  have hser : ∀ j lat lon, X.ground[j]? = some (some (location lat lon)) → -20 ≤ lat → lat ≤ 20 →
      ∃ n i : Nat, ∃ f g, n0 ≤ n ∧ n ≤ n0 + 45 * 60 ∧ i < 632 ∧ K.pos i = some f ∧ K.pos (632 + j) = some g ∧
        InSlantRange 20 (g (n * 1000000000 + 1)) (f (n * 1000000000 + 1)) := by
    intro j lat lon hj l1 l2
    have hprec : (defaultArgs isl).prec.toNat = 1000000000 := rfl
    have := C91_service hK (fun o ho => (default_installable isl o ho).1) (o := ⟨1200, 20, 32, 16⟩) (by simp [defaultArgs]) (by norm_num)
      (by norm_num) (by rw [hprec]; norm_num) (by rw [hprec]; decide) hj (by rw [location_len, radius]; norm_num)
      (by
        rw [location_lat (by linarith) (by linarith), tilt_rad (by norm_num) (by norm_num), abs_le]
        exact rad_mem l1 l2)
      (e := 20) (x := 2000000) (by norm_num) ?_ ?_ n0
    · obtain ⟨n, i, f, g, a1, a2, a3, a4, a5, a6⟩ := this
      rw [default_count] at a3 a5
      rw [hprec] at a2 a6
      refine ⟨n, i, f, g, a1, ?_, a3, a4, a5, a6⟩
      simp only [day] at a2
      omega
    · rw [location_len, hprec]
      exact default_chord
    · exact default_range
  have e400 : (defaultArgs isl).lonGws * (defaultArgs isl).latGws % 2 ^ 32 = 400 := rfl
  rw [e400] at hg1 hg2
  rcases hu with rfl | rfl
  · exact hser _ _ _ hg1 (by norm_num [defaultArgs]) (by norm_num [defaultArgs])
  · exact hser _ _ _ hg2 (by norm_num [defaultArgs]) (by norm_num [defaultArgs])

/-- **C91**: at the place requested for the source no satellite would ever be in range. -/
theorem C91_requested_place_unserved {isl : Bool} {X : ExampleNet} {K : Sky} (hK : SkyOf (defaultArgs isl) X K) {i : Nat} (hi : i < 632)
    {f : Time → Vec} (hf : K.pos i = some f) (t : Nat) (lon : ℝ) : ¬ InSlantRange 20 (location 51.399 lon) (f t) := by
  have hpi0 := Real.pi_pos
  have hpi := Real.pi_lt_d2
  have hpi' := Real.pi_gt_d2
  obtain ⟨⟨o, p, k⟩, hx⟩ : ∃ x, (places (defaultArgs isl).orbits)[i]? = some x :=
    ⟨_, List.getElem?_eq_getElem (by rw [default_count]; exact hi)⟩
  obtain ⟨f', hf', hrep⟩ := hK.sat i o p k hx
  rw [hf] at hf'
  injection hf' with hf'
  subst hf'
  obtain ⟨u, _, hu⟩ := hrep t
  have hmem := (places_orbit (List.mem_of_getElem? hx)).1
  simp only [defaultArgs, List.mem_cons, List.not_mem_nil, or_false] at hmem
  have hob : 1180 ≤ o.alt ∧ o.alt ≤ 1200 ∧ 20 ≤ o.inc ∧ o.inc ≤ 30 := by rcases hmem with rfl | rfl <;> norm_num
  obtain ⟨o1, o2, o3, o4⟩ := hob
  have halt : -6371.009 < o.alt := by linarith
  have hinc : tilt (orbitOf (o, p, k)).incl = rad o.inc := by
    rw [← tilt_rad (x := o.inc) (by linarith) (by linarith)]
    congr 1
    simp only [orbitOf, rad]
    ring
  have hc := C83_never_closer (o := orbitOf (o, p, k)) (by simp only [orbitOf, earthRadKm]; linarith) (g := location 51.399 lon)
    (by
      rw [hinc, location_lat (by norm_num) (by norm_num), abs_of_nonneg (by unfold rad; positivity)]
      unfold rad
      nlinarith) u
  rw [hinc, location_lat (by norm_num) (by norm_num), abs_of_nonneg (show 0 ≤ rad 51.399 by unfold rad; positivity), location_len,
    track_eq halt, ← hu] at hc
  have hh : (orbitOf (o, p, k)).height * 1000 = radius o := by simp only [orbitOf, earthRadKm, radius]; norm_num
  rw [hh] at hc
  have hl : (f t).len = radius o := by rw [hu]; exact track_len halt.le _
  have hrad : radius o = (6371.009 + o.alt) * 1000 := rfl
  have hmax : max (location 51.399 lon).len (f t).len = radius o := by
    rw [hl, location_len, hrad]
    exact max_eq_right (by linarith)
  rw [slant_range_iff (by rw [hmax, hrad, propEarthRad]; linarith), hmax, dist_comm']
  push Not
  refine lt_of_lt_of_le ?_ hc
  have hcos : cos (rad 51.399 - rad o.inc) ≤ 0.94 := by
    have hge : 0.37 ≤ rad 51.399 - rad o.inc := by unfold rad; nlinarith
    have hle : rad 51.399 - rad o.inc ≤ Real.pi := by unfold rad; nlinarith
    have h1 := Real.cos_le_cos_of_nonneg_of_le_pi (by norm_num) hle hge
    have h2 := Real.cos_bound (x := 0.37) (by norm_num [abs_le])
    rw [abs_le] at h2
    norm_num [abs_of_pos] at h2
    norm_num at h1 ⊢
    linarith [h2.2]
  obtain ⟨s1, s2⟩ := sin_twenty
  have hs : |sin (rad 20)| = sin (rad 20) := abs_of_nonneg (by linarith)
  have hr : slantRange propEarthRad (radius o) |sin (rad 20)| < 2500000 := by
    rw [← not_le, ← slant_dist (by rw [hrad]; linarith) (abs_nonneg _) (by norm_num) (by rw [hrad, propEarthRad]; nlinarith), hs, hrad, propEarthRad]
    push Not
    have : 0.33 * (2 * ((6371.009 + o.alt) * 1000) * 2500000) ≤ sin (rad 20) * (2 * ((6371.009 + o.alt) * 1000) * 2500000) :=
      mul_le_mul_of_nonneg_right s1 (by nlinarith)
    nlinarith
  refine lt_trans hr ?_
  unfold chord
  rw [Real.lt_sqrt (by norm_num), hrad]
  have : 2 * ((6371.009 + o.alt) * 1000) * 6371000 * cos (rad 51.399 - rad o.inc) ≤ 2 * ((6371.009 + o.alt) * 1000) * 6371000 * 0.94 :=
    mul_le_mul_of_nonneg_left hcos (by linarith)
  nlinarith

/-! ### The hypotheses are met -/

/-- There are motions as described; with the speed of light, delays rounded down to nanoseconds, and satellites reported at the same place
until the next multiple of the precision. -/
theorem sky_exists (a : ExampleArgs) (X : ExampleNet) : ∃ K, SkyOf a X K ∧ K.speed = 299792458 ∧ K.ofSeconds = (fun x => ⌊x * 1000000000⌋₊) ∧
    ∀ (i : Nat) f, i < (places a.orbits).length → K.pos i = some f → ∀ t u : Nat, a.prec.toNat ≠ 0 → t / a.prec.toNat = u / a.prec.toNat →
      f t = f u := by
  let at' : Nat → Nat := fun t => if a.prec.toNat = 0 then t else t / a.prec.toNat * a.prec.toNat
  refine ⟨⟨fun n => match (places a.orbits)[n]? with
      | some x => some fun t => track x.1 x.2.1 x.2.2 ((at' t : Nat) / 1000000000)
      | none => (X.ground[n - (places a.orbits).length]?).join.map fun v _ => v,
    fun c => match X.build.lossOf c with
      | some (.leo l) => some ⟨l.elev, l.atm, l.fspl, l.margin⟩
      | _ => none, 299792458, fun x => ⌊x * 1000000000⌋₊⟩, ⟨?_, ?_, ?_, ?_⟩, rfl, rfl, ?_⟩
  · intro i o p k hi
    refine ⟨_, by simp only [hi], fun t => ⟨at' t, ?_, rfl⟩⟩
    unfold Reported
    split
    · rename_i h; simp [at', h]
    · rename_i h
      simp only [at', h, if_false]
      refine ⟨Nat.dvd_mul_left _ _, Nat.div_mul_le_self _ _, ?_⟩
      have := Nat.div_add_mod t a.prec.toNat
      have h2 := Nat.mod_lt t (Nat.pos_of_ne_zero h)
      rw [Nat.mul_comm] at this
      omega
  · intro j v hj
    have : (places a.orbits)[(places a.orbits).length + j]? = none := List.getElem?_eq_none (Nat.le_add_right _ _)
    simp only [this, Nat.add_sub_cancel_left, hj, Option.join_some, Option.map_some]
  · intro c l h
    simp only [h]
  · intro c h
    simp only [h]
  · intro i f hi hf t u hp htu
    simp only [List.getElem?_eq_getElem hi, Option.some.injEq] at hf
    subst hf
    simp only [at', hp, if_false, htu]

/-- The programs without options build their network, and there is a time at which a broadcast packet of the source reaches some
satellite. -/
example : ∃ X K s1 s2, ∃ n i : Nat, exampleMain 0 (defaultArgs true) Demo.sys = .ok X ∧ SkyOf (defaultArgs true) X K ∧
    exec (K.env Demo.env) X.build.sys [.wait n] = .ok s1 ∧ s1.pending = [] ∧ i < 632 ∧
    (∃ m, exec (K.env Demo.env) s1 (.send (632 + 400) [1, 2, 3] (.mac Mac48.broadcast) 0x800 :: List.replicate m .run) = .ok s2) ∧
    upcallLog i s2.log = upcallLog i s1.log ++ [([1, 2, 3], 0x800, Mac48.ofNat (632 + 400 + 1))] := by
  have hp : (⟨"TelesatGateway", 105.9, 20, 189.3, 4.8, 0.36, 9857.1, 31.8⟩ : Preset) ∈ presets := by simp [presets]
  have hi := fun o ho => (default_installable true o ho).1
  have ha := fun o ho => (default_installable true o ho).2
  have hm : 2 * (places (defaultArgs true).orbits).length + (defaultArgs true).lonGws * (defaultArgs true).latGws % 2 ^ 32 + 2 < 2 ^ 48 := by
    rw [default_count]; simp [defaultArgs]
  obtain ⟨X, hX, _, hG, _⟩ := C91_builds 0 hp rfl hi hm Demo.sys
  obtain ⟨K, hK, _⟩ := sky_exists (defaultArgs true) X
  obtain ⟨is, hr⟩ := (built_of hp rfl hi (by unfold satCount; exact hm) hX).run
  obtain ⟨s0, o, h0, hat, hex, _⟩ := C62_helper_network_is_history Demo.sys_initial hr
  obtain ⟨hpe, _⟩ := attached_only h0 (fun op hop => by
    obtain ⟨d, c, e, _⟩ := hat op hop
    exact ⟨d, c, e⟩) (hex (K.env Demo.env))
  obtain ⟨n, i, f, g, a1, a2, a3, a4, a5, a6⟩ := C91_default_users_served hX hK (Or.inl rfl) X.build.sys.now
  obtain ⟨dt, hdt⟩ := Nat.exists_eq_add_of_le (show (X.build.sys.now : Nat) ≤ n * 1000000000 + 1 by
    have : n ≤ n * 1000000000 := Nat.le_mul_of_pos_right n (by norm_num)
    exact Nat.le_trans a1 (Nat.le_trans this (Nat.le_add_right _ _)))
  have hw : exec (K.env Demo.env) X.build.sys [.wait dt] = .ok { X.build.sys with now := X.build.sys.now + dt } := by
    simp only [exec, step, hpe]
    rfl
  have hG' : X.ground.length = 402 := hG
  obtain ⟨m, s2, r1, _, r3⟩ := C91_ground_space_packet hp rfl hi ha hm Demo.sys_initial hX hK (E := Demo.env) (fun _ _ _ _ => rfl)
    (ops := [.wait dt]) (by simp [PlainTraffic]) hw hpe (j := 632 + 400) (by rw [default_count, hG']; norm_num) (q := [1, 2, 3]) (by decide)
    (proto := 0x800) (m := Mac48.broadcast)
  refine ⟨X, K, _, s2, dt, i, hX, hK, hw, hpe, a3, ⟨m, r1⟩, ?_⟩
  have := r3 i
  rw [default_count, if_pos] at this
  · exact this
  · refine ⟨by omega, Or.inr ⟨by omega, a3⟩, Or.inl rfl, g, f, a5, a4, ?_⟩
    have e : (X.build.sys.now + dt : Nat) = n * 1000000000 + 1 := hdt.symm
    simp only
    rw [e]
    exact_mod_cast a6

/-- Satellites 0 and 1 of the programs without options see each other, so a packet sent from one to the other one nanosecond after the
start meets the condition of `C91_isl_packet`. -/
example {X : ExampleNet} {K : Sky} (hK : SkyOf (defaultArgs true) X K) :
    ∃ f g, K.pos 0 = some f ∧ K.pos 1 = some g ∧ f 1 ≠ g 1 ∧ ¬ Obstructed islEarthRad (f 1) (g 1) := by
  have hx0 : (places (defaultArgs true).orbits)[0]? = some (⟨1200, 20, 32, 16⟩, 0, 0) := rfl
  have hx1 : (places (defaultArgs true).orbits)[1]? = some (⟨1200, 20, 32, 16⟩, 0, 1) := rfl
  obtain ⟨f, hf, hf'⟩ := hK.sat 0 _ _ _ hx0
  obtain ⟨g, hg, hg'⟩ := hK.sat 1 _ _ _ hx1
  obtain ⟨u, hu, eu⟩ := hf' 1
  obtain ⟨v, hv, ev⟩ := hg' 1
  have hprec : (defaultArgs true).prec.toNat = 1000000000 := rfl
  have zero : ∀ w, Reported (defaultArgs true).prec.toNat 1 w → w = 0 := by
    intro w hw
    have := reported_after (n := 0) (prec := 1000000000) (by norm_num) (by rw [Nat.zero_mul, Nat.zero_add, ← hprec]; exact hw)
    rw [this, Nat.zero_mul]
  rw [zero u hu, ← track_eq (x := (⟨1200, 20, 32, 16⟩, 0, 0)) (by norm_num)] at eu
  rw [zero v hv, ← track_eq (x := (⟨1200, 20, 32, 16⟩, 0, 1)) (by norm_num)] at ev
  have hr := (C67_ring (h := 6371.009 + 1200) (i := 20 / 180 * Real.pi) (l := 0) (S := 16) (by norm_num [islEarthRad]) (by norm_num) (k := 0)
    (by norm_num) 0).mpr (by
      have hc := Real.one_sub_sq_div_two_le_cos (x := Real.pi / (16 : Nat))
      have hpi := Real.pi_lt_d2
      have hpi0 := Real.pi_pos
      have hb : (Real.pi / (16 : Nat)) ^ 2 ≤ 0.04 := by
        push_cast
        have : Real.pi / 16 ≤ 0.2 := by linarith
        have h0 : 0 ≤ Real.pi / 16 := by positivity
        nlinarith
      norm_num at hb hc ⊢
      linarith)
  have e0 : orbitOf (⟨1200, 20, 32, 16⟩, 0, 0) = ⟨6371.009 + 1200, 20 / 180 * Real.pi, 0, 2 * Real.pi * (0 : Nat) / (16 : Nat)⟩ := by
    simp only [orbitOf, earthRadKm]; norm_num
  have e1 : orbitOf (⟨1200, 20, 32, 16⟩, 0, 1) = ⟨6371.009 + 1200, 20 / 180 * Real.pi, 0, 2 * Real.pi * ((0 + 1) % 16 : Nat) / (16 : Nat)⟩ := by
    simp only [orbitOf, earthRadKm]; norm_num
  rw [← e0, ← e1, ← eu, ← ev] at hr
  have hne : f 1 ≠ g 1 := by
    intro h
    rw [h, (C48_coincident _ 0).1] at hr
    cases hr
  refine ⟨f, g, hf, hg, hne, (C48_line_of_sight hne (Or.inl ?_)).mp hr⟩
  obtain ⟨w, _, ew⟩ := hf' 1
  rw [ew, track_len (by norm_num), radius, islEarthRad]
  norm_num

end Verif
