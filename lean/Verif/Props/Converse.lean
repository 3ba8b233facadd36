import Verif.Lemmas.Converse
import Verif.Props.FloodExample
/-! # C120: conversations in the example networks -/

namespace Verif
open Real Spec

theorem wait_idle {E : Env} {s : Sys} (h : s.pending = []) (dt : Time) : step E s (.wait dt) = .ok { s with now := s.now + dt } := by
  simp only [step, h]
  rfl

/-- **C120**: in the network of the example programs with inter-satellite links the stations within the band of a dense constellation can
talk as long as they like, in any turn and with any pauses, although the satellites move all the time and nobody knows where they are: the code above the devices
is the same at all nodes and times, it sends every packet on once to everybody.  No call fails, all activity ends after each packet, every packet gets to all stations
within the band within the time light takes for the legs, however many packets went before, and nobody gets anything else. -/
theorem C120_conversation {junk : ℝ} {a : ExampleArgs} {p : Preset} (hp : p ∈ presets) (hn : a.constellation = p.name)
    (ho : ∀ o ∈ a.orbits, Installable o) (halt : ∀ o ∈ a.orbits, 0.001 ≤ o.alt) (hisl : a.islEnabled = true)
    (hm : 2 * (places a.orbits).length + a.lonGws * a.latGws % 2 ^ 32 + 2 < 2 ^ 40) {s : Sys}
    (h0 : Initial s) {X : ExampleNet} (h : exampleMain junk a s = .ok X) {K : Sky} (hK : SkyOf a X K) {E : Env} (hE : ErrorFree E)
    {v : ℝ} (hv : 0 < v) (hsp : K.speed = v) (hof : ∀ x, 0 ≤ x → (K.ofSeconds x : ℝ) ≤ x * 1000000000 + 1)
    {o : OrbitRec} (hmem : o ∈ a.orbits) (hs : 2 ≤ o.sats) {W : ℝ}
    (hM : Meshed o (2 * (groundRate o * (a.prec.toNat / 1000000000))) W) {δ : ℝ} (hδ : 0 ≤ δ) {D τ : ℝ}
    (hD : D = slantRange propEarthRad (radius o) |sin (rad p.elev)|)
    (hτ0 : 0 ≤ τ) (hτ : (2 * D + (o.planes + o.sats) * W) / v + (o.planes + o.sats) / 1000000000 ≤ τ)
    (hR : ∀ g, some g ∈ X.ground → g.len ≤ radius o ∧
      chord (radius o) g.len (hypotenuse (offTrack (rad o.inc) o.planes δ) (Real.pi / o.sats)) +
        groundRate o * (a.prec.toNat / 1000000000 + τ) ≤ D)
    {ports : NodeId → List DevId} (hports : ports = examplePorts (places a.orbits).length ((places a.orbits).length + X.ground.length))
    {own : NodeId → Bytes → UInt16 → Bool} :
    ∀ (ms : List Talk) (ops : List Op), (∀ op ∈ ops, PlainTraffic op) → ∀ s1, exec (K.env E) X.build.sys ops = .ok s1 → s1.pending = [] →
      (∀ m ∈ ms, m.packet.length ≤ 1492 ∧ (∀ n, own n m.packet m.proto = decide (n = m.src)) ∧
        ∃ (j : Nat) (g : Vec), m.src = (places a.orbits).length + j ∧ X.ground[j]? = some (some g) ∧ |latOf g| ≤ tilt (rad o.inc) + δ) →
      (ms.Pairwise fun x y => ¬ (x.packet = y.packet ∧ x.proto = y.proto)) →
      (∀ m ∈ ms, ∀ e ∈ allUps s1.log, ¬ (e.2.2.1 = m.packet ∧ e.2.2.2.1 = m.proto)) →
      (∃ ts u, Converse (K.env E) (floodOnce own ports) ports s1 ms ts u) ∧
      ∀ ts u, Converse (K.env E) (floodOnce own ports) ports s1 ms ts u → u.pending = [] ∧
        (∃ l, allUps u.log = allUps s1.log ++ l ∧ ∀ e ∈ l, ∃ m ∈ ms, e.2.2.1 = m.packet ∧ e.2.2.2.1 = m.proto) ∧
        List.Forall₂ (fun m t0 => ∀ j g, X.ground[j]? = some (some g) → |latOf g| ≤ tilt (rad o.inc) + δ →
          ∃ t sa, (t, (places a.orbits).length + j, m.packet, m.proto, sa) ∈ allUps u.log ∧ seconds t ≤ seconds t0 + τ) ms ts := by
  intro ms
  induction ms with
  | nil =>
    intro ops _ s1 _ hq _ _ _
    refine ⟨⟨[], s1, .done⟩, fun ts u hc => ?_⟩
    cases hc
    exact ⟨hq, ⟨[], by simp, (fun e he => by cases he)⟩, .nil⟩
  | cons m ms ih =>
    intro ops ht s1 hx hq hms hnd hfr
    obtain ⟨hlen, hown, j, g, hsrc, hg, hb⟩ := hms m List.mem_cons_self
    have hw := wait_idle (E := K.env E) hq m.pause
    have hx' : exec (K.env E) X.build.sys (ops ++ [.wait m.pause]) = .ok { s1 with now := s1.now + m.pause } := by
      rw [exec_append, hx, Outcome.ok_bind]
      simp only [exec, hw, Outcome.ok_bind]
    have ht' : ∀ op ∈ ops ++ [.wait m.pause], PlainTraffic op := by
      intro op hop
      rcases List.mem_append.mp hop with hop | hop
      · exact ht op hop
      · rw [List.mem_singleton] at hop
        subst hop
        trivial
    obtain ⟨k, s2, r1, r2, ⟨l, r3, r4⟩, _, r5⟩ := C119_flood hp hn ho halt hisl hm h0 h hK hE hv hsp hof ht' hx' hq hmem hs hM hδ hD hτ0 hτ hR hg hb hlen
      (hfr m List.mem_cons_self) (own := own) (fun n => by rw [hown n, hsrc]) hports
    rw [← hsrc] at r1
    obtain ⟨ops2, q1, q2⟩ := flooding_plain hlen r1 r3 (fun e he => (r4 e he).1)
    obtain ⟨⟨ts, u, hc⟩, ih2⟩ := ih (ops ++ [.wait m.pause] ++ ops2) (by
        intro op hop
        rcases List.mem_append.mp hop with hop | hop
        · exact ht' op hop
        · exact q2 op hop) s2 (by rw [exec_append, hx', Outcome.ok_bind, q1]) r2 (fun m' hm' => hms m' (List.mem_cons_of_mem _ hm'))
      (List.pairwise_cons.mp hnd).2 (by
        intro m' hm' e he
        rw [r3] at he
        rcases List.mem_append.mp he with he | he
        · exact hfr m' (List.mem_cons_of_mem _ hm') e he
        · rw [(r4 e he).1, (r4 e he).2]
          exact (List.pairwise_cons.mp hnd).1 m' hm')
    refine ⟨⟨_, u, .talk hw r1 r2 hc⟩, fun ts u hc => ?_⟩
    cases hc with
    | @talk _ s' t _ _ _ ts k' hw' hf' hq' hc' =>
      rw [hw] at hw'
      obtain rfl := Outcome.ok.inj hw'
      obtain rfl := flood_unique r1 r2 hf' hq'
      obtain ⟨b1, ⟨l', b2, b3⟩, b4⟩ := ih2 ts u hc'
      refine ⟨b1, ⟨l ++ l', by rw [b2, r3, List.append_assoc], ?_⟩, .cons ?_ b4⟩
      · intro e he
        rcases List.mem_append.mp he with he | he
        · exact ⟨m, List.mem_cons_self, r4 e he⟩
        · obtain ⟨m', hm', hh⟩ := b3 e he
          exact ⟨m', List.mem_cons_of_mem _ hm', hh⟩
      · intro j2 g2 hg2 hb2
        obtain ⟨t, sa, c1, c2⟩ := r5 j2 g2 hg2 hb2
        exact ⟨t, sa, by rw [b2]; exact List.mem_append_left _ c1, c2⟩

/-- **C120** for the shipped Starlink orbits: the stations between 53 degrees north and south can talk as long as they like; each packet
gets to all of them within half a second. -/
theorem C120_starlink {junk : ℝ} {a : ExampleArgs} {p : Preset} (hR : StarlinkRun a p) (hisl : a.islEnabled = true) {s : Sys}
    (h0 : Initial s) {X : ExampleNet} (h : exampleMain junk a s = .ok X) {K : Sky} (hK : SkyOf a X K) {E : Env} (hE : ErrorFree E)
    (hsp : K.speed = 299792458) (hof : ∀ x, 0 ≤ x → (K.ofSeconds x : ℝ) ≤ x * 1000000000 + 1)
    {ops : List Op} (ht : ∀ op ∈ ops, PlainTraffic op) {s1 : Sys} (hx : exec (K.env E) X.build.sys ops = .ok s1) (hq : s1.pending = [])
    {ports : NodeId → List DevId} (hports : ports = examplePorts 4425 (4425 + X.ground.length)) {own : NodeId → Bytes → UInt16 → Bool}
    {ms : List Talk} (hms : ∀ m ∈ ms, m.packet.length ≤ 1492 ∧ (∀ n, own n m.packet m.proto = decide (n = m.src)) ∧
      ∃ (j : Nat) (g : Vec), m.src = 4425 + j ∧ X.ground[j]? = some (some g) ∧ |latOf g| ≤ rad 53)
    (hnd : ms.Pairwise fun x y => ¬ (x.packet = y.packet ∧ x.proto = y.proto))
    (hfresh : ∀ m ∈ ms, ∀ e ∈ allUps s1.log, ¬ (e.2.2.1 = m.packet ∧ e.2.2.2.1 = m.proto)) :
    (∃ ts u, Converse (K.env E) (floodOnce own ports) ports s1 ms ts u) ∧
    ∀ ts u, Converse (K.env E) (floodOnce own ports) ports s1 ms ts u → u.pending = [] ∧
      (∃ l, allUps u.log = allUps s1.log ++ l ∧ ∀ e ∈ l, ∃ m ∈ ms, e.2.2.1 = m.packet ∧ e.2.2.2.1 = m.proto) ∧
      List.Forall₂ (fun m t0 => ∀ j g, X.ground[j]? = some (some g) → |latOf g| ≤ rad 53 →
        ∃ t sa, (t, 4425 + j, m.packet, m.proto, sa) ∈ allUps u.log ∧ seconds t ≤ seconds t0 + 0.5) ms ts := by
  have hi : ∀ o ∈ a.orbits, Installable o := by rw [hR.eq]; exact fun o ho => (starlink_installable o ho).1
  have ha : ∀ o ∈ a.orbits, 0.001 ≤ o.alt := by rw [hR.eq]; exact fun o ho => (starlink_installable o ho).2.1
  have B := built_of hR.preset hR.name hi (hR.count.trans (by norm_num)) h
  have hroom := starlink_room hR.precNat hR.preset hR.mask (τ := 0.5) le_rfl
  have htilt : tilt (rad 53) + 0 = rad 53 := by rw [tilt_rad (by norm_num) (by norm_num), add_zero]
  have hcnt : (places a.orbits).length = 4425 := by rw [hR.eq, starlink_count]
  have := C120_conversation hR.preset hR.name hi ha hisl hR.count h0 h hK hE (by norm_num) hsp hof
    (o := ⟨1150, 53, 32, 50⟩) (by rw [hR.eq]; simp [starlinkOrbits]) (by norm_num) (starlink_meshed hR.precNat) (δ := 0) le_rfl
    (τ := 0.5) rfl (by norm_num) ?_ ?_ (ports := ports) (by rw [hcnt]; exact hports) (own := own) ms ops ht s1 hx hq
    (by rw [htilt, hcnt]; exact hms) hnd hfresh
  · rw [htilt, hcnt] at this
    exact this
  · have h1 := (starlink_range hR.preset hR.mask).2
    norm_num at h1 ⊢
    linarith
  · intro g hg
    obtain ⟨v, e, l⟩ := B.surface _ hg
    injection e with e
    subst e
    rw [l]
    exact ⟨by rw [radius]; norm_num, hroom⟩

/-- **C120** for the programs run with inter-satellite links and no other options: the two users can talk as long as they like, each packet
gets to both within 0.52 seconds. -/
theorem C120_default_users {junk : ℝ} {s : Sys} (h0 : Initial s) {X : ExampleNet}
    (h : exampleMain junk (defaultArgs true) s = .ok X) {K : Sky} (hK : SkyOf (defaultArgs true) X K) {E : Env} (hE : ErrorFree E)
    (hsp : K.speed = 299792458) (hof : ∀ x, 0 ≤ x → (K.ofSeconds x : ℝ) ≤ x * 1000000000 + 1)
    {ops : List Op} (ht : ∀ op ∈ ops, PlainTraffic op) {s1 : Sys} (hx : exec (K.env E) X.build.sys ops = .ok s1) (hq : s1.pending = [])
    {ports : NodeId → List DevId} (hports : ports = examplePorts 632 (632 + 402)) {own : NodeId → Bytes → UInt16 → Bool}
    {ms : List Talk} (hms : ∀ m ∈ ms, m.packet.length ≤ 1492 ∧ (∀ n, own n m.packet m.proto = decide (n = m.src)) ∧
      (m.src = (632 + 400 : Nat) ∨ m.src = (632 + 401 : Nat)))
    (hnd : ms.Pairwise fun x y => ¬ (x.packet = y.packet ∧ x.proto = y.proto))
    (hfresh : ∀ m ∈ ms, ∀ e ∈ allUps s1.log, ¬ (e.2.2.1 = m.packet ∧ e.2.2.2.1 = m.proto)) :
    (∃ ts u, Converse (K.env E) (floodOnce own ports) ports s1 ms ts u) ∧
    ∀ ts u, Converse (K.env E) (floodOnce own ports) ports s1 ms ts u → u.pending = [] ∧
      (∃ l, allUps u.log = allUps s1.log ++ l ∧ ∀ e ∈ l, ∃ m ∈ ms, e.2.2.1 = m.packet ∧ e.2.2.2.1 = m.proto) ∧
      List.Forall₂ (fun m t0 => ∀ j, j = 400 ∨ j = 401 →
        ∃ t sa, (t, 632 + j, m.packet, m.proto, sa) ∈ allUps u.log ∧ seconds t ≤ seconds t0 + 0.52) ms ts := by
  have hp : (⟨"TelesatGateway", 105.9, 20, 189.3, 4.8, 0.36, 9857.1, 31.8⟩ : Preset) ∈ presets := by simp [presets]
  have hi := fun o ho => (default_installable true o ho).1
  have ha := fun o ho => (default_installable true o ho).2
  obtain ⟨Y, e, _, hgr, hg1, hg2, _⟩ := C91_builds junk (a := defaultArgs true) hp rfl hi (by rw [default_count]; simp [defaultArgs]) s
  rw [h] at e
  injection e with e
  subst e
  have e400 : (defaultArgs true).lonGws * (defaultArgs true).latGws % 2 ^ 32 = 400 := rfl
  rw [e400] at hg1 hg2 hgr
  have hprec : (defaultArgs true).prec.toNat = 1000000000 := rfl
  have B := built_of hp rfl hi (by unfold satCount; rw [default_count]; simp [defaultArgs]) h
  have hband : ∀ lat lon : ℝ, -20 ≤ lat → lat ≤ 20 → |latOf (location lat lon)| ≤ tilt (rad 20) + 0 := by
    intro lat lon l1 l2
    rw [location_lat (by linarith) (by linarith), tilt_rad (by norm_num) (by norm_num), abs_le, add_zero]
    exact rad_mem l1 l2
  have hat : ∀ j : Nat, j = 400 ∨ j = 401 → ∃ g, X.ground[j]? = some (some g) ∧ |latOf g| ≤ tilt (rad 20) + 0 := by
    rintro j (rfl | rfl)
    · exact ⟨_, hg1, hband _ _ (by norm_num [defaultArgs]) (by norm_num [defaultArgs])⟩
    · exact ⟨_, hg2, hband _ _ (by norm_num [defaultArgs]) (by norm_num [defaultArgs])⟩
  have := C120_conversation hp rfl hi ha rfl (by rw [default_count]; simp [defaultArgs]) h0 h hK hE (by norm_num) hsp hof
    (o := ⟨1200, 20, 32, 16⟩) (by simp [defaultArgs]) (by norm_num) (W := 3010000) (by rw [hprec]; exact default_meshed) (δ := 0) le_rfl
    (τ := 0.52) rfl (by norm_num) ?_ ?_ (ports := ports) (by rw [default_count, hgr]; exact hports) (own := own) ms ops ht s1 hx hq
    (by
      intro m hm
      obtain ⟨m1, m2, m3⟩ := hms m hm
      refine ⟨m1, m2, ?_⟩
      rw [default_count]
      rcases m3 with m3 | m3
      · obtain ⟨g, g1, g2⟩ := hat 400 (Or.inl rfl)
        exact ⟨400, g, m3, g1, g2⟩
      · obtain ⟨g, g1, g2⟩ := hat 401 (Or.inr rfl)
        exact ⟨401, g, m3, g1, g2⟩) hnd hfresh
  · refine ⟨this.1, fun ts u hc => ?_⟩
    obtain ⟨b1, b2, b3⟩ := this.2 ts u hc
    refine ⟨b1, b2, b3.imp fun m t0 hmt j hj => ?_⟩
    obtain ⟨g, g1, g2⟩ := hat j hj
    rw [default_count] at hmt
    exact hmt j g g1 g2
  · have h1 := default_range_le
    norm_num at h1 ⊢
    linarith
  · intro g hg
    obtain ⟨v, e, l⟩ := B.surface _ hg
    injection e with e
    subst e
    rw [l, hprec]
    exact ⟨by rw [radius]; norm_num, by exact_mod_cast default_room⟩

/-- Talk of the users: a packet, half a minute later an answer, and after another hour a packet again. -/
def Demo.talks : List Talk :=
  [⟨0, (632 + 400 : Nat), [1], 0x800⟩, ⟨30000000000, (632 + 401 : Nat), [2, 2], 0x800⟩, ⟨3600000000000, (632 + 400 : Nat), [3], 0x800⟩]

/-- Which node brings up which packet of the talk. -/
def Demo.brings (n : NodeId) (p : Bytes) (_ : UInt16) : Bool := if p = [2, 2] then decide (n = (632 + 401 : Nat)) else decide (n = (632 + 400 : Nat))

/-- The hypotheses of `C120_default_users` (and with them those of `C120_conversation`) are met. -/
example (dt : Time) : ∃ X K s1, exampleMain 0 (defaultArgs true) Demo.sys = .ok X ∧ SkyOf (defaultArgs true) X K ∧ K.speed = 299792458 ∧
    (∀ x, 0 ≤ x → (K.ofSeconds x : ℝ) ≤ x * 1000000000 + 1) ∧ exec (K.env Demo.env) X.build.sys [.wait dt] = .ok s1 ∧ s1.pending = [] ∧
    (∀ m ∈ Demo.talks, m.packet.length ≤ 1492 ∧ (∀ n, Demo.brings n m.packet m.proto = decide (n = m.src)) ∧
      (m.src = (632 + 400 : Nat) ∨ m.src = (632 + 401 : Nat))) ∧
    (Demo.talks.Pairwise fun x y => ¬ (x.packet = y.packet ∧ x.proto = y.proto)) ∧
    (∀ m ∈ Demo.talks, ∀ e ∈ allUps s1.log, ¬ (e.2.2.1 = m.packet ∧ e.2.2.2.1 = m.proto)) := by
  have hp : (⟨"TelesatGateway", 105.9, 20, 189.3, 4.8, 0.36, 9857.1, 31.8⟩ : Preset) ∈ presets := by simp [presets]
  have hi := fun o ho => (default_installable true o ho).1
  have hm : 2 * (places (defaultArgs true).orbits).length + (defaultArgs true).lonGws * (defaultArgs true).latGws % 2 ^ 32 + 2 < 2 ^ 48 := by
    rw [default_count]; simp [defaultArgs]
  obtain ⟨X, hX, _⟩ := C91_builds 0 hp rfl hi hm Demo.sys
  obtain ⟨K, hK, hsp, hof, _⟩ := sky_exists (defaultArgs true) X
  obtain ⟨hpe, hup⟩ := example_silent hp rfl hi (by unfold satCount; exact hm) Demo.sys_initial hX
  refine ⟨X, K, { X.build.sys with now := X.build.sys.now + dt }, hX, hK, hsp, fun x hx => ?_, by simp only [exec, wait_idle hpe]; rfl, hpe, ?_, ?_, ?_⟩
  · rw [hof]
    have := Nat.floor_le (a := x * 1000000000) (by positivity)
    linarith
  · intro m hm
    simp only [Demo.talks, List.mem_cons, List.not_mem_nil, or_false] at hm
    rcases hm with rfl | rfl | rfl
    · exact ⟨by decide, fun n => rfl, Or.inl rfl⟩
    · exact ⟨by decide, fun n => rfl, Or.inr rfl⟩
    · exact ⟨by decide, fun n => rfl, Or.inl rfl⟩
  · simp [Demo.talks]
  · intro m _ e he
    simp only [hup] at he
    cases he

end Verif
