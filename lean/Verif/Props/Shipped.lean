import Verif.Spec.Shipped
import Verif.Props.Causal
import Verif.Props.Parse
/-!
# The orbit files that come with the module (C113)
-/

namespace Verif
open Real Spec

/-- The records of data/orbits/starlink.csv. -/
noncomputable def starlinkOrbits : List OrbitRec :=
  [⟨1150, 53, 32, 50⟩, ⟨1110, 53.8, 32, 50⟩, ⟨1130, 74, 8, 50⟩, ⟨1275, 81, 5, 75⟩, ⟨1325, 70, 6, 75⟩]

/-- What is read does not depend on the stack. -/
theorem read_any (m m' : Nat → Char × Char × Char) (t : List Char) :
    readOrbits m (t.length + 1) (Stream.open (some t)) ⟨0, 0, 0, 0⟩ = readOrbits m' (t.length + 1) (Stream.open (some t)) ⟨0, 0, 0, 0⟩ := by
  have h := readOrbits_leading m (t.length + 1) (Stream.open (some t)) ⟨0, 0, 0, 0⟩ (Stream.ok_open t) (by simp [Stream.open])
  have h' := readOrbits_leading m' (t.length + 1) (Stream.open (some t)) ⟨0, 0, 0, 0⟩ (Stream.ok_open t) (by simp [Stream.open])
  refine leading_unique ?_ h h'
  intro t r rest r' rest' a b
  obtain ⟨e1, e2, e3, e4, e5⟩ := orbit_unique a b
  cases r; cases r'
  simp only at e1 e2 e3 e4
  subst e1; subst e2; subst e3; subst e4
  exact ⟨rfl, e5⟩

/-- **C113**: the programs read five constellations from the file, whatever the stack holds. -/
theorem C113_starlink_read (mem : Nat → Char × Char × Char) : tracingOrbits mem (some (some starlinkFile)) = starlinkOrbits := by
  have : ∀ m : Nat → Char × Char × Char, readOrbits m (starlinkFile.length + 1) (Stream.open (some starlinkFile)) ⟨0, 0, 0, 0⟩ =
      [⟨1150, 53, 32, 50⟩, ⟨1110, 269 / 5, 32, 50⟩, ⟨1130, 74, 8, 50⟩, ⟨1275, 81, 5, 75⟩, ⟨1325, 70, 6, 75⟩] := by
    intro m
    rw [read_any m fun _ => ('a', 'b', 'c')]
    decide +kernel
  simp only [tracingOrbits, Option.getD_some, this, starlinkOrbits, OrbitTxt.toRec, List.map_cons, List.map_nil]
  norm_num

/-- All of them can be installed, more than a metre above the ground. -/
theorem starlink_installable : ∀ o ∈ starlinkOrbits, Installable o ∧ 0.001 ≤ o.alt ∧ o.alt ≤ 2000 := by
  intro o ho
  simp only [starlinkOrbits] at ho
  unfold Installable
  fin_cases ho <;> norm_num

theorem starlink_count : (places starlinkOrbits).length = 4425 := by simp [starlinkOrbits, places, List.length_flatMap]

theorem starlink_rate : groundRate ⟨1150, 53, 32, 50⟩ ≤ 9500 := by
  have hpi := Real.pi_lt_d2
  have hspeed : orbitSpeed ⟨1150, 53, 32, 50⟩ ≤ 7400 := by
    unfold orbitSpeed
    rw [radius, Real.sqrt_le_left (by norm_num)]
    norm_num
  have : orbitSpeed ⟨1150, 53, 32, 50⟩ / 6371009 ≤ 0.001162 := by rw [div_le_iff₀ (by norm_num)]; norm_num; linarith
  unfold groundRate
  rw [radius]
  norm_num at this ⊢
  linarith

theorem starlink_rate_nonneg : 0 ≤ groundRate ⟨1150, 53, 32, 50⟩ := by
  have hpi := Real.pi_pos
  unfold groundRate orbitSpeed
  rw [radius]
  positivity

/-- The first shell is a mesh, with updates at least every second. -/
theorem starlink_meshed {p : Nat} (hp : p ≤ 1000000000) :
    Meshed ⟨1150, 53, 32, 50⟩ (2 * (groundRate ⟨1150, 53, 32, 50⟩ * ((p : ℝ) / 1000000000))) 1530000 := by
  have hpi0 := Real.pi_pos
  have hpi := Real.pi_lt_d2
  have hr := starlink_rate
  have hr0 := starlink_rate_nonneg
  have hp' : (p : ℝ) / 1000000000 ≤ 1 := by
    rw [div_le_one (by norm_num)]
    exact_mod_cast hp
  have hp0 : 0 ≤ (p : ℝ) / 1000000000 := by positivity
  have hm : 2 * (groundRate ⟨1150, 53, 32, 50⟩ * ((p : ℝ) / 1000000000)) ≤ 19000 := by nlinarith
  have a1 : 1 / 25 ≤ sin (Real.pi / (50 : Nat)) := by
    have := Real.mul_le_sin (x := Real.pi / (50 : Nat)) (by positivity) (by push_cast; linarith)
    refine le_of_eq_of_le ?_ this
    push_cast
    field_simp
    norm_num
  have a2 : 1 / 16 ≤ sin (Real.pi / (32 : Nat)) := by
    have := Real.mul_le_sin (x := Real.pi / (32 : Nat)) (by positivity) (by push_cast; linarith)
    refine le_of_eq_of_le ?_ this
    push_cast
    field_simp
    norm_num
  have a3 : sin (Real.pi / (50 : Nat)) ≤ 0.064 := by
    have := Real.sin_le (x := Real.pi / (50 : Nat)) (by positivity)
    push_cast at this ⊢
    linarith
  have a4 : sin (Real.pi / (32 : Nat)) ≤ 0.1 := by
    have := Real.sin_le (x := Real.pi / (32 : Nat)) (by positivity)
    push_cast at this ⊢
    linarith
  have a5 : 0.5 ≤ |cos (rad 53)| := by
    refine le_trans ?_ (le_abs_self _)
    have := cos_le_cos_of_nonneg_of_le_pi (x := rad 53) (y := Real.pi / 3) (by unfold rad; positivity) (by linarith) (by unfold rad; linarith)
    rw [Real.cos_pi_div_three] at this
    linarith
  refine ⟨?_, ?_, ?_, ?_, ?_⟩
  · rw [radius]; norm_num at a1 ⊢; linarith
  · rw [radius]; norm_num at a3 ⊢; linarith
  · rw [radius]
    have : 1 / 16 * 0.5 ≤ sin (Real.pi / (32 : Nat)) * |cos (rad 53)| := mul_le_mul a2 a5 (by norm_num) (by linarith)
    rw [mul_assoc]
    norm_num at this ⊢
    linarith
  · rw [radius]; norm_num at a4 ⊢; linarith
  · rw [radius, islEarthRad]; norm_num

theorem starlink_chord : chord (radius ⟨1150, 53, 32, 50⟩) 6371000 (hypotenuse (offTrack (rad 53) 32 0) (Real.pi / (50 : Nat))) ≤ 1372000 := by
  have hpi0 := Real.pi_pos
  have hpi := Real.pi_lt_d2
  refine chord_le (by norm_num) ?_
  have hs : |sin (rad 53)| ≤ 0.86603 := by
    have h53 : rad 53 ≤ Real.pi / 3 := by unfold rad; linarith
    have h53' : 0 ≤ rad 53 := by unfold rad; positivity
    rw [abs_of_nonneg (sin_nonneg_of_nonneg_of_le_pi h53' (by linarith))]
    have := sin_le_sin_of_le_of_le_pi_div_two (by linarith) (by linarith) h53
    rw [Real.sin_pi_div_three] at this
    have h2 : √3 ≤ 1.73206 := by rw [Real.sqrt_le_left] <;> norm_num
    linarith
  have hs0 := abs_nonneg (sin (rad 53))
  have hc := Real.one_sub_sq_div_two_le_cos (x := Real.pi / (50 : Nat))
  have hb : (Real.pi / (50 : Nat)) ^ 2 ≤ 0.00397 := by
    push_cast
    have : Real.pi / 50 ≤ 0.063 := by linarith
    have h0 : 0 ≤ Real.pi / 50 := by positivity
    nlinarith
  have hn0 : 0 ≤ |sin (rad 53)| * (Real.pi / (32 : Nat)) := by positivity
  have hn1 : |sin (rad 53)| * (Real.pi / (32 : Nat)) ≤ 0.0853 := by
    have h3 : Real.pi / (32 : Nat) ≤ 0.0985 := by push_cast; linarith
    have h4 : 0 ≤ Real.pi / (32 : Nat) := by positivity
    nlinarith
  have hcov : (0.9942 : ℝ) ≤ cos (hypotenuse (offTrack (rad 53) 32 0) (Real.pi / (50 : Nat))) := by
    unfold offTrack
    rw [zero_add]
    refine cos_coverage (by linarith) (by linarith) (by linarith) ?_
    generalize |sin (rad 53)| * (Real.pi / (32 : Nat)) = ν at hn0 hn1 ⊢
    have h5 : ν ^ 2 ≤ 0.00728 := by nlinarith
    have h7 : ν ^ 4 ≤ 0.000054 := by nlinarith [sq_nonneg ν]
    have h6 := Real.cos_le_one (Real.pi / (50 : Nat))
    nlinarith
  generalize cos (hypotenuse (offTrack (rad 53) 32 0) (Real.pi / (50 : Nat))) = c at hcov ⊢
  rw [radius]
  norm_num at hcov ⊢
  linarith

theorem sin_forty : |sin (rad 40)| ≤ 0.656 := by
  have hpi' := Real.pi_gt_d2
  have hpi'' := Real.pi_lt_d4
  have e : rad 40 = 2 * Real.pi / 9 := by unfold rad; ring
  have u0 : 0.69777 ≤ rad 40 := by rw [e]; linarith
  have u1 : rad 40 ≤ 0.69815 := by rw [e]; linarith
  rw [abs_of_nonneg (sin_nonneg_of_nonneg_of_le_pi (by linarith) (by linarith))]
  have hb := Real.sin_bound (x := rad 40) (by rw [abs_of_nonneg (by linarith)]; linarith)
  rw [abs_of_nonneg (a := rad 40) (by linarith)] at hb
  have hb := (abs_le.mp hb).2
  have p3 : 0.69777 ^ 3 ≤ rad 40 ^ 3 := pow_le_pow_left₀ (by norm_num) u0 3
  have p4 : rad 40 ^ 5 ≤ 0.69815 ^ 5 := pow_le_pow_left₀ (by linarith) u1 5
  norm_num at p3 p4 u1 ⊢
  linarith

/-- The range of the link settings with masks of 20 and 40 degrees, at this height. -/
theorem starlink_range {p : Preset} (hp : p ∈ presets) (he : p.elev ≤ 40) :
    1400000 ≤ slantRange propEarthRad (radius ⟨1150, 53, 32, 50⟩) |sin (rad p.elev)| ∧
      slantRange propEarthRad (radius ⟨1150, 53, 32, 50⟩) |sin (rad p.elev)| ≤ 4200000 := by
  have hs0 := abs_nonneg (sin (rad p.elev))
  have hs : |sin (rad p.elev)| ≤ 0.656 := by
    have h40 := sin_forty
    obtain ⟨h1, h2⟩ := sin_twenty
    simp only [presets, List.mem_cons, List.not_mem_nil, or_false] at hp
    rcases hp with rfl | rfl | rfl | rfl
    · exact h40
    · exact h40
    · refine le_trans (le_of_eq_of_le (abs_of_nonneg (by linarith)) h2) (by norm_num)
    · norm_num at he
  constructor
  · rw [radius, ← slant_dist (by norm_num) hs0 (by norm_num) (by rw [propEarthRad]; norm_num), propEarthRad]
    norm_num at hs ⊢
    linarith
  · by_contra hc
    rw [not_le] at hc
    have := (slant_dist (R := propEarthRad) (r := radius ⟨1150, 53, 32, 50⟩) (x := 4200000) (by rw [radius]; norm_num) hs0 (by norm_num)
      (by rw [radius, propEarthRad]; norm_num)).2 hc.le
    rw [radius, propEarthRad] at this
    norm_num at this
    linarith

/-- The options: data/orbits/starlink.csv as orbit file, link settings with a mask of at most 40 degrees, positions updated at least once per second. -/
structure StarlinkRun (a : ExampleArgs) (p : Preset) : Prop where
  orbits : ∃ mem, a.orbits = tracingOrbits mem (some (some starlinkFile))
  preset : p ∈ presets
  name : a.constellation = p.name
  mask : p.elev ≤ 40
  prec : a.prec ≤ 1000000000

theorem StarlinkRun.eq {a : ExampleArgs} {p : Preset} (hR : StarlinkRun a p) : a.orbits = starlinkOrbits := by
  obtain ⟨mem, h⟩ := hR.orbits
  rw [h, C113_starlink_read]

theorem StarlinkRun.count {a : ExampleArgs} {p : Preset} (hR : StarlinkRun a p) :
    2 * (places a.orbits).length + a.lonGws * a.latGws % 2 ^ 32 + 2 < 2 ^ 40 := by
  rw [hR.eq, starlink_count]
  have := Nat.mod_lt (a.lonGws * a.latGws) (show 0 < 2 ^ 32 by norm_num)
  omega

theorem StarlinkRun.precNat {a : ExampleArgs} {p : Preset} (hR : StarlinkRun a p) : a.prec.toNat ≤ 1000000000 := by
  have := hR.prec
  omega

theorem starlink_room {n : Nat} (hn : n ≤ 1000000000) {p : Preset} (hp : p ∈ presets) (he : p.elev ≤ 40) {τ : ℝ} (hτ : τ ≤ 0.5) :
    chord (radius ⟨1150, 53, 32, 50⟩) 6371000 (hypotenuse (offTrack (rad 53) 32 0) (Real.pi / (50 : Nat))) +
      groundRate ⟨1150, 53, 32, 50⟩ * ((n : ℝ) / 1000000000 + τ) ≤ slantRange propEarthRad (radius ⟨1150, 53, 32, 50⟩) |sin (rad p.elev)| := by
  have h1 := starlink_chord
  have h2 := starlink_rate
  have h3 := starlink_rate_nonneg
  have h4 := (starlink_range hp he).1
  have hn' : (n : ℝ) / 1000000000 ≤ 1 := by
    rw [div_le_one (by norm_num)]
    exact_mod_cast hn
  have : groundRate ⟨1150, 53, 32, 50⟩ * ((n : ℝ) / 1000000000 + τ) ≤ groundRate ⟨1150, 53, 32, 50⟩ * 1.5 :=
    mul_le_mul_of_nonneg_left (by linarith) h3
  linarith

/-- **C113, coverage**: every station between 53 degrees north and south always has a satellite in range. -/
theorem C113_serves {junk : ℝ} {a : ExampleArgs} {p : Preset} (hR : StarlinkRun a p) {s : Sys} {X : ExampleNet} (h : exampleMain junk a s = .ok X)
    {K : Sky} (hK : SkyOf a X K) {j : Nat} {g : Vec} (hg : X.ground[j]? = some (some g)) (hφ : |latOf g| ≤ rad 53) (t : Time) :
    ∃ i : Nat, ∃ f f', i < 4425 ∧ K.pos i = some f ∧ K.pos (4425 + j) = some f' ∧ InSlantRange p.elev (f' t) (f t) := by
  have hi : ∀ o ∈ a.orbits, Installable o := by rw [hR.eq]; exact fun o ho => (starlink_installable o ho).1
  have B := built_of hR.preset hR.name hi (hR.count.trans (by norm_num)) h
  obtain ⟨v, e, hlen⟩ := B.surface _ (List.mem_of_getElem? hg)
  injection e with e
  subst e
  have := C107_example hK hi (o := ⟨1150, 53, 32, 50⟩) (by rw [hR.eq]; simp [starlinkOrbits]) (by norm_num) (by norm_num) hg
    (by rw [hlen, radius]; norm_num) le_rfl (by rw [tilt_rad (by norm_num) (by norm_num), add_zero]; exact hφ) (e := p.elev) (by
      have := starlink_room hR.precNat hR.preset hR.mask (τ := 0) (by norm_num)
      rw [hlen]
      unfold groundRate at this
      rw [add_zero] at this
      exact this) t
  rw [hR.eq, starlink_count] at this
  exact this

/-- **C113, connection**: with inter-satellite links any two stations between 53 degrees north and south can reach each other whenever nothing is in
flight, within half a second, over fewer than 82 satellite devices. -/
theorem C113_delivery {junk : ℝ} {a : ExampleArgs} {p : Preset} (hR : StarlinkRun a p) (hisl : a.islEnabled = true) {s : Sys}
    (h0 : Initial s) {X : ExampleNet} (h : exampleMain junk a s = .ok X) {K : Sky} (hK : SkyOf a X K) {E : Env} (hE : ErrorFree E)
    (hsp : K.speed = 299792458) (hof : ∀ x, 0 ≤ x → (K.ofSeconds x : ℝ) ≤ x * 1000000000 + 1)
    {ops : List Op} (ht : ∀ op ∈ ops, PlainTraffic op) {s1 : Sys} (hx : exec (K.env E) X.build.sys ops = .ok s1) (hq : s1.pending = [])
    {j1 j2 : Nat} {g1 g2 : Vec} (hg1 : X.ground[j1]? = some (some g1)) (hg2 : X.ground[j2]? = some (some g2))
    (hb1 : |latOf g1| ≤ rad 53) (hb2 : |latOf g2| ≤ rad 53) {q : Bytes} (hlen : q.length ≤ 1492) {proto : UInt16} :
    ∃ (R : Forwarder) (m : Mac48) (n : Nat) (s2 : Sys), PassesOn s1 R ∧
      (send (K.env E) s1 (4425 + j1) q (.mac m) proto >>= relay (K.env E) R n) = .ok s2 ∧ s2.pending = [] ∧
      ∃ mid t' sa, allUps s2.log = allUps s1.log ++ mid ++ [(t', 4425 + j2, q, proto, sa)] ∧ seconds t' ≤ seconds s1.now + 0.5 ∧
        mid.length < 82 ∧ (mid.map fun e => e.2.1).Nodup ∧ ∀ e ∈ mid, e.2.2.1 = q ∧ (e.2.1 < 4425 ∨ 4425 + X.ground.length ≤ e.2.1) := by
  have hi : ∀ o ∈ a.orbits, Installable o := by rw [hR.eq]; exact fun o ho => (starlink_installable o ho).1
  have ha : ∀ o ∈ a.orbits, 0.001 ≤ o.alt := by rw [hR.eq]; exact fun o ho => (starlink_installable o ho).2.1
  have B := built_of hR.preset hR.name hi (hR.count.trans (by norm_num)) h
  obtain ⟨v1, e1, l1⟩ := B.surface _ (List.mem_of_getElem? hg1)
  injection e1 with e1
  subst e1
  obtain ⟨v2, e2, l2⟩ := B.surface _ (List.mem_of_getElem? hg2)
  injection e2 with e2
  subst e2
  have hroom := starlink_room hR.precNat hR.preset hR.mask (τ := 0.5) le_rfl
  have := C108_delivery hR.preset hR.name hi ha hisl hR.count h0 h hK hE (by norm_num) hsp hof ht hx hq
    (o := ⟨1150, 53, 32, 50⟩) (by rw [hR.eq]; simp [starlinkOrbits]) (by norm_num) (starlink_meshed hR.precNat) hg1 hg2
    (by rw [l1, radius]; norm_num) (by rw [l2, radius]; norm_num) le_rfl
    (by rw [tilt_rad (by norm_num) (by norm_num), add_zero]; exact hb1) (by rw [tilt_rad (by norm_num) (by norm_num), add_zero]; exact hb2)
    (τ := 0.5) rfl (by norm_num) ?_ (by rw [l1]; exact hroom) (by rw [l2]; exact hroom) hlen (proto := proto)
  · rw [hR.eq, starlink_count] at this
    exact this
  · have h1 := (starlink_range hR.preset hR.mask).2
    norm_num at h1 ⊢
    linarith

/-- **C113, users**: users whose latitudes are given as between 18.5 and 71.5 degrees are placed within the band (see C43), so they always
reach each other. -/
theorem C113_users {junk : ℝ} {a : ExampleArgs} {p : Preset} (hR : StarlinkRun a p) (hisl : a.islEnabled = true)
    (hs : 18.5 ≤ a.source.latitude ∧ a.source.latitude ≤ 71.5) (hd : 18.5 ≤ a.destination.latitude ∧ a.destination.latitude ≤ 71.5) {s : Sys}
    (h0 : Initial s) {X : ExampleNet} (h : exampleMain junk a s = .ok X) {K : Sky} (hK : SkyOf a X K) {E : Env} (hE : ErrorFree E)
    (hsp : K.speed = 299792458) (hof : ∀ x, 0 ≤ x → (K.ofSeconds x : ℝ) ≤ x * 1000000000 + 1)
    {ops : List Op} (ht : ∀ op ∈ ops, PlainTraffic op) {s1 : Sys} (hx : exec (K.env E) X.build.sys ops = .ok s1) (hq : s1.pending = [])
    {u1 u2 : Nat} (hu : u1 = 4425 + a.lonGws * a.latGws % 2 ^ 32 ∧ u2 = u1 + 1 ∨ u2 = 4425 + a.lonGws * a.latGws % 2 ^ 32 ∧ u1 = u2 + 1)
    {q : Bytes} (hlen : q.length ≤ 1492) {proto : UInt16} :
    ∃ (R : Forwarder) (m : Mac48) (n : Nat) (s2 : Sys), PassesOn s1 R ∧
      (send (K.env E) s1 u1 q (.mac m) proto >>= relay (K.env E) R n) = .ok s2 ∧ s2.pending = [] ∧
      ∃ mid t' sa, allUps s2.log = allUps s1.log ++ mid ++ [(t', u2, q, proto, sa)] ∧ seconds t' ≤ seconds s1.now + 0.5 ∧
        mid.length < 82 ∧ (mid.map fun e => e.2.1).Nodup ∧ ∀ e ∈ mid, e.2.2.1 = q ∧ (e.2.1 < 4425 ∨ 4425 + X.ground.length ≤ e.2.1) := by
  have hi : ∀ o ∈ a.orbits, Installable o := by rw [hR.eq]; exact fun o ho => (starlink_installable o ho).1
  obtain ⟨Y, e, _, _, hg1, hg2, _⟩ := C91_builds junk hR.preset hR.name hi (hR.count.trans (by norm_num)) s
  rw [h] at e
  obtain rfl := Outcome.ok.inj e
  have hband : ∀ lat lon : ℝ, 18.5 ≤ lat → lat ≤ 71.5 → |latOf (location (90 - 2 * lat) lon)| ≤ rad 53 := by
    intro lat lon l1 l2
    rw [location_lat (by linarith) (by linarith), abs_le]
    exact rad_mem (by linarith) (by linarith)
  rcases hu with ⟨rfl, rfl⟩ | ⟨rfl, rfl⟩
  · exact C113_delivery hR hisl h0 h hK hE hsp hof ht hx hq hg1 hg2 (hband _ _ hs.1 hs.2) (hband _ _ hd.1 hd.2) hlen
  · exact C113_delivery hR hisl h0 h hK hE hsp hof ht hx hq hg2 hg1 (hband _ _ hd.1 hd.2) (hband _ _ hs.1 hs.2) hlen

/-- The default options but for the orbit file. -/
noncomputable def starlinkArgs : ExampleArgs :=
  { defaultArgs true with orbits := tracingOrbits (fun _ => ('x', 'y', 'z')) (some (some starlinkFile)) }

/-- The hypotheses are met by the programs with `--orbitFile=data/orbits/starlink.csv`, however long one waits. -/
example (dt : Time) : ∃ p X K s1, StarlinkRun starlinkArgs p ∧ exampleMain 0 starlinkArgs Demo.sys = .ok X ∧ SkyOf starlinkArgs X K ∧
    K.speed = 299792458 ∧ (∀ x, 0 ≤ x → (K.ofSeconds x : ℝ) ≤ x * 1000000000 + 1) ∧
    exec (K.env Demo.env) X.build.sys [.wait dt] = .ok s1 ∧ s1.pending = [] ∧ (18.5 ≤ starlinkArgs.source.latitude ∧ starlinkArgs.source.latitude ≤ 71.5) ∧
    (18.5 ≤ starlinkArgs.destination.latitude ∧ starlinkArgs.destination.latitude ≤ 71.5) ∧ s1.now = X.build.sys.now + dt := by
  have hR : StarlinkRun starlinkArgs ⟨"TelesatGateway", 105.9, 20, 189.3, 4.8, 0.36, 9857.1, 31.8⟩ :=
    ⟨⟨_, rfl⟩, by simp [presets], rfl, by norm_num, by simp [starlinkArgs, defaultArgs]⟩
  have hi : ∀ o ∈ starlinkArgs.orbits, Installable o := by rw [hR.eq]; exact fun o ho => (starlink_installable o ho).1
  have hc := hR.count.trans (show 2 ^ 40 < 2 ^ 48 by norm_num)
  obtain ⟨X, hX, _⟩ := C91_builds 0 hR.preset hR.name hi hc Demo.sys
  obtain ⟨K, hK, hsp, hof, _⟩ := sky_exists starlinkArgs X
  obtain ⟨is, hr⟩ := (built_of hR.preset hR.name hi (by unfold satCount; exact hc) hX).run
  obtain ⟨s0, o, h0, hat, hex, _⟩ := C62_helper_network_is_history Demo.sys_initial hr
  obtain ⟨hpe, _⟩ := attached_only h0 (fun op hop => by
    obtain ⟨d, c, e, _⟩ := hat op hop
    exact ⟨d, c, e⟩) (hex (K.env Demo.env))
  have hw : exec (K.env Demo.env) X.build.sys [.wait dt] = .ok { X.build.sys with now := X.build.sys.now + dt } := by
    simp only [exec, step, hpe]
    rfl
  refine ⟨_, X, K, _, hR, hX, hK, hsp, ?_, hw, hpe, ?_, ?_, rfl⟩
  · intro x hx
    rw [hof]
    have := Nat.floor_le (a := x * 1000000000) (by positivity)
    linarith
  · simp only [starlinkArgs, defaultArgs]; norm_num
  · simp only [starlinkArgs, defaultArgs]; norm_num

end Verif
