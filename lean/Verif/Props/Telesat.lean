import Verif.Props.Shipped
/-!
# The Telesat orbits that come with the module (C117)
-/

namespace Verif
open Real Spec

/-- The records of data/orbits/telesat.csv. -/
noncomputable def telesatOrbits : List OrbitRec := [⟨1000, 99.5, 6, 12⟩, ⟨1248, 37.4, 5, 9⟩]

/-- **C117**: the programs read two constellations from the file, whatever the stack holds. -/
theorem C117_read (mem : Nat → Char × Char × Char) : tracingOrbits mem (some (some telesatFile)) = telesatOrbits := by
  have : ∀ m : Nat → Char × Char × Char, readOrbits m (telesatFile.length + 1) (Stream.open (some telesatFile)) ⟨0, 0, 0, 0⟩ =
      [⟨1000, 199 / 2, 6, 12⟩, ⟨1248, 187 / 5, 5, 9⟩] := by
    intro m
    rw [read_any m fun _ => ('a', 'b', 'c')]
    decide +kernel
  simp only [tracingOrbits, Option.getD_some, this, telesatOrbits, OrbitTxt.toRec, List.map_cons, List.map_nil]
  norm_num

theorem telesat_installable : ∀ o ∈ telesatOrbits, Installable o ∧ 0.001 ≤ o.alt := by
  intro o ho
  simp only [telesatOrbits] at ho
  unfold Installable
  fin_cases ho <;> norm_num

theorem telesat_count : (places telesatOrbits).length = 117 := by simp [telesatOrbits, places, List.length_flatMap]

theorem telesat_speed : 7353 ≤ orbitSpeed ⟨1000, 99.5, 6, 12⟩ ∧ orbitSpeed ⟨1000, 99.5, 6, 12⟩ ≤ 7354 := by
  unfold orbitSpeed
  rw [radius]
  constructor
  · refine Real.le_sqrt_of_sq_le ?_
    norm_num
  · rw [Real.sqrt_le_left (by norm_num)]
    norm_num

theorem telesat_rate : groundRate ⟨1000, 99.5, 6, 12⟩ ≤ 9100 := by
  have hpi := Real.pi_lt_d2
  have hspeed := telesat_speed.2
  have : orbitSpeed ⟨1000, 99.5, 6, 12⟩ / 6371009 ≤ 0.001155 := by rw [div_le_iff₀ (by norm_num)]; norm_num at hspeed ⊢; linarith
  unfold groundRate
  rw [radius]
  norm_num at this ⊢
  linarith

theorem telesat_rate_nonneg : 0 ≤ groundRate ⟨1000, 99.5, 6, 12⟩ := by
  have hpi := Real.pi_pos
  unfold groundRate orbitSpeed
  rw [radius]
  positivity

/-- The tilt of the polar orbit. -/
theorem telesat_tilt : 0.15 ≤ |cos (rad 99.5)| ∧ sin (rad 99.5) ≤ 0.9864 := by
  have h1 := Real.pi_gt_d4
  have h2 := Real.pi_lt_d4
  have e : rad 99.5 = 9.5 * Real.pi / 180 + Real.pi / 2 := by unfold rad; ring
  rw [e, cos_add_pi_div_two, sin_add_pi_div_two, abs_neg]
  generalize hx : 9.5 * Real.pi / 180 = x
  have x1 : 0.1658 ≤ x := by rw [← hx]; linarith
  have x2 : x ≤ 0.16582 := by rw [← hx]; linarith
  constructor
  · refine le_trans ?_ (le_abs_self _)
    have := Real.sin_gt_sub_cube (x := x) (by linarith)
    have : x ^ 3 ≤ 0.16582 ^ 3 := pow_le_pow_left₀ (by linarith) x2 3
    norm_num at this ⊢
    linarith
  · have := (abs_le.mp (Real.cos_bound (x := x) (by rw [abs_of_nonneg (by linarith)]; linarith))).2
    rw [abs_of_nonneg (a := x) (by linarith)] at this
    have p4 : x ^ 4 ≤ 0.16582 ^ 4 := pow_le_pow_left₀ (by linarith) x2 4
    have p2 : 0.1658 ^ 2 ≤ x ^ 2 := pow_le_pow_left₀ (by norm_num) x1 2
    norm_num at p4 p2 ⊢
    linarith

/-- The polar orbit is a mesh, with updates at least every second. -/
theorem telesat_meshed {p : Nat} (hp : p ≤ 1000000000) :
    Meshed ⟨1000, 99.5, 6, 12⟩ (2 * (groundRate ⟨1000, 99.5, 6, 12⟩ * ((p : ℝ) / 1000000000))) 7390000 := by
  have hpi0 := Real.pi_pos
  have hpi := Real.pi_lt_d2
  have hr := telesat_rate
  have hr0 := telesat_rate_nonneg
  have hp' : (p : ℝ) / 1000000000 ≤ 1 := by
    rw [div_le_one (by norm_num)]
    exact_mod_cast hp
  have hp0 : 0 ≤ (p : ℝ) / 1000000000 := by positivity
  have hm : 2 * (groundRate ⟨1000, 99.5, 6, 12⟩ * ((p : ℝ) / 1000000000)) ≤ 18200 := by nlinarith
  have a1 : 1 / 6 ≤ sin (Real.pi / (12 : Nat)) := by
    have := Real.mul_le_sin (x := Real.pi / (12 : Nat)) (by positivity) (by push_cast; linarith)
    refine le_of_eq_of_le ?_ this
    push_cast
    field_simp
    norm_num
  have a3 : sin (Real.pi / (12 : Nat)) ≤ 0.27 := by
    have := Real.sin_le (x := Real.pi / (12 : Nat)) (by positivity)
    push_cast at this ⊢
    linarith
  have a2 : sin (Real.pi / (6 : Nat)) = 1 / 2 := by push_cast; exact Real.sin_pi_div_six
  have a5 := telesat_tilt.1
  refine ⟨?_, ?_, ?_, ?_, ?_⟩
  · rw [radius]; norm_num at a1 ⊢; linarith
  · rw [radius]; norm_num at a3 ⊢; linarith
  · rw [radius, a2]; norm_num at a5 ⊢; linarith
  · rw [radius, a2]; norm_num; linarith
  · rw [radius, islEarthRad]; norm_num

/-- The options: data/orbits/telesat.csv as orbit file, any link settings, positions updated at least once per second. -/
structure TelesatRun (a : ExampleArgs) (p : Preset) : Prop where
  orbits : ∃ mem, a.orbits = tracingOrbits mem (some (some telesatFile))
  preset : p ∈ presets
  name : a.constellation = p.name
  prec : a.prec ≤ 1000000000

theorem TelesatRun.eq {a : ExampleArgs} {p : Preset} (hR : TelesatRun a p) : a.orbits = telesatOrbits := by
  obtain ⟨mem, h⟩ := hR.orbits
  rw [h, C117_read]

theorem TelesatRun.count {a : ExampleArgs} {p : Preset} (hR : TelesatRun a p) :
    2 * (places a.orbits).length + a.lonGws * a.latGws % 2 ^ 32 + 2 < 2 ^ 48 := by
  rw [hR.eq, telesat_count]
  have := Nat.mod_lt (a.lonGws * a.latGws) (show 0 < 2 ^ 32 by norm_num)
  omega

theorem TelesatRun.precNat {a : ExampleArgs} {p : Preset} (hR : TelesatRun a p) : a.prec.toNat ≤ 1000000000 := by
  have := hR.prec
  omega

/-- **C117, the links**: neighbours of the polar orbit, in the plane and in the next plane, see each other at every moment. -/
theorem C117_linked {a : ExampleArgs} {p : Preset} (hR : TelesatRun a p) {X : ExampleNet} {K : Sky} (hK : SkyOf a X K)
    {i j : Nat} {x y : Nat × Nat} (hi : (places a.orbits)[i]? = some (⟨1000, 99.5, 6, 12⟩, x.1, x.2))
    (hj : (places a.orbits)[j]? = some (⟨1000, 99.5, 6, 12⟩, y.1, y.2)) (hadj : Adjacent x y) (t : Time) :
    ∃ f g, K.pos i = some f ∧ K.pos j = some g ∧ f t ≠ g t ∧ ¬ Obstructed islEarthRad (f t) (g t) ∧ (g t - f t).len ≤ 7390000 :=
  C108_neighbours_linked hK (telesat_installable _ (by simp [telesatOrbits])).1 (by norm_num) (telesat_meshed hR.precNat) hi hj hadj t

/-- Angles that are half a slot off every slot, up to 0.036. -/
theorem between_slots {θ : ℝ} {n : Int} (h : |θ - (n * (Real.pi / 6) - Real.pi / 12)| ≤ 0.036) : cos θ ≤ 0.9749 := by
  have h1 := Real.pi_gt_d4
  have h2 := Real.pi_lt_d4
  obtain ⟨j, hj⟩ : ∃ j : Int, |θ - j * (2 * Real.pi)| ≤ Real.pi := by
    refine ⟨round (θ / (2 * Real.pi)), ?_⟩
    have := abs_sub_round (θ / (2 * Real.pi))
    have e : θ - round (θ / (2 * Real.pi)) * (2 * Real.pi) = (θ / (2 * Real.pi) - round (θ / (2 * Real.pi))) * (2 * Real.pi) := by field_simp
    rw [e, abs_mul, abs_of_pos (a := 2 * Real.pi) (by positivity)]
    nlinarith
  rw [← cos_sub_int_mul_two_pi θ j, ← cos_abs]
  have hlow : 0.225 ≤ |θ - j * (2 * Real.pi)| := by
    have hodd : (1 : ℝ) ≤ |((2 * (n - 12 * j) - 1 : Int) : ℝ)| := by
      have : (1 : Int) ≤ |2 * (n - 12 * j) - 1| := Int.one_le_abs (by omega)
      exact_mod_cast this
    have e : θ - j * (2 * Real.pi) = (θ - (n * (Real.pi / 6) - Real.pi / 12)) + ((2 * (n - 12 * j) - 1 : Int) : ℝ) * (Real.pi / 12) := by
      push_cast; ring
    have h4 : Real.pi / 12 ≤ |((2 * (n - 12 * j) - 1 : Int) : ℝ) * (Real.pi / 12)| := by
      rw [abs_mul, abs_of_pos (a := Real.pi / 12) (by positivity)]
      nlinarith
    have h5 := abs_sub_abs_le_abs_sub (((2 * (n - 12 * j) - 1 : Int) : ℝ) * (Real.pi / 12)) (-(θ - (n * (Real.pi / 6) - Real.pi / 12)))
    rw [abs_neg, sub_neg_eq_add, add_comm (((2 * (n - 12 * j) - 1 : Int) : ℝ) * (Real.pi / 12)), ← e] at h5
    linarith
  have hc := cos_le_cos_of_nonneg_of_le_pi (x := 0.225) (by norm_num) hj hlow
  have hb := (abs_le.mp (Real.cos_bound (x := 0.225) (by norm_num))).2
  rw [abs_of_nonneg (by norm_num)] at hb
  norm_num at hb hc ⊢
  linarith

/-- A satellite low in the sky of a station near the north pole. -/
theorem pole_far {g v : Vec} {r z d : ℝ} (hg : (g - ⟨0, 0, 6371000⟩).len ≤ 100000) (hv : v.len = r) (hz : v.z ≤ z)
    (hd : (d + 100000) ^ 2 ≤ r ^ 2 + 6371000 ^ 2 - 2 * 6371000 * z) : d ≤ (v - g).len := by
  have h1 : d + 100000 ≤ (v - ⟨0, 0, 6371000⟩).len := by
    unfold Vec.len
    refine Real.le_sqrt_of_sq_le (hd.trans ?_)
    have : r ^ 2 = v.x * v.x + v.y * v.y + v.z * v.z := by
      rw [← hv]; unfold Vec.len
      rw [Real.sq_sqrt (by nlinarith [mul_self_nonneg v.x, mul_self_nonneg v.y, mul_self_nonneg v.z])]
    rw [this]
    change _ ≤ (v.x - 0) * (v.x - 0) + (v.y - 0) * (v.y - 0) + (v.z - 6371000) * (v.z - 6371000)
    nlinarith
  have h2 := len_add_le (v - g) (g - ⟨0, 0, 6371000⟩)
  have e : (v - g) + (g - ⟨0, 0, 6371000⟩) = v - ⟨0, 0, 6371000⟩ := by
    ext
    · change (v.x - g.x) + (g.x - 0) = v.x - 0; ring
    · change (v.y - g.y) + (g.y - 0) = v.y - 0; ring
    · change (v.z - g.z) + (g.z - 6371000) = v.z - 6371000; ring
  rw [e] at h2
  linarith

theorem mask_le {p : Preset} (hp : p ∈ presets) : 0.33 ≤ |sin (rad p.elev)| := by
  have h1 := Real.pi_gt_d2
  have h2 := Real.pi_lt_d2
  have key : ∀ x : ℝ, 20 ≤ x → x ≤ 90 → 0.33 ≤ |sin (rad x)| := by
    intro x hx hx'
    refine le_trans ?_ (le_abs_self _)
    refine sin_twenty.1.trans (sin_le_sin_of_le_of_le_pi_div_two ?_ ?_ ?_)
    · unfold rad; linarith
    · unfold rad; nlinarith
    · unfold rad; nlinarith
  simp only [presets, List.mem_cons, List.not_mem_nil, or_false] at hp
  rcases hp with rfl | rfl | rfl | rfl <;> exact key _ (by norm_num) (by norm_num)

/-- **C117, a satellite in between**: while the satellites of the polar orbit are half a slot from their northernmost point, no station near the pole
hears anybody, with any of the link settings. -/
theorem pole_unheard {p : Preset} (hp : p ∈ presets) {o : OrbitRec} (ho : o ∈ telesatOrbits) {q k : Nat} {g : Vec}
    (hg : (g - ⟨0, 0, 6371000⟩).len ≤ 100000) {x : ℝ} {m : Int}
    (hx : |orbitSpeed ⟨1000, 99.5, 6, 12⟩ * x / 6371009 - (m * (Real.pi / 6) + Real.pi / 12)| ≤ 0.036) :
    ¬ InSlantRange p.elev g (track o q k x) ∧ ¬ InSlantRange p.elev (track o q k x) g := by
  have hs := mask_le hp
  have hs1 : |sin (rad p.elev)| ≤ 1 := Real.abs_sin_le_one _
  have hgl : g.len ≤ 6471000 := by
    have := len_add_le (g - ⟨0, 0, 6371000⟩) ⟨0, 0, 6371000⟩
    have e : (g - ⟨0, 0, 6371000⟩) + (⟨0, 0, 6371000⟩ : Vec) = g := by
      ext
      · change (g.x - 0) + 0 = g.x; ring
      · change (g.y - 0) + 0 = g.y; ring
      · change (g.z - 6371000) + 6371000 = g.z; ring
    have e' : (⟨0, 0, 6371000⟩ : Vec).len = 6371000 := len_eq (by norm_num) (by simp only [dot]; norm_num)
    rw [e, e'] at this
    linarith
  have hi := (telesat_installable o ho).1
  have hlen := track_len (o := o) (p := q) (k := k) hi.2.2.2.2.le x
  have hR : propEarthRad ≤ radius o := by
    simp only [telesatOrbits, List.mem_cons, List.not_mem_nil, or_false] at ho
    unfold radius propEarthRad
    rcases ho with rfl | rfl <;> norm_num
  have hmax : max g.len (track o q k x).len = radius o := by
    rw [hlen, max_eq_right]
    simp only [telesatOrbits, List.mem_cons, List.not_mem_nil, or_false] at ho
    unfold radius
    rcases ho with rfl | rfl <;> norm_num <;> linarith
  have key : ¬ ((track o q k x - g).len ≤ slantRange propEarthRad (radius o) |sin (rad p.elev)|) := by
    rw [← slant_dist (by have := propEarthRad_pos; linarith) (abs_nonneg _) (len_nonneg _) (by have := propEarthRad_pos; nlinarith), not_le]
    simp only [telesatOrbits, List.mem_cons, List.not_mem_nil, or_false] at ho
    rcases ho with rfl | rfl
    · have hz : (track ⟨1000, 99.5, 6, 12⟩ q k x).z ≤ 7371009 * (0.9749 * 0.9864) := by
        have hc : cos (2 * Real.pi * k / (12 : Nat) + -1 * (orbitSpeed ⟨1000, 99.5, 6, 12⟩ * x / 6371009)) ≤ 0.9749 := by
          refine between_slots (n := k - m) ?_
          rw [abs_sub_comm] at hx
          refine le_of_eq_of_le ?_ hx
          push_cast
          congr 1
          ring
        have h99 := telesat_tilt.2
        have h0 : 0 ≤ sin (rad 99.5) := sin_nonneg_of_nonneg_of_le_pi (by unfold rad; positivity) (by unfold rad; nlinarith [Real.pi_pos])
        have e : (track ⟨1000, 99.5, 6, 12⟩ q k x).z = radius ⟨1000, 99.5, 6, 12⟩ *
            (cos (2 * Real.pi * k / (12 : Nat) + -1 * (orbitSpeed ⟨1000, 99.5, 6, 12⟩ * x / 6371009)) * sin (rad 99.5)) := by
          unfold track rad
          simp only
          rw [if_neg (by norm_num)]
        rw [e]
        have hr : radius ⟨1000, 99.5, 6, 12⟩ = 7371009 := by rw [radius]; norm_num
        rw [hr]
        generalize cos _ = c at hc ⊢
        generalize sin _ = s at h99 h0 ⊢
        have : c * s ≤ 0.9749 * 0.9864 := by nlinarith
        nlinarith
      have hd := pole_far (d := 2010000) hg hlen hz (by rw [radius]; norm_num)
      rw [radius, propEarthRad]
      generalize (track _ q k x - g).len = d at hd ⊢
      generalize |sin (rad p.elev)| = s at hs ⊢
      have h1 : 2010000 * 0.33 ≤ d * s := mul_le_mul hd hs (by norm_num) (by linarith)
      norm_num at h1 ⊢
      nlinarith
    · have hz : (track ⟨1248, 37.4, 5, 9⟩ q k x).z ≤ 7619009 * 0.75 := by
        have h0 : 0 ≤ sin (rad 37.4) := sin_nonneg_of_nonneg_of_le_pi (by unfold rad; positivity) (by unfold rad; nlinarith [Real.pi_pos])
        have h1 : sin (rad 37.4) ≤ 0.75 := by
          have hpi := Real.pi_lt_d2
          have := Real.sin_le (x := rad 37.4) (by unfold rad; positivity)
          refine this.trans ?_
          unfold rad
          linarith
        have e : (track ⟨1248, 37.4, 5, 9⟩ q k x).z = radius ⟨1248, 37.4, 5, 9⟩ *
            (cos (2 * Real.pi * k / (9 : Nat) + 1 * (orbitSpeed ⟨1248, 37.4, 5, 9⟩ * x / 6371009)) * sin (rad 37.4)) := by
          unfold track rad
          simp only
          rw [if_pos (by norm_num)]
        have hr : radius ⟨1248, 37.4, 5, 9⟩ = 7619009 := by rw [radius]; norm_num
        rw [e, hr]
        have hc := Real.cos_le_one (2 * Real.pi * k / (9 : Nat) + 1 * (orbitSpeed ⟨1248, 37.4, 5, 9⟩ * x / 6371009))
        generalize cos _ = c at hc ⊢
        generalize sin _ = s at h1 h0 ⊢
        have : c * s ≤ 0.75 := by nlinarith
        nlinarith
      have hd := pole_far (d := 4500000) hg hlen hz (by rw [radius]; norm_num)
      rw [radius, propEarthRad]
      generalize (track _ q k x - g).len = d at hd ⊢
      have : 0 ≤ 2 * ((6371.009 + 1248) * 1000) * d * |sin (rad p.elev)| := by positivity
      norm_num at this ⊢
      nlinarith
  have hsym : (g - track o q k x).len = (track o q k x - g).len := dist_comm' _ _
  constructor
  · rw [slant_range_iff (by rw [hmax]; exact hR), hmax]
    exact key
  · rw [slant_range_iff (by rw [max_comm, hmax]; exact hR), max_comm, hmax, hsym]
    exact key

theorem reported_second {prec t u : Nat} (hp : prec ≤ 1000000000) (h : Reported prec t u) : u ≤ t ∧ t ≤ u + 1000000000 := by
  unfold Reported at h
  split at h
  · subst h; omega
  · omega

/-- **C117, the gap**: whatever the link settings, a station within 100 km of the north pole is without any satellite for a minute, at least every eight minutes. -/
theorem C117_gap {a : ExampleArgs} {p : Preset} (hR : TelesatRun a p) {X : ExampleNet} {K : Sky} (hK : SkyOf a X K) {g : Vec}
    (hg : (g - ⟨0, 0, 6371000⟩).len ≤ 100000) (T : Time) :
    ∃ τ, T ≤ τ ∧ τ ≤ T + 480 * 1000000000 ∧ ∀ t : Time, τ ≤ t → t ≤ τ + 60 * 1000000000 → ∀ i < 117,
      ∃ f, K.pos i = some f ∧ ¬ InSlantRange p.elev g (f t) ∧ ¬ InSlantRange p.elev (f t) g := by
  have hpi1 := Real.pi_gt_d2
  have hpi2 := Real.pi_lt_d2
  obtain ⟨v1, v2⟩ := telesat_speed
  generalize hw : orbitSpeed ⟨1000, 99.5, 6, 12⟩ / 6371009 = w
  have w1 : 0.001154 ≤ w := by rw [← hw, le_div_iff₀ (by norm_num)]; norm_num at v1 ⊢; linarith
  have w2 : w ≤ 0.001155 := by rw [← hw, div_le_iff₀ (by norm_num)]; norm_num at v2 ⊢; linarith
  have w0 : 0 < w := by norm_num at w1; linarith
  have hm1 := Int.le_ceil ((((T : ℝ) / 1000000000 + 31) * w - Real.pi / 12) / (Real.pi / 6))
  have hm2 := Int.ceil_lt_add_one ((((T : ℝ) / 1000000000 + 31) * w - Real.pi / 12) / (Real.pi / 6))
  generalize ⌈(((T : ℝ) / 1000000000 + 31) * w - Real.pi / 12) / (Real.pi / 6)⌉ = m at hm1 hm2
  rw [div_le_iff₀ (by positivity)] at hm1
  rw [← sub_lt_iff_lt_add, lt_div_iff₀ (by positivity)] at hm2
  generalize hc : (m * (Real.pi / 6) + Real.pi / 12) / w = c
  have hcw : m * (Real.pi / 6) + Real.pi / 12 = c * w := by rw [← hc]; field_simp
  have c1 : (T : ℝ) / 1000000000 + 31 ≤ c := by
    rw [← hc, le_div_iff₀ w0]; linarith
  have c2 : c ≤ (T : ℝ) / 1000000000 + 31 + 460 := by
    rw [← hc, div_le_iff₀ w0]
    norm_num at w1
    nlinarith
  have hT0 : (0 : ℝ) ≤ (T : ℝ) / 1000000000 := by positivity
  have t1 := Nat.le_ceil ((c - 30) * 1000000000)
  have t2 := Nat.ceil_lt_add_one (a := (c - 30) * 1000000000) (by nlinarith)
  generalize ⌈(c - 30) * 1000000000⌉₊ = τ at t1 t2
  refine ⟨τ, ?_, ?_, ?_⟩
  · have : (T : ℝ) ≤ τ := by linarith
    exact_mod_cast this
  · have : (τ : ℝ) < T + 480 * 1000000000 := by linarith
    exact Nat.le_of_lt (by exact_mod_cast this)
  · intro t ht1 ht2 i hi
    have hlen : (places a.orbits).length = 117 := by rw [hR.eq, telesat_count]
    obtain ⟨⟨o, q, k⟩, hpl⟩ : ∃ y, (places a.orbits)[i]? = some y := ⟨_, List.getElem?_eq_getElem (by rw [hlen]; exact hi)⟩
    obtain ⟨f, hf, hfu⟩ := hK.sat i o q k hpl
    obtain ⟨u, hu, e⟩ := hfu t
    obtain ⟨u1, u2⟩ := reported_second hR.precNat hu
    refine ⟨f, hf, ?_⟩
    rw [e]
    have ho : o ∈ telesatOrbits := by
      rw [← hR.eq]
      exact (places_orbit (List.mem_of_getElem? hpl)).1
    refine pole_unheard hR.preset ho hg (m := m) ?_
    have b1 : (u : ℝ) ≤ t := by exact_mod_cast u1
    have b2 : (t : ℝ) ≤ u + 1000000000 := by exact_mod_cast u2
    have b3 : (τ : ℝ) ≤ t := by exact_mod_cast ht1
    have b4 : (t : ℝ) ≤ τ + 60 * 1000000000 := by exact_mod_cast ht2
    have e2 : orbitSpeed ⟨1000, 99.5, 6, 12⟩ * ((u : ℝ) / 1000000000) / 6371009 - (m * (Real.pi / 6) + Real.pi / 12) = w * ((u : ℝ) / 1000000000 - c) := by
      rw [hcw, ← hw]; ring
    have b5 : |(u : ℝ) / 1000000000 - c| ≤ 31 := by
      rw [abs_le]
      constructor <;> linarith
    rw [e2, abs_mul, abs_of_pos w0]
    norm_num at w2 ⊢
    nlinarith [abs_nonneg ((u : ℝ) / 1000000000 - c)]

/-- **C117, packets**: a packet that a station within 100 km of the north pole sends in a gap is received by nobody. -/
theorem C117_unheard {junk : ℝ} {a : ExampleArgs} {p : Preset} (hR : TelesatRun a p) {s : Sys} (h0 : Initial s) {X : ExampleNet}
    (h : exampleMain junk a s = .ok X) {K : Sky} (hK : SkyOf a X K) {j : Nat} {g : Vec} (hj : X.ground[j]? = some (some g))
    (hg : (g - ⟨0, 0, 6371000⟩).len ≤ 100000) (T : Time) :
    ∃ τ, T ≤ τ ∧ τ ≤ T + 480 * 1000000000 ∧ ∀ (E : Env), ErrorFree E → ∀ ops : List Op, (∀ op ∈ ops, PlainTraffic op) →
      ∀ s1, exec (K.env E) X.build.sys ops = .ok s1 → s1.pending = [] → τ ≤ s1.now → s1.now ≤ τ + 60 * 1000000000 →
      ∀ (q : Bytes) (proto : UInt16) (m : Mac48), q.length ≤ 1492 →
      ∃ n s2, exec (K.env E) s1 (.send (117 + j) q (.mac m) proto :: List.replicate n .run) = .ok s2 ∧ s2.pending = [] ∧
        ∀ x, upcallLog x s2.log = upcallLog x s1.log := by
  obtain ⟨τ, h1, h2, h3⟩ := C117_gap hR hK hg T
  refine ⟨τ, h1, h2, ?_⟩
  intro E hE ops ht s1 hx hq n1 n2 q proto m hlen
  have hc : (places a.orbits).length = 117 := by rw [hR.eq, telesat_count]
  have hi : ∀ o ∈ a.orbits, Installable o := by rw [hR.eq]; exact fun o ho => (telesat_installable o ho).1
  have ha : ∀ o ∈ a.orbits, 0.001 ≤ o.alt := by rw [hR.eq]; exact fun o ho => (telesat_installable o ho).2
  have hjl : j < X.ground.length := (List.getElem?_eq_some_iff.mp hj).1
  obtain ⟨n, s2, e1, e2, e3⟩ := C91_ground_space_packet hR.preset hR.name hi ha hR.count h0 h hK hE ht hx hq (j := 117 + j)
    (by rw [hc]; omega) hlen (proto := proto) (m := m)
  refine ⟨n, s2, e1, e2, fun x => ?_⟩
  have := e3 x
  rw [if_neg] at this
  · rwa [List.append_nil] at this
  · rintro ⟨k1, k2, _, f, f', k3, k4, k5⟩
    have hgp := hK.gnd j g hj
    rw [hc] at hgp k2
    rw [hgp] at k3
    obtain rfl := Option.some.inj k3
    have hx117 : x < 117 := by
      rcases k2 with ⟨k2, _⟩ | ⟨_, k2⟩
      · exact absurd k2 (Nat.not_lt.mpr (Nat.le_add_right _ _))
      · exact k2
    obtain ⟨f2, l1, l2, _⟩ := h3 s1.now n1 n2 x hx117
    rw [k4] at l1
    obtain rfl := Option.some.inj l1
    exact l2 k5

/-- Locations near the north pole. -/
theorem location_pole {x : ℝ} (h1 : |x - 90| ≤ 0.8) (y : ℝ) : (location x y - ⟨0, 0, 6371000⟩).len ≤ 100000 := by
  have hpi := Real.pi_lt_d2
  have hpi0 := Real.pi_pos
  unfold location Vec.len
  change √((6371000 * cos (x * (Real.pi / 180)) * cos (y * (Real.pi / 180)) - 0) * (6371000 * cos (x * (Real.pi / 180)) * cos (y * (Real.pi / 180)) - 0) +
    (6371000 * cos (x * (Real.pi / 180)) * sin (y * (Real.pi / 180)) - 0) * (6371000 * cos (x * (Real.pi / 180)) * sin (y * (Real.pi / 180)) - 0) +
    (6371000 * sin (x * (Real.pi / 180)) - 6371000) * (6371000 * sin (x * (Real.pi / 180)) - 6371000)) ≤ 100000
  rw [Real.sqrt_le_left (by norm_num)]
  have e : x * (Real.pi / 180) = (x - 90) * (Real.pi / 180) + Real.pi / 2 := by ring
  have hy := Real.sin_sq_add_cos_sq (y * (Real.pi / 180))
  have hx := Real.sin_sq_add_cos_sq (x * (Real.pi / 180))
  have hc : 1 - ((x - 90) * (Real.pi / 180)) ^ 2 / 2 ≤ sin (x * (Real.pi / 180)) := by
    rw [e, sin_add_pi_div_two]
    exact Real.one_sub_sq_div_two_le_cos
  have hb : ((x - 90) * (Real.pi / 180)) ^ 2 ≤ 0.000197 := by
    have h2 : |(x - 90) * (Real.pi / 180)| ≤ 0.014 := by
      rw [abs_mul, abs_of_pos (a := Real.pi / 180) (by positivity)]
      have : Real.pi / 180 ≤ 0.0175 := by linarith
      nlinarith [abs_nonneg (x - 90)]
    rw [← sq_abs]
    nlinarith [abs_nonneg ((x - 90) * (Real.pi / 180))]
  generalize cos (y * (Real.pi / 180)) = cy at hy ⊢
  generalize sin (y * (Real.pi / 180)) = sy at hy ⊢
  generalize cos (x * (Real.pi / 180)) = cx at hx ⊢
  generalize sin (x * (Real.pi / 180)) = sx at hx hc ⊢
  have e2 : (6371000 * cx * cy - 0) * (6371000 * cx * cy - 0) + (6371000 * cx * sy - 0) * (6371000 * cx * sy - 0) +
      (6371000 * sx - 6371000) * (6371000 * sx - 6371000) = 6371000 ^ 2 * (cx ^ 2 * (sy ^ 2 + cy ^ 2) + (sx - 1) ^ 2) := by ring
  rw [e2, hy]
  have e3 : cx ^ 2 * 1 + (sx - 1) ^ 2 = 2 - 2 * sx := by nlinarith
  rw [e3]
  norm_num at hb ⊢
  nlinarith

/-- **C117, users**: a user whose latitude is given as between -0.4 and 0.4 degrees is placed at the pole (see C43): again and again whatever they send for a whole minute is
received by nobody. -/
theorem C117_users {junk : ℝ} {a : ExampleArgs} {p : Preset} (hR : TelesatRun a p) {s : Sys} (h0 : Initial s) {X : ExampleNet}
    (h : exampleMain junk a s = .ok X) {K : Sky} (hK : SkyOf a X K) (hlat : |a.source.latitude| ≤ 0.4) (T : Time) :
    ∃ τ, T ≤ τ ∧ τ ≤ T + 480 * 1000000000 ∧ ∀ (E : Env), ErrorFree E → ∀ ops : List Op, (∀ op ∈ ops, PlainTraffic op) →
      ∀ s1, exec (K.env E) X.build.sys ops = .ok s1 → s1.pending = [] → τ ≤ s1.now → s1.now ≤ τ + 60 * 1000000000 →
      ∀ (q : Bytes) (proto : UInt16) (m : Mac48), q.length ≤ 1492 →
      ∃ n s2, exec (K.env E) s1 (.send (117 + a.lonGws * a.latGws % 2 ^ 32) q (.mac m) proto :: List.replicate n .run) = .ok s2 ∧ s2.pending = [] ∧
        ∀ x, upcallLog x s2.log = upcallLog x s1.log := by
  have hi : ∀ o ∈ a.orbits, Installable o := by rw [hR.eq]; exact fun o ho => (telesat_installable o ho).1
  obtain ⟨Y, e, _, _, hg1, _⟩ := C91_builds junk hR.preset hR.name hi hR.count s
  rw [h] at e
  obtain rfl := Outcome.ok.inj e
  refine C117_unheard hR h0 h hK hg1 (location_pole ?_ _) T
  have e : 90 - 2 * a.source.latitude - 90 = -(2 * a.source.latitude) := by ring
  rw [e, abs_neg, abs_mul, abs_of_pos (by norm_num)]
  linarith

/-- The default options but for the orbit file and the source, whose latitude is given as 0 (see C43). -/
noncomputable def telesatArgs : ExampleArgs :=
  { defaultArgs true with orbits := tracingOrbits (fun _ => ('x', 'y', 'z')) (some (some telesatFile)), source := ⟨0, 0⟩ }

/-- The hypotheses are met by the programs with `--orbitFile=data/orbits/telesat.csv --source=0:0`, at any time. -/
example (T : Time) : ∃ p X K s1, TelesatRun telesatArgs p ∧ exampleMain 0 telesatArgs Demo.sys = .ok X ∧ SkyOf telesatArgs X K ∧
    |telesatArgs.source.latitude| ≤ 0.4 ∧ exec (K.env Demo.env) X.build.sys [.wait T] = .ok s1 ∧ s1.pending = [] ∧ s1.now = X.build.sys.now + T := by
  have hR : TelesatRun telesatArgs ⟨"TelesatGateway", 105.9, 20, 189.3, 4.8, 0.36, 9857.1, 31.8⟩ :=
    ⟨⟨_, rfl⟩, by simp [presets], rfl, by simp [telesatArgs, defaultArgs]⟩
  have hi : ∀ o ∈ telesatArgs.orbits, Installable o := by rw [hR.eq]; exact fun o ho => (telesat_installable o ho).1
  have hc := hR.count
  obtain ⟨X, hX, _⟩ := C91_builds 0 hR.preset hR.name hi hc Demo.sys
  obtain ⟨K, hK, hsp, hof, _⟩ := sky_exists telesatArgs X
  obtain ⟨is, hr⟩ := (built_of hR.preset hR.name hi (by unfold satCount; exact hc) hX).run
  obtain ⟨s0, o, h0, hat, hex, _⟩ := C62_helper_network_is_history Demo.sys_initial hr
  obtain ⟨hpe, _⟩ := attached_only h0 (fun op hop => by
    obtain ⟨d, c, e, _⟩ := hat op hop
    exact ⟨d, c, e⟩) (hex (K.env Demo.env))
  have hw : exec (K.env Demo.env) X.build.sys [.wait T] = .ok { X.build.sys with now := X.build.sys.now + T } := by
    simp only [exec, step, hpe]
    rfl
  exact ⟨_, X, K, _, hR, hX, hK, by simp [telesatArgs]; norm_num, hw, hpe, rfl⟩

end Verif
