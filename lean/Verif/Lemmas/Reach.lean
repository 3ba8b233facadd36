import Verif.Spec.Reach
import Verif.Props.Constellation
/-! Distances of linked nodes. -/

namespace Verif
open Real Spec

theorem len_sq' (v : Vec) : v.len ^ 2 = dot v v := by rw [sq]; exact len_sq v

/-- Cauchy-Schwarz. -/
theorem dot_le (a b : Vec) : dot a b ≤ a.len * b.len := by
  have h1 : dot a b ^ 2 ≤ (a.len * b.len) ^ 2 := by
    rw [mul_pow, len_sq', len_sq']
    simp only [dot]
    nlinarith [sq_nonneg (a.x * b.y - a.y * b.x), sq_nonneg (a.y * b.z - a.z * b.y), sq_nonneg (a.z * b.x - a.x * b.z)]
  exact le_of_sq_le_sq h1 (mul_nonneg (len_nonneg _) (len_nonneg _))

theorem dist_sq (a b : Vec) : (b - a).len ^ 2 = a.len ^ 2 + b.len ^ 2 - 2 * dot a b := by
  rw [len_sq', len_sq', len_sq']
  simp only [dot, sub_x, sub_y, sub_z]
  ring

/-- The distance is at least the difference of the heights. -/
theorem dist_ge (a b : Vec) : |b.len - a.len| ≤ (b - a).len := by
  apply abs_le_of_sq_le_sq _ (len_nonneg _)
  rw [dist_sq]
  nlinarith [dot_le a b]

/-- A free line of sight is at most as long as the two ways to the common horizon. -/
theorem free_dist {R : ℝ} {a b : Vec} (hR : 0 ≤ R) (ha : R ≤ a.len) (hb : R ≤ b.len) (h : ¬ Obstructed R a b) :
    (b - a).len ≤ horizon R a.len + horizon R b.len := by
  set x := (b - a).len with hx
  have hx0 : 0 ≤ x := len_nonneg _
  have hd := dist_sq a b
  rw [← hx] at hd
  have ha0 : 0 ≤ a.len ^ 2 - R ^ 2 := by nlinarith
  have hb0 : 0 ≤ b.len ^ 2 - R ^ 2 := by nlinarith
  have hA := Real.sq_sqrt ha0
  have hB := Real.sq_sqrt hb0
  have hA0 := Real.sqrt_nonneg (a.len ^ 2 - R ^ 2)
  have hB0 := Real.sqrt_nonneg (b.len ^ 2 - R ^ 2)
  unfold horizon
  set A := √(a.len ^ 2 - R ^ 2)
  set B := √(b.len ^ 2 - R ^ 2)
  rcases hx0.eq_or_lt with h0 | hpos
  · rw [← h0]; positivity
  -- the foot of the perpendicular divides the line of sight into p / x and q / x
  set p := a.len ^ 2 - dot a b with hp
  set q := b.len ^ 2 - dot a b with hq
  have hpq : p + q = x ^ 2 := by rw [hp, hq]; linarith
  rcases lt_or_ge p 0 with hp0 | hp0
  · have : x ≤ B := by apply Real.le_sqrt_of_sq_le; nlinarith
    linarith
  rcases lt_or_ge q 0 with hq0 | hq0
  · have : x ≤ A := by apply Real.le_sqrt_of_sq_le; nlinarith
    linarith
  -- the foot lies on the line of sight, hence outside the Earth
  have hfoot : R ^ 2 < a.len ^ 2 - p ^ 2 / x ^ 2 := by
    by_contra hle
    push Not at hle
    refine h ⟨p / x ^ 2, by positivity, ?_, ?_⟩
    · rw [div_le_one (by positivity)]; linarith
    · rw [segment_dot, ← len_sq', ← len_sq']
      have e1 : dot a b = a.len ^ 2 - p := by rw [hp]; ring
      have e2 : b.len ^ 2 = q + a.len ^ 2 - p := by rw [hq]; linarith
      rw [e2, e1]
      have e3 : q = x ^ 2 - p := by linarith
      rw [e3]
      have : (1 - p / x ^ 2) ^ 2 * a.len ^ 2 + 2 * (p / x ^ 2) * (1 - p / x ^ 2) * (a.len ^ 2 - p) +
          (p / x ^ 2) ^ 2 * (x ^ 2 - p + a.len ^ 2 - p) = a.len ^ 2 - p ^ 2 / x ^ 2 := by
        field_simp
        ring
      rw [this]; exact hle
  have hfoot' : R ^ 2 < b.len ^ 2 - q ^ 2 / x ^ 2 := by
    have : b.len ^ 2 - q ^ 2 / x ^ 2 = a.len ^ 2 - p ^ 2 / x ^ 2 := by
      have e2 : b.len ^ 2 = q + a.len ^ 2 - p := by rw [hq]; linarith
      have e3 : q = x ^ 2 - p := by linarith
      rw [e2, e3]
      field_simp
      ring
    rw [this]; exact hfoot
  have h1 : p / x ≤ A := by
    apply Real.le_sqrt_of_sq_le; rw [div_pow]; linarith
  have h2 : q / x ≤ B := by
    apply Real.le_sqrt_of_sq_le; rw [div_pow]; linarith
  calc x = p / x + q / x := by field_simp; linarith
    _ ≤ A + B := add_le_add h1 h2

/-- Within the slant range. -/
theorem slant_dist {R r s x : ℝ} (hr : 0 ≤ r) (hs : 0 ≤ s) (hx : 0 ≤ x) (hR : R ^ 2 ≤ r ^ 2) :
    x ^ 2 + 2 * r * x * s ≤ r ^ 2 - R ^ 2 ↔ x ≤ slantRange R r s := by
  unfold slantRange
  have hrs : 0 ≤ r * s := mul_nonneg hr hs
  have h0 : 0 ≤ (r * s) ^ 2 + (r ^ 2 - R ^ 2) := by nlinarith [sq_nonneg (r * s)]
  have e : x ≤ √((r * s) ^ 2 + (r ^ 2 - R ^ 2)) - r * s ↔ x + r * s ≤ √((r * s) ^ 2 + (r ^ 2 - R ^ 2)) := by
    constructor <;> intro h <;> linarith
  rw [e, Real.le_sqrt (show 0 ≤ x + r * s by positivity)]
  · constructor <;> intro h <;> nlinarith
  · exact h0

/-- Every hand-over is one that the channel models allowed at that moment. -/
theorem handed_reach {E : Env} {s0 s : Sys} {ops : List Op} (h0 : Initial s0) (h : exec E s0 ops = .ok s)
    {t : Time} {c : ChanId} {f : Bytes} {src dst : DevId} {tx del : Time}
    (hm : (t, Ev.txrx c f src dst tx del) ∈ s.log) {ns nd : NodeId} (hns : (s0.dev src).node = some ns)
    (hnd : (s0.dev dst).node = some nd) : ∃ tp pw, reach E t c tp ns nd tx = some (del, pw) := by
  obtain ⟨o1, op, o2, s1, s2, rfl, h1, h2, h3, h4⟩ := log_entry_origin h0 h hm
  have hg := good_exec h0 h1
  obtain ⟨dest, pw, _, _, _, rfl, htx, hr, _, hb⟩ := txrx_step hg.inv hg.wired h2 h4
  unfold reachDev at hr
  simp only at hr
  rw [node_exec h1, node_exec h1, hns, hnd] at hr
  exact ⟨_, pw, hr⟩

/-- The same for the channels of the helpers. -/
theorem handed_sky {K : Sky} {E : Env} {s0 s : Sys} {ops : List Op} (h0 : Initial s0) (h : exec (K.env E) s0 ops = .ok s)
    {t : Time} {c : ChanId} {f : Bytes} {src dst : DevId} {tx del : Time}
    (hm : (t, Ev.txrx c f src dst tx del) ∈ s.log) {ns nd : NodeId} (hns : (s0.dev src).node = some ns)
    (hnd : (s0.dev dst).node = some nd) {p q : Time → Vec} (hp : K.pos ns = some p) (hq : K.pos nd = some q) :
    del = K.ofSeconds ((q t - p t).len / K.speed) ∧ ∃ tp, -900 ≤ Sky.loss (K.budget c) tp (p t) (q t) := by
  obtain ⟨tp, pw, hr⟩ := handed_reach h0 h hm hns hnd
  unfold reach at hr
  simp only [Sky.env, hp, hq, Option.isSome_some, Option.map_some, Option.getD_some] at hr
  split at hr
  · rename_i hl
    injection hr with hr
    injection hr with h1 h2
    exact ⟨h1.symm, tp, hl⟩
  · cases hr

theorem allowed_isl {tp : Power} {a b : Vec} (h : -900 ≤ Sky.loss none tp a b) : islLos a b = true := by
  unfold Sky.loss at h
  cases hl : islLos a b with
  | true => rfl
  | false => simp only [hl] at h; norm_num at h

theorem allowed_leo {m : LeoBudget} (h1 : -90 < m.elev) (h2 : m.elev < 90) {tp : Power} {a b : Vec}
    (hR : propEarthRad ≤ max a.len b.len) (h : -900 ≤ Sky.loss (some m) tp a b) : InSlantRange m.elev a b := by
  by_contra hn
  rw [(loss_slant h1 h2 tp hR).2 hn] at h
  norm_num at h

/-- `InSlantRange` solved for the distance. -/
theorem slant_range_iff {e : ℝ} {a b : Vec} (hR : propEarthRad ≤ max a.len b.len) :
    InSlantRange e a b ↔ (b - a).len ≤ slantRange propEarthRad (max a.len b.len) |sin (rad e)| := by
  have h0 := propEarthRad_pos
  exact slant_dist (by linarith) (abs_nonneg _) (len_nonneg _) (by nlinarith)

/-- Satellites do not get beyond the latitude of their inclination. -/
theorem position_z (o : Orbit) (t : Time) : (o.position t).z = o.height * 1000 * (cos (o.progress t) * sin o.incl) := by
  rw [position_eq]; simp [smul, axisU, axisW]

theorem tilt_mem (i : ℝ) : 0 ≤ tilt i ∧ tilt i ≤ Real.pi / 2 :=
  ⟨Real.arcsin_nonneg.mpr (abs_nonneg _), Real.arcsin_le_pi_div_two _⟩

theorem sin_tilt (i : ℝ) : sin (tilt i) = |sin i| :=
  Real.sin_arcsin (by linarith [abs_nonneg (sin i)]) (Real.abs_sin_le_one i)

/-- Scalar product of two vectors by latitude. -/
theorem dot_le_lat {a b : Vec} {r q α β : ℝ} (hr : 0 ≤ r) (hq : 0 ≤ q) (ha : dot a a = r * r) (hb : dot b b = q * q)
    (haz : a.z = r * sin α) (hbz : b.z = q * sin β) (hα : 0 ≤ cos α) (hβ : 0 ≤ cos β) :
    dot a b ≤ r * q * cos (α - β) := by
  have e1 := sin_sq_add_cos_sq α
  have e2 := sin_sq_add_cos_sq β
  have k1 : a.x ^ 2 + a.y ^ 2 = (r * cos α) ^ 2 := by
    simp only [dot] at ha; rw [haz] at ha; linear_combination ha - r ^ 2 * e1
  have k2 : b.x ^ 2 + b.y ^ 2 = (q * cos β) ^ 2 := by
    simp only [dot] at hb; rw [hbz] at hb; linear_combination hb - q ^ 2 * e2
  have k3 : a.x * b.x + a.y * b.y ≤ (r * cos α) * (q * cos β) := by
    apply le_of_sq_le_sq _ (by positivity)
    rw [mul_pow, ← k1, ← k2]
    nlinarith [sq_nonneg (a.x * b.y - a.y * b.x)]
  simp only [dot]
  rw [haz, hbz, cos_sub]
  linarith

/-- A satellite and a point at a latitude beyond the reach of its orbit. -/
theorem band_dot {o : Orbit} (hh : 0 ≤ o.height) (t : Time) {g : Vec} {q φ : ℝ} (hq : 0 ≤ q) (hg : dot g g = q * q)
    (hz : g.z = q * sin φ) (h1 : -(Real.pi / 2) ≤ φ) (h2 : φ ≤ Real.pi / 2) (hφ : tilt o.incl ≤ |φ|) :
    dot (o.position t) g ≤ o.height * 1000 * q * cos (|φ| - tilt o.incl) := by
  obtain ⟨t1, t2⟩ := tilt_mem o.incl
  have hpi := Real.pi_pos
  set w := cos (o.progress t) * sin o.incl with hw
  have hwle : |w| ≤ |sin o.incl| := by
    rw [hw, abs_mul]
    nlinarith [Real.abs_cos_le_one (o.progress t), abs_nonneg (sin o.incl)]
  have hw1 : |w| ≤ 1 := hwle.trans (Real.abs_sin_le_one _)
  have hθ : sin (Real.arcsin w) = w := Real.sin_arcsin (by linarith [(abs_le.mp hw1).1]) (abs_le.mp hw1).2
  have hθt : |Real.arcsin w| ≤ tilt o.incl := by
    unfold tilt
    rw [abs_le]
    constructor
    · rw [← Real.arcsin_neg]; exact Real.arcsin_le_arcsin (by linarith [(abs_le.mp hwle).1])
    · exact Real.arcsin_le_arcsin (abs_le.mp hwle).2
  have hd := dot_le_lat (a := o.position t) (b := g) (r := o.height * 1000) (q := q) (α := Real.arcsin w) (β := φ) (by positivity) hq
    (position_dot o t) hg (by rw [position_z, hθ]) hz (Real.cos_arcsin_nonneg _)
    (cos_nonneg_of_neg_pi_div_two_le_of_le h1 h2)
  refine hd.trans (mul_le_mul_of_nonneg_left ?_ (by positivity))
  rw [← Real.cos_abs (Real.arcsin w - φ)]
  have b1 : |φ| - tilt o.incl ≤ |Real.arcsin w - φ| := by
    have := abs_sub_abs_le_abs_sub φ (Real.arcsin w)
    rw [abs_sub_comm] at this
    linarith
  have b2 : |Real.arcsin w - φ| ≤ Real.pi := by
    have := abs_sub (Real.arcsin w) φ
    have : |φ| ≤ Real.pi / 2 := abs_le.mpr ⟨h1, h2⟩
    linarith [abs_sub (Real.arcsin w) φ]
  exact Real.cos_le_cos_of_nonneg_of_le_pi (by linarith) b2 b1

/-! ## Passes of a plane -/

/-- Coordinates of a point at latitude `φ`, longitude `lam`. -/
theorem dot_axisN {g : Vec} {q φ lam : ℝ} (hg : g = ⟨q * (cos φ * cos lam), q * (cos φ * sin lam), q * sin φ⟩) (i l : ℝ) :
    dot (axisN i l) g = q * (cos i * sin φ - sin i * cos φ * cos (l - lam)) := by
  rw [hg, cos_sub]; simp only [dot, axisN]; ring

/-- A plane contains the points of latitude `φ` for some longitude of the plane. -/
theorem plane_through {i φ : ℝ} (h1 : -(Real.pi / 2) ≤ φ) (h2 : φ ≤ Real.pi / 2) (hφ : |φ| ≤ tilt i) :
    ∃ x, cos i * sin φ = sin i * cos φ * cos x := by
  have hc : 0 ≤ cos φ := cos_nonneg_of_neg_pi_div_two_le_of_le h1 h2
  obtain ⟨t1, t2⟩ := tilt_mem i
  have hpi := Real.pi_pos
  have hs : |sin φ| ≤ |sin i| := by
    rw [← sin_tilt i, Real.abs_sin_eq_sin_abs_of_abs_le_pi (by linarith)]
    exact sin_le_sin_of_le_of_le_pi_div_two (by linarith [abs_nonneg φ]) t2 hφ
  have hs2 : sin φ ^ 2 ≤ sin i ^ 2 := sq_le_sq.mpr hs
  have hle : |cos i * sin φ| ≤ |sin i * cos φ| := by
    rw [← sq_le_sq, mul_pow, mul_pow]
    nlinarith [sin_sq_add_cos_sq i, sin_sq_add_cos_sq φ]
  by_cases h0 : sin i * cos φ = 0
  · refine ⟨0, ?_⟩
    rw [h0, abs_zero] at hle
    rw [h0, zero_mul]
    exact abs_eq_zero.mp (le_antisymm hle (abs_nonneg _))
  · refine ⟨Real.arccos (cos i * sin φ / (sin i * cos φ)), ?_⟩
    have hq : |cos i * sin φ / (sin i * cos φ)| ≤ 1 := by
      rw [abs_div]; exact (div_le_one (abs_pos.mpr h0)).mpr hle
    rw [Real.cos_arccos (abs_le.mp hq).1 (abs_le.mp hq).2, mul_div_cancel₀ _ h0]

/-- An angle that advances by `2 π / D` per step from any of `n` evenly spaced angles meets every direction within one
`n`-th of a turn, up to one step. -/
theorem sweep {n : Nat} (hn : 0 < n) {D : ℝ} (hD : 0 < D) (a : ℝ) (t0 : Nat) :
    ∃ (t p : Nat) (k : ℤ), p < n ∧ t0 ≤ t ∧ (t : ℝ) ≤ t0 + D / n ∧
      |2 * Real.pi * p / n + (t : ℝ) / D * (2 * Real.pi) - a - k * (2 * Real.pi)| ≤ 2 * Real.pi / D := by
  have hpi := Real.pi_pos
  have hn' : (0 : ℝ) < n := by exact_mod_cast hn
  -- what is missing at t0, in turns, rounded down to a multiple of 1 / n
  set y : ℝ := a / (2 * Real.pi) - (t0 : ℝ) / D with hy
  set m : ℤ := ⌊n * y⌋ with hm
  have m1 : (m : ℝ) ≤ n * y := Int.floor_le _
  have m2 : n * y < m + 1 := Int.lt_floor_add_one _
  have hmod := Int.emod_add_mul_ediv m n
  have hp0 : 0 ≤ m % (n : ℤ) := Int.emod_nonneg _ (by exact_mod_cast hn.ne')
  have hp1 : m % (n : ℤ) < n := Int.emod_lt_of_pos _ (by exact_mod_cast hn)
  obtain ⟨p, hp⟩ := Int.eq_ofNat_of_zero_le hp0
  set z : ℝ := D * (y - m / n) with hz
  have z0 : 0 ≤ z := by
    apply mul_nonneg hD.le
    rw [sub_nonneg, div_le_iff₀ hn']
    linarith
  have z1 : z ≤ D / n := by
    rw [hz, le_div_iff₀ hn']
    have : (y - m / n) * n ≤ 1 := by rw [sub_mul, div_mul_cancel₀ _ hn'.ne']; linarith
    nlinarith
  have f1 : (⌊z⌋₊ : ℝ) ≤ z := Nat.floor_le z0
  have f2 : z < ⌊z⌋₊ + 1 := Nat.lt_floor_add_one z
  refine ⟨t0 + ⌊z⌋₊, p, -(m / (n : ℤ)), by rw [hp] at hp1; exact_mod_cast hp1, by omega, ?_, ?_⟩
  · push_cast
    linarith
  · have hpm : (p : ℝ) = m - n * ((m / (n : ℤ) : ℤ) : ℝ) := by
      have : ((m % (n : ℤ) : ℤ) : ℝ) = p := by rw [hp]; simp
      rw [← this]
      have h3 : ((m % (n : ℤ) + n * (m / (n : ℤ)) : ℤ) : ℝ) = m := by rw [hmod]
      push_cast at h3 ⊢
      linarith
    have ha : a = 2 * Real.pi * (y + t0 / D) := by rw [hy]; field_simp; ring
    have hyz : y = z / D + m / n := by rw [hz]; field_simp; ring
    have e : 2 * Real.pi * p / n + ((t0 + ⌊z⌋₊ : Nat) : ℝ) / D * (2 * Real.pi) - a - ((-(m / (n : ℤ)) : ℤ) : ℝ) * (2 * Real.pi) =
        2 * Real.pi * (⌊z⌋₊ - z) / D := by
      rw [ha, hyz, hpm]
      push_cast
      field_simp
      ring
    rw [e, abs_div, abs_of_pos hD, abs_mul, abs_of_pos (by positivity : (0 : ℝ) < 2 * Real.pi)]
    apply div_le_div_of_nonneg_right _ hD.le
    have : |(⌊z⌋₊ : ℝ) - z| ≤ 1 := by rw [abs_le]; constructor <;> linarith
    nlinarith

/-- Of `n` evenly spaced directions one is within half a step of any given one. -/
theorem nearest_slot {n : Nat} (hn : 0 < n) (u θ : ℝ) :
    ∃ k < n, cos (Real.pi / n) ≤ cos (u + 2 * Real.pi * k / n - θ) := by
  have hpi := Real.pi_pos
  have hn' : (0 : ℝ) < n := by exact_mod_cast hn
  have hn1 : (1 : ℝ) ≤ n := by exact_mod_cast hn
  set y : ℝ := n * ((θ - u) / (2 * Real.pi)) with hy
  set m : ℤ := round y with hm
  have hr : |y - m| ≤ 1 / 2 := abs_sub_round y
  have hmod := Int.emod_add_mul_ediv m n
  have hp0 : 0 ≤ m % (n : ℤ) := Int.emod_nonneg _ (by exact_mod_cast hn.ne')
  have hp1 : m % (n : ℤ) < n := Int.emod_lt_of_pos _ (by exact_mod_cast hn)
  obtain ⟨p, hp⟩ := Int.eq_ofNat_of_zero_le hp0
  refine ⟨p, by rw [hp] at hp1; exact_mod_cast hp1, ?_⟩
  have hpm : (p : ℝ) = m - n * ((m / (n : ℤ) : ℤ) : ℝ) := by
    have : ((m % (n : ℤ) : ℤ) : ℝ) = p := by rw [hp]; simp
    rw [← this]
    have h3 : ((m % (n : ℤ) + n * (m / (n : ℤ)) : ℤ) : ℝ) = m := by rw [hmod]
    push_cast at h3 ⊢
    linarith
  have hθ : θ = u + 2 * Real.pi * y / n := by rw [hy]; field_simp; ring
  have e : u + 2 * Real.pi * p / n - θ = 2 * Real.pi * (m - y) / n - ((m / (n : ℤ) : ℤ) : ℝ) * (2 * Real.pi) := by
    rw [hθ, hpm]; field_simp; ring
  rw [e, Real.cos_sub_int_mul_two_pi, ← Real.cos_abs (2 * Real.pi * (m - y) / n)]
  refine Real.cos_le_cos_of_nonneg_of_le_pi (abs_nonneg _) ?_ ?_
  · exact (div_le_self hpi.le hn1)
  · rw [abs_div, abs_of_pos hn', abs_mul, abs_of_pos (by positivity : (0 : ℝ) < 2 * Real.pi), abs_sub_comm]
    apply div_le_div_of_nonneg_right _ hn'.le
    nlinarith

/-- A plane of `n` evenly spaced satellites and a point near the plane. -/
theorem nearest_satellite {h i l : ℝ} (hh : 0 ≤ h) {n : Nat} (hn : 2 ≤ n) (t : Time) {g : Vec} {q ν : ℝ} (hq : 0 ≤ q)
    (hg : dot g g = q * q) (hν : |dot (axisN i (Orbit.latitude ⟨h, i, l, 0⟩ t)) g| ≤ q * ν) (hν1 : ν ≤ 1) :
    ∃ k < n, h * 1000 * q * ((1 - ν ^ 2) * cos (Real.pi / n)) ≤ dot (Orbit.position ⟨h, i, l, 2 * Real.pi * k / n⟩ t) g := by
  set L := Orbit.latitude ⟨h, i, l, 0⟩ t with hL
  set a := dot (axisU i L) g with ha
  set b := dot (axisW L) g with hb
  set v := dot (axisN i L) g with hv
  have hsum : a ^ 2 + b ^ 2 + v ^ 2 = q * q := by
    rw [← hg, ha, hb, hv]
    have e1 := sin_sq_add_cos_sq i
    have e2 := sin_sq_add_cos_sq L
    simp only [dot, axisU, axisW, axisN]
    linear_combination ((g.x * cos L + g.y * sin L) ^ 2 + g.z ^ 2) * e1 + (g.x ^ 2 + g.y ^ 2) * e2
  have hw0 : 0 ≤ a ^ 2 + b ^ 2 := by positivity
  -- direction of the projection
  obtain ⟨θ, hθa, hθb⟩ : ∃ θ, a = √(a ^ 2 + b ^ 2) * cos θ ∧ b = √(a ^ 2 + b ^ 2) * sin θ := by
    refine ⟨Complex.arg ⟨a, b⟩, ?_, ?_⟩
    · have := Complex.norm_mul_cos_arg ⟨a, b⟩
      rw [Complex.norm_def, Complex.normSq_mk, ← sq, ← sq] at this
      exact this.symm
    · have := Complex.norm_mul_sin_arg ⟨a, b⟩
      rw [Complex.norm_def, Complex.normSq_mk, ← sq, ← sq] at this
      exact this.symm
  obtain ⟨k, hk, hcos⟩ := nearest_slot (n := n) (by omega) (Orbit.progress ⟨h, i, l, 0⟩ t) θ
  refine ⟨k, hk, ?_⟩
  have hpos : dot (Orbit.position ⟨h, i, l, 2 * Real.pi * k / n⟩ t) g =
      h * 1000 * (√(a ^ 2 + b ^ 2) * cos (Orbit.progress ⟨h, i, l, 0⟩ t + 2 * Real.pi * k / n - θ)) := by
    rw [position_eq, progress_off h i l _ 0, sub_zero]
    have hlat : Orbit.latitude ⟨h, i, l, 2 * Real.pi * k / n⟩ t = L := rfl
    rw [hlat, cos_sub]
    generalize Orbit.progress ⟨h, i, l, 0⟩ t + 2 * Real.pi * k / n = u
    have e : √(a ^ 2 + b ^ 2) * (cos u * cos θ + sin u * sin θ) = cos u * a + sin u * b := by
      linear_combination (-cos u) * hθa - sin u * hθb
    rw [e, ha, hb]
    simp only [dot, smul, add_x, add_y, add_z]
    ring
  rw [hpos, mul_assoc]
  apply mul_le_mul_of_nonneg_left _ (by positivity)
  have hn' : (2 : ℝ) ≤ n := by exact_mod_cast hn
  have hc0 : 0 ≤ cos (Real.pi / n) := cos_nonneg_of_neg_pi_div_two_le_of_le
    (by have := Real.pi_pos; have : 0 < Real.pi / n := by positivity
        linarith) (div_le_div_of_nonneg_left Real.pi_pos.le (by norm_num) hn')
  have hw : q * (1 - ν ^ 2) ≤ √(a ^ 2 + b ^ 2) := by
    have hqν : 0 ≤ q * ν := le_trans (abs_nonneg _) hν
    have hv2 : v ^ 2 ≤ (q * ν) ^ 2 := by rw [← sq_abs v]; exact pow_le_pow_left₀ (abs_nonneg _) hν 2
    rcases hq.eq_or_lt with h0 | h0
    · rw [← h0, zero_mul]; exact Real.sqrt_nonneg _
    have hν0 : 0 ≤ ν := nonneg_of_mul_nonneg_right hqν h0
    apply Real.le_sqrt_of_sq_le
    have hx1 : 0 ≤ 1 - ν ^ 2 := by nlinarith
    have hx2 : (1 - ν ^ 2) ^ 2 ≤ 1 - ν ^ 2 := by nlinarith [sq_nonneg ν]
    have hx3 : q * q * (1 - ν ^ 2) ^ 2 ≤ q * q * (1 - ν ^ 2) := mul_le_mul_of_nonneg_left hx2 (by positivity)
    rw [mul_pow] at hv2 ⊢
    nlinarith
  calc q * ((1 - ν ^ 2) * cos (Real.pi / n)) = q * (1 - ν ^ 2) * cos (Real.pi / n) := by ring
    _ ≤ √(a ^ 2 + b ^ 2) * cos (Real.pi / n) := mul_le_mul_of_nonneg_right hw hc0
    _ ≤ _ := mul_le_mul_of_nonneg_left hcos (Real.sqrt_nonneg _)

end Verif
