import Verif.Lemmas.OrbitSched
import Mathlib.Analysis.Calculus.Deriv.Mul
import Mathlib.Analysis.Calculus.Deriv.Add
/-!
# Circular orbits: C31-C39

A history starts with the construction of the model with arbitrary attribute values (`junk` is the
indeterminate value of uninitialised members) and continues with arbitrary operations.
-/

namespace Verif
open Real

/-- A state some history leads to. -/
def SatReachable (s : Sat) : Prop :=
  ∃ junk now a i p s0 ops, Sat.create junk now a i p = .ok s0 ∧ s0.exec ops = .ok s

theorem SatReachable.inv {s : Sat} (h : SatReachable s) : SatInv s := by
  obtain ⟨_, _, _, _, _, _, _, h1, h2⟩ := h
  exact satInv_exec (satInv_create h1) h2

/-- A satellite at 1000 km, inclination 60 degrees, precision 1 s, positioned once. -/
theorem demoSat_reachable : ∃ s : Sat, SatReachable s ∧ s.getAltitude = 1000 ∧ s.prec = 1000000000 ∧ s.now = 5 ∧
    s.pending = [1000000005] := by
  refine ⟨_, ⟨0, 5, 1000, 60, 1000000000, _, [.setPosition ⟨1, 2, 0⟩], create_eq _ _ _ _ _ (by norm_num), rfl⟩, ?_, ?_, ?_, ?_⟩
  · simp [Sat.getAltitude, Sat.setPosition, Sat.update]
  · simp [Sat.setPosition, Sat.update]
  · simp [Sat.setPosition, Sat.update]
  · simp [Sat.setPosition, Sat.update, insertTime]

/-! ## C31 -/

/-- C31: the reported position is at distance altitude plus Earth radius from the centre, whatever the history. -/
theorem C31_on_sphere {s : Sat} (h : SatReachable s) (ha : -6371.009 ≤ s.getAltitude) :
    s.getPosition.len = (6371.009 + s.getAltitude) * 1000 := by
  obtain ⟨u, _, hp⟩ := getPosition_exact h.inv
  have hh : 6371.009 + s.getAltitude = s.orbit.height := by
    unfold Sat.getAltitude earthRadKm; ring
  rw [hh, hp]
  apply len_eq
  · have : 0 ≤ s.orbit.height := by rw [← hh]; linarith
    linarith
  · exact position_dot _ _

example : ∃ s : Sat, SatReachable s ∧ -6371.009 ≤ s.getAltitude := by
  obtain ⟨s, h, ha, _⟩ := demoSat_reachable
  exact ⟨s, h, by rw [ha]; norm_num⟩

/-! ## C32 -/

/-- Normal of the plane through the centre that contains the point at latitude `i`, longitude `l` and the
horizontal direction there: tilted by `i` against the Earth's axis. -/
noncomputable def Spec.planeNormal (i l : ℝ) : Vec := ⟨-(sin i * cos l), -(sin i * sin l), cos i⟩

/-- C32: the position lies in the plane of the inclination, whose unit normal makes the angle `inclination`
with the axis; the plane turns with the Earth once a day. The angle to the equator never exceeds the inclination. -/
theorem C32_in_plane {s : Sat} (h : SatReachable s) (ha : -6371.009 ≤ s.getAltitude) :
    ∃ u, u ≤ s.now ∧ (s.prec = 0 → u = s.now) ∧
      let i := s.getInclination * (Real.pi / 180)
      let n := Spec.planeNormal i (s.orbit.lon + 2 * Real.pi * (seconds u / 86400))
      dot n s.getPosition = 0 ∧ n.len = 1 ∧ dot n ⟨0, 0, 1⟩ = cos i ∧
      |s.getPosition.z| ≤ (6371.009 + s.getAltitude) * 1000 * |sin i| := by
  have hu : ∃ u, u ≤ s.now ∧ (s.prec = 0 → u = s.now) ∧ s.getPosition = s.orbit.position u := by
    unfold Sat.getPosition
    by_cases hp : s.prec = 0
    · rw [if_pos hp]; exact ⟨s.now, Nat.le_refl _, fun _ => rfl, rfl⟩
    · rw [if_neg hp]
      obtain ⟨u, h1, h2⟩ := h.inv.fresh
      exact ⟨u, h1, fun h => absurd h hp, h2⟩
  obtain ⟨u, hu, h0, hp⟩ := hu
  refine ⟨u, hu, h0, ?_⟩
  have hpi : Real.pi ≠ 0 := Real.pi_ne_zero
  have hi : s.getInclination * (Real.pi / 180) = s.orbit.incl := by
    unfold Sat.getInclination; field_simp
  have hl : s.orbit.lon + 2 * Real.pi * (seconds u / 86400) = s.orbit.latitude u := by
    unfold Orbit.latitude seconds; ring
  have hn : Spec.planeNormal s.orbit.incl (s.orbit.latitude u) = s.orbit.norm u := by
    rw [norm_eq]; unfold Spec.planeNormal axisN; ext <;> simp
  have hh : 6371.009 + s.getAltitude = s.orbit.height := by unfold Sat.getAltitude earthRadKm; ring
  simp only [hi, hl, hn, hp, hh]
  refine ⟨position_norm _ _, ?_, ?_, ?_⟩
  · apply len_eq (by norm_num)
    rw [norm_eq, (axis_dots _ _).2.2.2.1]; norm_num
  · simp [dot, Orbit.norm]
  · rw [position_eq]
    simp only [smul, add_z, axisU, axisW]
    have hr : 0 ≤ s.orbit.height * 1000 := by rw [← hh]; linarith
    rw [mul_zero, add_zero, abs_mul, abs_of_nonneg hr, abs_mul]
    have h1 : |cos (s.orbit.progress u)| ≤ 1 := abs_cos_le_one _
    have h2 : |cos (s.orbit.progress u)| * |sin s.orbit.incl| ≤ 1 * |sin s.orbit.incl| :=
      mul_le_mul_of_nonneg_right h1 (abs_nonneg _)
    rw [one_mul] at h2
    exact mul_le_mul_of_nonneg_left h2 hr

/-- C32: the inclination is attained: whenever the progress is a multiple of half a turn, the satellite is at
the highest or lowest latitude. -/
theorem C32_inclination_attained (o : Orbit) (t : Time) (hh : 0 ≤ o.height) (k : ℤ) (hk : o.progress t = k * Real.pi) :
    |(o.position t).z| = o.height * 1000 * |sin o.incl| := by
  rw [position_eq]
  simp only [smul, add_z, axisU, axisW]
  rw [mul_zero, add_zero, abs_mul, abs_of_nonneg (by linarith : (0 : ℝ) ≤ o.height * 1000), abs_mul, hk]
  rw [abs_cos_int_mul_pi, one_mul]

example : ∃ (o : Orbit) (t : Time) (k : ℤ), 0 ≤ o.height ∧ o.progress t = k * Real.pi ∧ sin o.incl ≠ 0 := by
  refine ⟨⟨7000, Real.pi / 2, 1, Real.pi⟩, 0, 1, by norm_num, ?_, by simp⟩
  simp [Orbit.progress, seconds]

/-! ## C33 -/

/-- C33: moving along the orbit is a rotation about the plane's normal: it composes additively, a full turn is
the identity, it preserves lengths and angles and leaves the normal fixed. -/
theorem C33_rotation (n : Vec) (hn : dot n n = 1) (a b : ℝ) (x y : Vec) :
    rotatePlane n a (rotatePlane n b x) = rotatePlane n (a + b) x ∧
    rotatePlane n 0 x = x ∧ rotatePlane n (a + 2 * Real.pi) x = rotatePlane n a x ∧
    dot (rotatePlane n a x) (rotatePlane n a y) = dot x y ∧ rotatePlane n a n = n := by
  refine ⟨rotatePlane_add n a b x hn, rotatePlane_zero n x hn, ?_, rotatePlane_dot n a x y hn, ?_⟩
  · unfold rotatePlane; rw [cos_add_two_pi, sin_add_two_pi]
  · rw [rotatePlane_eq, cross_self, hn]
    ext <;> simp [smul, cross]

/-- The normals of the model are unit vectors. -/
theorem C33_normals_are_units (o : Orbit) (t : Time) : dot (o.norm t) (o.norm t) = 1 := by
  rw [norm_eq]; exact (axis_dots _ _).2.2.2.1

/-- C33: two satellites of the same plane and altitude keep their distance: it is the chord of the difference
of their offsets, at every time. -/
theorem C33_constant_distance (h i l o1 o2 : ℝ) (hh : 0 ≤ h) (t : Time) :
    ((Orbit.position ⟨h, i, l, o1⟩ t) - (Orbit.position ⟨h, i, l, o2⟩ t)).len = h * 1000 * (2 * |sin ((o1 - o2) / 2)|) := by
  apply len_eq (by positivity)
  rw [position_eq, position_eq]
  have hlat : ∀ o, Orbit.latitude ⟨h, i, l, o⟩ t = Orbit.latitude ⟨h, i, l, 0⟩ t := fun _ => rfl
  have hpr : Orbit.progress ⟨h, i, l, o1⟩ t = (o1 - o2) + Orbit.progress ⟨h, i, l, o2⟩ t := by
    unfold Orbit.progress Orbit.speed; simp only; ring
  rw [hlat o1, hlat o2, hpr]
  simp only
  generalize Orbit.progress ⟨h, i, l, o2⟩ t = q
  generalize Orbit.latitude ⟨h, i, l, 0⟩ t = m
  have hsub : smul (h * 1000) (smul (cos (o1 - o2 + q)) (axisU i m) + smul (sin (o1 - o2 + q)) (axisW m)) -
      smul (h * 1000) (smul (cos q) (axisU i m) + smul (sin q) (axisW m)) =
      smul (h * 1000) (smul (cos (o1 - o2 + q) - cos q) (axisU i m) + smul (sin (o1 - o2 + q) - sin q) (axisW m)) := by
    ext <;> simp only [smul, add_x, add_y, add_z, sub_x, sub_y, sub_z] <;> ring
  rw [hsub, dot_comb]
  have e1 : o1 - o2 = 2 * ((o1 - o2) / 2) := by ring
  generalize (o1 - o2) / 2 = d at e1 ⊢
  rw [e1, cos_add, sin_add, cos_two_mul, sin_two_mul]
  have s1 := sin_sq_add_cos_sq d
  have s2 := sin_sq_add_cos_sq q
  have s3 : |sin d| * |sin d| = sin d * sin d := abs_mul_abs_self _
  have hcd : cos d ^ 2 = 1 - sin d ^ 2 := by linarith
  have hsq : cos q ^ 2 = 1 - sin q ^ 2 := by linarith
  have key : ((2 * cos d ^ 2 - 1) * cos q - 2 * sin d * cos d * sin q - cos q) *
      ((2 * cos d ^ 2 - 1) * cos q - 2 * sin d * cos d * sin q - cos q) +
      (2 * sin d * cos d * cos q + (2 * cos d ^ 2 - 1) * sin q - sin q) *
      (2 * sin d * cos d * cos q + (2 * cos d ^ 2 - 1) * sin q - sin q) = 4 * (sin d * sin d) := by
    have c2 : 2 * cos d ^ 2 - 1 = 1 - 2 * sin d ^ 2 := by rw [hcd]; ring
    rw [c2]
    linear_combination (4 * sin d ^ 4 + 4 * sin d ^ 2 * cos d ^ 2) * s2 + (4 * sin d ^ 2) * s1
  rw [key]
  linear_combination (-4 * (h * 1000) ^ 2) * s3

/-! ## C34 -/

theorem velocity_position (o : Orbit) (t : Time) (hh : 0 < o.height) :
    o.velocity t (o.position t) = smul o.speed
      (smul (cos (o.progress t)) (axisW (o.latitude t)) - smul (sin (o.progress t)) (axisU o.incl (o.latitude t))) := by
  have hr : (0 : ℝ) < o.height * 1000 := by linarith
  have hl : (o.position t).len = o.height * 1000 := len_eq hr.le (position_dot o t)
  unfold Orbit.velocity
  rw [hl, norm_eq, ← cross_axis]
  congr 2
  rw [position_eq]
  ext <;> simp only [smul] <;> field_simp

/-- C34: the velocity is orthogonal to the reported position in every reachable state, and when the position is
exact (precision 0) its magnitude is the speed of a circular orbit: speed squared times radius is the gravitational
parameter (398600.436 km^3/s^2, here in metres). -/
theorem C34_velocity_tangential {s : Sat} : dot s.getVelocity s.getPosition = 0 := by
  unfold Sat.getVelocity Orbit.velocity
  simp only [dot, smul, cross]
  ring

theorem C34_circular_speed {s : Sat} (hp : s.prec = 0) (ha : -6371.009 < s.getAltitude) :
    s.getVelocity.len ^ 2 * ((6371.009 + s.getAltitude) * 1000) = 398600.436e9 := by
  have hh : 6371.009 + s.getAltitude = s.orbit.height := by unfold Sat.getAltitude earthRadKm; ring
  have hpos : 0 < s.orbit.height := by rw [← hh]; linarith
  have hg : s.getPosition = s.orbit.position s.now := by unfold Sat.getPosition; rw [if_pos hp]
  have hv : s.getVelocity.len = s.orbit.speed := by
    unfold Sat.getVelocity
    rw [hg, velocity_position _ _ hpos]
    apply len_eq
    · unfold Orbit.speed; positivity
    · have e : ∀ c d : ℝ, smul c (axisW (s.orbit.latitude s.now)) - smul d (axisU s.orbit.incl (s.orbit.latitude s.now))
          = smul (-d) (axisU s.orbit.incl (s.orbit.latitude s.now)) + smul c (axisW (s.orbit.latitude s.now)) := by
        intro c d; ext <;> simp only [smul, add_x, add_y, add_z, sub_x, sub_y, sub_z] <;> ring
      rw [e, dot_comb]
      have := sin_sq_add_cos_sq (s.orbit.progress s.now)
      linear_combination (s.orbit.speed * s.orbit.speed) * this
  rw [hv, hh]
  unfold Orbit.speed
  rw [mul_pow, Real.sq_sqrt (by unfold earthGm; positivity)]
  unfold earthGm
  field_simp
  norm_num

example : ∃ s : Sat, SatReachable s ∧ s.prec = 0 ∧ -6371.009 < s.getAltitude := by
  refine ⟨_, ⟨0, 5, 1000, 60, 0, _, [], create_eq _ _ _ _ _ (by norm_num), rfl⟩, rfl, ?_⟩
  simp [Sat.getAltitude]; norm_num

/-! ## C35 -/

/-- The progress as a function of real time in seconds. -/
noncomputable def Spec.progressAt (o : Orbit) (τ : ℝ) : ℝ :=
  (if o.incl ≤ Real.pi / 2 then 1 else -1) * (o.speed * τ / 6371009) + o.off

theorem progressAt_seconds (o : Orbit) (t : Time) : Spec.progressAt o (seconds t) = o.progress t := by
  unfold Spec.progressAt Orbit.progress earthRadKm
  have : (6371.0090 : ℝ) * 1000 = 6371009 := by norm_num
  rw [this]
  by_cases h : o.incl ≤ Real.pi / 2
  · rw [if_pos h, if_neg (by simpa using h)]
  · rw [if_neg h, if_pos (by simpa using h)]

/-- Motion in the orbital plane of instant `t`, as a function of real time. -/
noncomputable def Spec.motion (o : Orbit) (t : Time) (τ : ℝ) : Vec :=
  rotatePlane (o.norm t) (progressAt o τ) (smul (o.height * 1000)
    ⟨cos o.incl * cos (o.latitude t), cos o.incl * sin (o.latitude t), sin o.incl⟩)

/-- The motion passes through the position the model reports. -/
theorem motion_now (o : Orbit) (t : Time) : Spec.motion o t (seconds t) = o.position t := by
  unfold Spec.motion Orbit.position; rw [progressAt_seconds]

/-- `d` is the derivative of the motion at the instant `t`. -/
def Spec.IsDirection (o : Orbit) (t : Time) (d : Vec) : Prop :=
  HasDerivAt (fun τ => (motion o t τ).x) d.x (seconds t) ∧
  HasDerivAt (fun τ => (motion o t τ).y) d.y (seconds t) ∧
  HasDerivAt (fun τ => (motion o t τ).z) d.z (seconds t)

/-- The sign with which progress grows. -/
noncomputable def sgnOf (o : Orbit) : ℝ := if o.incl ≤ Real.pi / 2 then 1 else -1

theorem isDirection_formula (o : Orbit) (t : Time) :
    Spec.IsDirection o t (smul (o.height * 1000 * (sgnOf o * (o.speed / 6371009)))
      (smul (cos (o.progress t)) (axisW (o.latitude t)) - smul (sin (o.progress t)) (axisU o.incl (o.latitude t)))) := by
  have hm : ∀ τ, Spec.motion o t τ = smul (o.height * 1000)
      (smul (cos (Spec.progressAt o τ)) (axisU o.incl (o.latitude t)) + smul (sin (Spec.progressAt o τ)) (axisW (o.latitude t))) := by
    intro τ
    unfold Spec.motion
    rw [norm_eq]
    exact rotatePlane_axis _ _ _ _
  have hp : HasDerivAt (Spec.progressAt o) (sgnOf o * (o.speed / 6371009)) (seconds t) := by
    have h1 : HasDerivAt (fun τ : ℝ => sgnOf o * (o.speed * τ / 6371009) + o.off)
        (sgnOf o * (o.speed * 1 / 6371009)) (seconds t) :=
      ((((hasDerivAt_id (seconds t)).const_mul o.speed).div_const _).const_mul _).add_const _
    rw [mul_one] at h1
    exact h1
  have hc := hp.cos
  have hs := hp.sin
  rw [progressAt_seconds] at hc hs
  have gen : ∀ u w : ℝ, HasDerivAt (fun τ => o.height * 1000 * (cos (Spec.progressAt o τ) * u + sin (Spec.progressAt o τ) * w))
      (o.height * 1000 * (sgnOf o * (o.speed / 6371009)) * (cos (o.progress t) * w - sin (o.progress t) * u)) (seconds t) := by
    intro u w
    have := ((hc.mul_const u).add (hs.mul_const w)).const_mul (o.height * 1000)
    refine this.congr_deriv ?_
    ring
  unfold Spec.IsDirection
  refine ⟨?_, ?_, ?_⟩
  · have : (fun τ => (Spec.motion o t τ).x) = fun τ => o.height * 1000 *
        (cos (Spec.progressAt o τ) * (axisU o.incl (o.latitude t)).x + sin (Spec.progressAt o τ) * (axisW (o.latitude t)).x) := by
      funext τ; rw [hm]; rfl
    rw [this]; exact gen _ _
  · have : (fun τ => (Spec.motion o t τ).y) = fun τ => o.height * 1000 *
        (cos (Spec.progressAt o τ) * (axisU o.incl (o.latitude t)).y + sin (Spec.progressAt o τ) * (axisW (o.latitude t)).y) := by
      funext τ; rw [hm]; rfl
    rw [this]; exact gen _ _
  · have : (fun τ => (Spec.motion o t τ).z) = fun τ => o.height * 1000 *
        (cos (Spec.progressAt o τ) * (axisU o.incl (o.latitude t)).z + sin (Spec.progressAt o τ) * (axisW (o.latitude t)).z) := by
      funext τ; rw [hm]; rfl
    rw [this]; exact gen _ _

theorem direction_unique {o : Orbit} {t : Time} {d d' : Vec} (h : Spec.IsDirection o t d) (h' : Spec.IsDirection o t d') :
    d = d' := by
  ext
  · exact h.1.unique h'.1
  · exact h.2.1.unique h'.2.1
  · exact h.2.2.unique h'.2.2

theorem velocity_direction {o : Orbit} {t : Time} {d : Vec} (hh : 0 < o.height) (hd : Spec.IsDirection o t d) :
    o.velocity t (o.position t) = smul (sgnOf o * (6371.009 / o.height)) d := by
  rw [direction_unique hd (isDirection_formula o t), velocity_position o t hh]
  have hs : sgnOf o * sgnOf o = 1 := by unfold sgnOf; split <;> norm_num
  have : o.speed = sgnOf o * (6371.009 / o.height) * (o.height * 1000 * (sgnOf o * (o.speed / 6371009))) := by
    have e : sgnOf o * (6371.009 / o.height) * (o.height * 1000 * (sgnOf o * (o.speed / 6371009)))
        = sgnOf o * sgnOf o * (6371.009 * 1000 / 6371009) * o.speed := by field_simp
    rw [e, hs]; norm_num
  ext <;> simp only [smul, sub_x, sub_y, sub_z] <;> rw [← mul_assoc, ← this]

/-- What holds of C35: up to 90 degrees the reported velocity is a positive multiple of the derivative of the
motion. Missing: retrograde orbits, for which it is false. -/
theorem C35_velocity_direction_partial {o : Orbit} {t : Time} {d : Vec} (hh : 0 < o.height) (hi : o.incl ≤ Real.pi / 2)
    (hd : Spec.IsDirection o t d) : ∃ k > 0, o.velocity t (o.position t) = smul k d := by
  refine ⟨6371.009 / o.height, by positivity, ?_⟩
  have := velocity_direction hh hd
  unfold sgnOf at this
  rw [if_pos hi, one_mul] at this
  exact this

/-- Above 90 degrees the reported velocity points backwards. -/
theorem C35_retrograde_velocity_is_backwards {o : Orbit} {t : Time} {d : Vec} (hh : 0 < o.height)
    (hi : Real.pi / 2 < o.incl) (hd : Spec.IsDirection o t d) : ∃ k < 0, o.velocity t (o.position t) = smul k d := by
  refine ⟨-(6371.009 / o.height), by rw [neg_lt_zero]; positivity, ?_⟩
  have := velocity_direction hh hd
  unfold sgnOf at this
  rw [if_neg (by simpa using hi), neg_one_mul] at this
  exact this

/-- Every orbit has a direction of motion. -/
example (o : Orbit) (t : Time) : ∃ d, Spec.IsDirection o t d := ⟨_, isDirection_formula o t⟩

/-- C35 as stated is false: at 135 degrees. -/
theorem C35_not_for_all_inclinations :
    ¬ ∀ (o : Orbit) (t : Time) (d : Vec), 0 < o.height → 0 < o.incl → o.incl ≤ Real.pi → Spec.IsDirection o t d →
      ∃ k > 0, o.velocity t (o.position t) = smul k d := by
  intro hall
  have hpi := Real.pi_pos
  let o : Orbit := ⟨7000, 3 * Real.pi / 4, 0, 0⟩
  have hd := isDirection_formula o 0
  have hh : 0 < o.height := by norm_num [o]
  obtain ⟨k, hk, h1⟩ := hall o 0 _ hh (by simp only [o]; linarith) (by simp only [o]; linarith) hd
  obtain ⟨k', hk', h2⟩ := C35_retrograde_velocity_is_backwards hh (by simp only [o]; linarith) hd
  rw [h1] at h2
  -- the direction is not zero
  have hy := congrArg Vec.y h2
  have hp0 : o.progress 0 = 0 := by simp [o, Orbit.progress, seconds]
  have hl0 : o.latitude 0 = 0 := by simp [o, Orbit.latitude]
  have hsp : 0 < o.speed := by
    unfold Orbit.speed earthGm
    have : 0 < √(39.8600436 / o.height) := Real.sqrt_pos.mpr (by positivity)
    positivity
  have hsg : sgnOf o = -1 := by
    unfold sgnOf; rw [if_neg]; simp only [o]; intro h; linarith
  simp only [smul, sub_y, axisW, axisU, hp0, hl0, cos_zero, sin_zero, hsg] at hy
  have hpos : 0 < o.height * 1000 * (o.speed / 6371009) := by positivity
  nlinarith

/-! ## C36 -/

/-- C36 as stated is false: the code divides by the Earth radius instead of the orbit radius. -/
theorem C36_wrong_radius :
    ¬ ∀ (o : Orbit) (t : Time), 6371.009 ≤ o.height →
      |o.progress t - o.off| = o.speed * seconds t / (o.height * 1000) := by
  intro hall
  have := hall ⟨2 * 6371.009, 1, 0, 0⟩ 1000000000 (by norm_num)
  have hs : seconds 1000000000 = 1 := by norm_num [seconds]
  have hpi : ¬ (1 : ℝ) > Real.pi / 2 := by have := Real.two_le_pi; linarith
  have hsp : 0 < Orbit.speed ⟨2 * 6371.009, 1, 0, 0⟩ := by
    unfold Orbit.speed earthGm
    have : 0 < √(39.8600436 / (2 * 6371.009 : ℝ)) := Real.sqrt_pos.mpr (by norm_num)
    simp only; positivity
  simp only [Orbit.progress, hs, if_neg hpi, earthRadKm] at this
  generalize Orbit.speed ⟨2 * 6371.009, 1, 0, 0⟩ = v at this hsp
  rw [mul_one, one_mul, add_sub_cancel_right, abs_of_pos (by positivity)] at this
  rw [div_eq_div_iff (by norm_num) (by norm_num)] at this
  nlinarith

/-- The law of the code: the angle is the travelled distance divided by the *Earth* radius, that is, too large by
the factor radius of the orbit over radius of the Earth. -/
theorem C36_progress_law (o : Orbit) (t : Time) (hh : 0 < o.height) :
    |o.progress t - o.off| = o.speed * seconds t / (o.height * 1000) * (o.height / 6371.009) := by
  have hsp : 0 ≤ o.speed := by unfold Orbit.speed; positivity
  have hse : 0 ≤ seconds t := by unfold seconds; positivity
  have : o.progress t - o.off = (if o.incl > Real.pi / 2 then -1 else 1) * (o.speed * seconds t / (6371.009 * 1000)) := by
    unfold Orbit.progress earthRadKm; simp only; ring
  rw [this, abs_mul, abs_of_nonneg (by positivity : (0 : ℝ) ≤ o.speed * seconds t / (6371.009 * 1000))]
  have : |(if o.incl > Real.pi / 2 then (-1 : ℝ) else 1)| = 1 := by split <;> simp
  rw [this, one_mul]
  field_simp

/-- What holds of C36: the rate is right exactly for satellites on the surface (altitude 0). Missing: every other
altitude. -/
theorem C36_progress_partial (o : Orbit) (t : Time) (hh : 0 < o.height) (ht : 0 < t) :
    |o.progress t - o.off| = o.speed * seconds t / (o.height * 1000) ↔ o.height = 6371.009 := by
  rw [C36_progress_law o t hh]
  have hsp : 0 < o.speed := by
    unfold Orbit.speed earthGm
    have : 0 < √(39.8600436 / o.height) := Real.sqrt_pos.mpr (by positivity)
    positivity
  have hse : 0 < seconds t := by
    unfold seconds
    have : (0 : ℝ) < t := by exact_mod_cast ht
    positivity
  have hq : 0 < o.speed * seconds t / (o.height * 1000) := by positivity
  constructor
  · intro h
    have h1 : o.height / 6371.009 = 1 := by
      have := mul_left_cancel₀ hq.ne' (h.trans (mul_one _).symm)
      exact this
    rw [div_eq_one_iff_eq (by norm_num)] at h1
    exact h1
  · intro h
    rw [h]
    norm_num

example : ∃ o : Orbit, 0 < o.height ∧ o.height = 6371.009 := ⟨⟨6371.009, 1, 0, 0⟩, by norm_num, rfl⟩

end Verif
