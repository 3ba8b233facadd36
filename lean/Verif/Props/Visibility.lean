import Verif.Props.Reach
import Verif.Props.Separation
/-!
# Errors of reported positions (C86) and lines of sight between satellites of any planes (C87)
-/

namespace Verif
open Real Spec

/-! ## C86 -/

theorem len_add_le (a b : Vec) : (a + b).len ≤ a.len + b.len := by
  have h0 := len_nonneg a
  have h1 := len_nonneg b
  apply le_of_sq_le_sq _ (by positivity)
  have e : (a + b).len ^ 2 = a.len ^ 2 + b.len ^ 2 + 2 * dot a b := by
    rw [len_sq', len_sq', len_sq']; simp only [dot, add_x, add_y, add_z]; ring
  rw [e]
  nlinarith [dot_le a b]

theorem two_sub_cos_le (x : ℝ) : 2 - 2 * cos x ≤ x ^ 2 := by
  nlinarith [Real.one_sub_sq_div_two_le_cos (x := x)]

/-- **C86**: how far a satellite gets between two instants: the way along the orbit plus the drift of the plane. -/
theorem C86_distance_travelled (o : Orbit) (t u : Time) :
    (o.position t - o.position u).len ≤
      |o.height * 1000| * (|o.progress t - o.progress u| + |o.latitude t - o.latitude u|) := by
  let w := smul (o.height * 1000) (smul (cos (o.progress u)) (axisU o.incl (o.latitude t)) + smul (sin (o.progress u)) (axisW (o.latitude t)))
  have hsplit : o.position t - o.position u = (o.position t - w) + (w - o.position u) := by
    ext <;> simp
  have h1 : (o.position t - w).len ≤ |o.height * 1000| * |o.progress t - o.progress u| := by
    rw [← abs_mul]
    apply le_of_sq_le_sq _ (abs_nonneg _)
    rw [sq_abs, len_sq', mul_pow (o.height * 1000)]
    refine le_trans (le_of_eq ?_) (mul_le_mul_of_nonneg_left (two_sub_cos_le (o.progress t - o.progress u)) (sq_nonneg _))
    have e : o.position t - w = smul (o.height * 1000) (smul (cos (o.progress t) - cos (o.progress u)) (axisU o.incl (o.latitude t)) +
        smul (sin (o.progress t) - sin (o.progress u)) (axisW (o.latitude t))) := by
      rw [position_eq]
      ext <;> simp only [w, smul, add_x, add_y, add_z, sub_x, sub_y, sub_z] <;> ring
    rw [e, dot_comb, cos_sub]
    have a1 := sin_sq_add_cos_sq (o.progress t)
    have a2 := sin_sq_add_cos_sq (o.progress u)
    linear_combination (o.height * 1000) ^ 2 * (a1 + a2)
  have h2 : (w - o.position u).len ≤ |o.height * 1000| * |o.latitude t - o.latitude u| := by
    rw [← abs_mul]
    apply le_of_sq_le_sq _ (abs_nonneg _)
    rw [sq_abs, len_sq', mul_pow (o.height * 1000)]
    refine le_trans ?_ (mul_le_mul_of_nonneg_left (two_sub_cos_le (o.latitude t - o.latitude u)) (sq_nonneg _))
    rw [cos_sub]
    have a1 := sin_sq_add_cos_sq (o.latitude t)
    have a2 := sin_sq_add_cos_sq (o.latitude u)
    have a3 := sin_sq_add_cos_sq (o.progress u)
    have a4 := sin_sq_add_cos_sq o.incl
    have e : dot (w - o.position u) (w - o.position u) = (o.height * 1000) ^ 2 *
        (((cos (o.progress u) * cos o.incl) ^ 2 + sin (o.progress u) ^ 2) *
          (2 - 2 * (cos (o.latitude t) * cos (o.latitude u) + sin (o.latitude t) * sin (o.latitude u)))) := by
      rw [position_eq]
      simp only [w, dot, smul, axisU, axisW, add_x, add_y, add_z, sub_x, sub_y, sub_z]
      linear_combination (o.height * 1000) ^ 2 * ((cos (o.progress u) * cos o.incl) ^ 2 + sin (o.progress u) ^ 2) * (a1 + a2)
    rw [e]
    apply mul_le_mul_of_nonneg_left _ (sq_nonneg _)
    have b1 : 0 ≤ 2 - 2 * (cos (o.latitude t) * cos (o.latitude u) + sin (o.latitude t) * sin (o.latitude u)) := by
      nlinarith [sq_nonneg (cos (o.latitude t) - cos (o.latitude u)), sq_nonneg (sin (o.latitude t) - sin (o.latitude u))]
    have b2 : (cos (o.progress u) * cos o.incl) ^ 2 + sin (o.progress u) ^ 2 ≤ 1 := by
      nlinarith [mul_nonneg (sq_nonneg (cos (o.progress u))) (sq_nonneg (sin o.incl))]
    nlinarith
  rw [hsplit, mul_add]
  exact (len_add_le _ _).trans (add_le_add h1 h2)

/-- **C86, the rate**: a satellite moves by at most `h (v / R + 2 π / day)` per second in the coordinates the model reports. -/
theorem C86_rate {o : Orbit} (hh : 0 < o.height) (t u : Time) :
    (o.position t - o.position u).len ≤
      o.height * 1000 * (o.speed / 6371009 + 2 * Real.pi / 86400) * |seconds t - seconds u| := by
  have hpi := Real.pi_pos
  have hsp : 0 ≤ o.speed := by unfold Orbit.speed; positivity
  refine (C86_distance_travelled o t u).trans (le_of_eq ?_)
  have e1 : |o.progress t - o.progress u| = o.speed / 6371009 * |seconds t - seconds u| := by
    have hx : ∃ σ : ℝ, |σ| = 1 ∧ o.progress t - o.progress u = σ * (o.speed / 6371009 * (seconds t - seconds u)) := by
      unfold Orbit.progress earthRadKm
      by_cases hc : o.incl > Real.pi / 2
      · exact ⟨-1, by simp, by simp only [if_pos hc]; ring⟩
      · exact ⟨1, by simp, by simp only [if_neg hc]; ring⟩
    obtain ⟨σ, h1, h2⟩ := hx
    rw [h2, abs_mul, h1, one_mul, abs_mul, abs_of_nonneg (by positivity)]
  have e2 : |o.latitude t - o.latitude u| = 2 * Real.pi / 86400 * |seconds t - seconds u| := by
    have : o.latitude t - o.latitude u = 2 * Real.pi / 86400 * (seconds t - seconds u) := by
      unfold Orbit.latitude seconds; ring
    rw [this, abs_mul, abs_of_nonneg (by positivity)]
  rw [e1, e2, abs_of_pos (by positivity)]
  ring

/-- **C86, the error of reported positions**: from a setter call on, as long as the precision stays within `(0, P]`, the
reported position differs from the exact one by at most what the satellite moves in `P`. -/
theorem C86_reported_error {P : Time} {s s1 s' : Sat} {op : SatOp} {ops : List SatOp} (hr : SatReachable s)
    (hp : 0 < s.prec) (hle : s.prec ≤ P) (hset : Spec.IsSetter op) (hkeep : ∀ o ∈ ops, Spec.KeepsPrecision P o)
    (h1 : s.step op = .ok s1) (h2 : s1.exec ops = .ok s') (hh : 0 < s'.orbit.height) :
    (s'.getPosition - s'.orbit.position s'.now).len ≤
      s'.orbit.height * 1000 * (s'.orbit.speed / 6371009 + 2 * Real.pi / 86400) * seconds P := by
  obtain ⟨u, u1, u2, u3, _⟩ := C38_bounded_age hr hp hle hset hkeep h1 h2
  have hpi := Real.pi_pos
  have hsp : 0 ≤ s'.orbit.speed := by unfold Orbit.speed; positivity
  rw [u3]
  refine (C86_rate hh _ _).trans (mul_le_mul_of_nonneg_left ?_ (by positivity))
  have a1 : (u : ℝ) ≤ s'.now := by exact_mod_cast u1
  have a2 : (s'.now : ℝ) ≤ u + P := by exact_mod_cast u2
  unfold seconds
  rw [abs_le]
  constructor <;> linarith

/-- **C86 for low orbits**: up to 2000 km altitude, positions updated every second are less than 9.7 km off. -/
theorem C86_low_orbit {s s1 s' : Sat} {op : SatOp} {ops : List SatOp} (hr : SatReachable s)
    (hp : 0 < s.prec) (hle : s.prec ≤ 1000000000) (hset : Spec.IsSetter op)
    (hkeep : ∀ o ∈ ops, Spec.KeepsPrecision 1000000000 o)
    (h1 : s.step op = .ok s1) (h2 : s1.exec ops = .ok s') (h3 : 0 < s'.orbit.height) (h4 : s'.getAltitude ≤ 2000) :
    (s'.getPosition - s'.orbit.position s'.now).len < 9700 := by
  have h := C86_reported_error (P := 1000000000) hr hp (by exact_mod_cast hle) hset hkeep h1 h2 h3
  refine lt_of_le_of_lt h ?_
  have hpi := Real.pi_lt_d2
  have hpi0 := Real.pi_pos
  unfold Sat.getAltitude earthRadKm at h4
  have hs : s'.orbit.height * s'.orbit.speed ≤ 57770000 := by
    unfold Orbit.speed earthGm
    have e : s'.orbit.height * √(39.8600436 / s'.orbit.height) = √(39.8600436 * s'.orbit.height) := by
      rw [show 39.8600436 * s'.orbit.height = s'.orbit.height ^ 2 * (39.8600436 / s'.orbit.height) by field_simp,
        Real.sqrt_mul (by positivity), Real.sqrt_sq h3.le]
    have : √(39.8600436 * s'.orbit.height) ≤ 577.7 := by
      rw [Real.sqrt_le_left (by norm_num)]
      nlinarith
    nlinarith
  have e : seconds (1000000000 : Nat) = 1 := by unfold seconds; norm_num
  rw [e]
  nlinarith

/-- The hypotheses of `C86_reported_error` are met, and the reported position is really stale: 400 ns after the update. -/
example : ∃ (s s1 s' : Sat), SatReachable s ∧ 0 < s.prec ∧ s.prec ≤ (1000 : Time) ∧
    Spec.IsSetter (.setPosition ⟨1, 2, 0⟩) ∧
    s.step (.setPosition ⟨1, 2, 0⟩) = .ok s1 ∧ s1.exec [.wait 400, .run, .wait 400] = .ok s' ∧ s'.now = 1400 ∧
    0 < s'.orbit.height ∧ s'.getAltitude ≤ 2000 := by
  refine ⟨_, _, ?s', ⟨0, 0, 700, 60, 1000, _, [], create_eq _ _ _ _ _ (by norm_num), rfl⟩, by norm_num, by norm_num,
    by simp [Spec.IsSetter], rfl, ?h, ?g, ?i, ?j⟩
  case h =>
    simp [Sat.exec, Sat.step, Sat.setPosition, Sat.update, insertTime]
    rfl
  case g => rfl
  case i => norm_num [earthRadKm]
  case j => norm_num [Sat.getAltitude, earthRadKm]

/-! ## C87 -/

/-- Two points at the same height see each other iff they are apart and nearer than twice the way to the horizon. -/
theorem C87_equal_height {a b : Vec} {r : ℝ} (hr : islEarthRad ≤ r) (ha : a.len = r) (hb : b.len = r) :
    islLos a b = true ↔ 0 < (a - b).len ∧ (a - b).len ^ 2 < 4 * (r ^ 2 - islEarthRad ^ 2) := by
  have hR := islEarthRad_pos
  have hr0 : 0 < r := lt_of_lt_of_le hR hr
  by_cases hne : a = b
  · subst hne
    rw [(C48_coincident _ 0).1]
    have : (a - a).len = 0 := len_eq le_rfl (by simp [dot])
    rw [this]
    simp
  · have hpos : 0 < (a - b).len := len_sub_pos hne
    rw [C48_line_of_sight hne (Or.inl (by rw [ha]; exact hr))]
    have haa : dot a a = r * r := by rw [← len_sq, ha]
    have hbb : dot b b = r * r := by rw [← len_sq, hb]
    have hd : (a - b).len ^ 2 = 2 * (r * r) - 2 * dot a b := by
      rw [dist_sq, ha, hb, show dot b a = dot a b by unfold dot; ring]; ring
    have hle := dot_le a b
    have hge : -(r * r) ≤ dot a b := by
      have := dot_le (smul (-1) a) b
      have e1 : (smul (-1) a).len = r := len_eq hr0.le (by simp only [dot, smul] at haa ⊢; nlinarith)
      have e2 : dot (smul (-1) a) b = -dot a b := by simp only [dot, smul]; ring
      rw [e1, e2, hb] at this
      linarith
    rw [ha, hb] at hle
    have hq : cos (arccos (dot a b / (r * r))) = dot a b / (r * r) := by
      apply Real.cos_arccos
      · rw [le_div_iff₀ (by positivity)]; linarith
      · rw [div_le_one (by positivity)]; exact hle
    have hab : dot a b = r * r * cos (2 * (arccos (dot a b / (r * r)) / 2)) := by
      rw [mul_div_cancel₀ _ (two_ne_zero), hq, mul_div_cancel₀ _ (by positivity)]
    rw [obstructed_circle hR.le hr0.le haa hbb hab, not_le]
    generalize arccos (dot a b / (r * r)) / 2 = d at hab
    rw [cos_two_mul] at hab
    have hsq : islEarthRad < r * |cos d| ↔ islEarthRad ^ 2 < (r * |cos d|) ^ 2 :=
      (pow_lt_pow_iff_left₀ hR.le (by positivity) two_ne_zero).symm
    rw [hsq, mul_pow, sq_abs, hd, hab]
    constructor
    · intro h; exact ⟨hpos, by nlinarith⟩
    · rintro ⟨_, h⟩; nlinarith

/-- **C87, the law**: two satellites of any two planes of the same height and inclination see each other iff their squared half
distance (in radii, see C69) is positive and less than `1 - (R / r)²`. -/
theorem C87_line_of_sight {h i l1 l2 f1 f2 : ℝ} (hh : islEarthRad ≤ h * 1000) (t : Time) :
    islLos (Orbit.position ⟨h, i, l1, f1⟩ t) (Orbit.position ⟨h, i, l2, f2⟩ t) = true ↔
      0 < sin (Orbit.progress ⟨h, i, l1, (f1 + f2) / 2⟩ t) ^ 2 * atTop i ((l1 - l2) / 2) ((f1 - f2) / 2) +
          cos (Orbit.progress ⟨h, i, l1, (f1 + f2) / 2⟩ t) ^ 2 * atNode i ((l1 - l2) / 2) ((f1 - f2) / 2) ^ 2 ∧
      sin (Orbit.progress ⟨h, i, l1, (f1 + f2) / 2⟩ t) ^ 2 * atTop i ((l1 - l2) / 2) ((f1 - f2) / 2) +
          cos (Orbit.progress ⟨h, i, l1, (f1 + f2) / 2⟩ t) ^ 2 * atNode i ((l1 - l2) / 2) ((f1 - f2) / 2) ^ 2 <
        1 - (islEarthRad / (h * 1000)) ^ 2 := by
  have hR := islEarthRad_pos
  have hr : 0 < h * 1000 := lt_of_lt_of_le hR hh
  have e (l f : ℝ) : (Orbit.position ⟨h, i, l, f⟩ t).len = h * 1000 := len_eq hr.le (position_dot _ _)
  rw [C87_equal_height hh (e l1 f1) (e l2 f2), C69_distance_law]
  have hlaw := C69_distance_law (h := h) (i := i) (l1 := l1) (l2 := l2) (f1 := f1) (f2 := f2) t
  have hn := len_nonneg (Orbit.position ⟨h, i, l1, f1⟩ t - Orbit.position ⟨h, i, l2, f2⟩ t)
  generalize (Orbit.position ⟨h, i, l1, f1⟩ t - Orbit.position ⟨h, i, l2, f2⟩ t).len = D at hlaw hn
  generalize sin (Orbit.progress ⟨h, i, l1, (f1 + f2) / 2⟩ t) ^ 2 * atTop i ((l1 - l2) / 2) ((f1 - f2) / 2) +
    cos (Orbit.progress ⟨h, i, l1, (f1 + f2) / 2⟩ t) ^ 2 * atNode i ((l1 - l2) / 2) ((f1 - f2) / 2) ^ 2 = X at hlaw
  have e1 : 0 < D ↔ 0 < X := by
    constructor
    · intro h1
      have : 0 < (2 * (h * 1000)) ^ 2 * X := by rw [← hlaw]; positivity
      exact (mul_pos_iff_of_pos_left (by positivity)).mp this
    · intro h1
      have : 0 < D ^ 2 := by rw [hlaw]; positivity
      exact lt_of_le_of_ne hn (fun h0 => by rw [← h0] at this; simp at this)
  rw [e1]
  refine and_congr_right fun _ => ?_
  rw [div_pow, lt_sub_iff_add_lt, ← lt_sub_iff_add_lt', div_lt_iff₀ (by positivity)]
  constructor <;> intro h1 <;> nlinarith

/-- **C87, always**: if the half distances at the nodes and at the tops are both positive and below the limit, the two
satellites see each other at all times. -/
theorem C87_always {h i l1 l2 f1 f2 : ℝ} (hh : islEarthRad ≤ h * 1000)
    (hT0 : 0 < atTop i ((l1 - l2) / 2) ((f1 - f2) / 2)) (hN0 : atNode i ((l1 - l2) / 2) ((f1 - f2) / 2) ≠ 0)
    (hT : atTop i ((l1 - l2) / 2) ((f1 - f2) / 2) < 1 - (islEarthRad / (h * 1000)) ^ 2)
    (hN : atNode i ((l1 - l2) / 2) ((f1 - f2) / 2) ^ 2 < 1 - (islEarthRad / (h * 1000)) ^ 2) (t : Time) :
    islLos (Orbit.position ⟨h, i, l1, f1⟩ t) (Orbit.position ⟨h, i, l2, f2⟩ t) = true := by
  rw [C87_line_of_sight hh]
  have hN1 : 0 < atNode i ((l1 - l2) / 2) ((f1 - f2) / 2) ^ 2 := by positivity
  have e := sin_sq_add_cos_sq (Orbit.progress ⟨h, i, l1, (f1 + f2) / 2⟩ t)
  have e1 := sq_nonneg (sin (Orbit.progress ⟨h, i, l1, (f1 + f2) / 2⟩ t))
  have e2 := sq_nonneg (cos (Orbit.progress ⟨h, i, l1, (f1 + f2) / 2⟩ t))
  generalize sin (Orbit.progress ⟨h, i, l1, (f1 + f2) / 2⟩ t) ^ 2 = x at e e1 ⊢
  generalize cos (Orbit.progress ⟨h, i, l1, (f1 + f2) / 2⟩ t) ^ 2 = y at e e2 ⊢
  obtain rfl : y = 1 - x := by linarith
  constructor
  · rcases e1.lt_or_eq with h1 | h1
    · have := mul_pos h1 hT0
      have := mul_nonneg e2 hN1.le
      linarith
    · rw [← h1]; linarith
  · rcases e1.lt_or_eq with h1 | h1
    · have := mul_lt_mul_of_pos_left hT h1
      have := mul_le_mul_of_nonneg_left hN.le e2
      linarith
    · rw [← h1]; linarith

/-- **C87, never**: if both are at the limit or above it, the two satellites never see each other. -/
theorem C87_never {h i l1 l2 f1 f2 : ℝ} (hh : islEarthRad ≤ h * 1000)
    (hT : 1 - (islEarthRad / (h * 1000)) ^ 2 ≤ atTop i ((l1 - l2) / 2) ((f1 - f2) / 2))
    (hN : 1 - (islEarthRad / (h * 1000)) ^ 2 ≤ atNode i ((l1 - l2) / 2) ((f1 - f2) / 2) ^ 2) (t : Time) :
    islLos (Orbit.position ⟨h, i, l1, f1⟩ t) (Orbit.position ⟨h, i, l2, f2⟩ t) = false := by
  rw [← Bool.not_eq_true, C87_line_of_sight hh]
  rintro ⟨_, h2⟩
  have e := sin_sq_add_cos_sq (Orbit.progress ⟨h, i, l1, (f1 + f2) / 2⟩ t)
  nlinarith [sq_nonneg (sin (Orbit.progress ⟨h, i, l1, (f1 + f2) / 2⟩ t)),
    sq_nonneg (cos (Orbit.progress ⟨h, i, l1, (f1 + f2) / 2⟩ t))]

/-- The angle a satellite proceeds in one nanosecond, the unit of `Time`. -/
noncomputable def Spec.tick (h : ℝ) : ℝ := √(39.8600436 / h) * 100000 / 1000000000 / 6371009

/-- Every phase is met up to one nanosecond, again and again. -/
theorem phase_met {h i l f : ℝ} (hh : 0 < h) (φ : ℝ) (t0 : Time) :
    ∃ t ≥ t0, sin (Orbit.progress ⟨h, i, l, f⟩ t - φ) ^ 2 ≤ tick h ^ 2 := by
  have hpi := Real.pi_pos
  have hδ : 0 < tick h := by
    unfold tick
    have : 0 < √(39.8600436 / h) := Real.sqrt_pos.mpr (by positivity)
    positivity
  obtain ⟨σ, hσ, hg⟩ : ∃ σ : ℝ, (σ = 1 ∨ σ = -1) ∧ ∀ t : Time, σ * (Orbit.progress ⟨h, i, l, f⟩ t - φ) =
      σ * (f - φ) + t * tick h := by
    unfold Orbit.progress Orbit.speed seconds earthRadKm earthGm tick
    by_cases hc : i > Real.pi / 2
    · refine ⟨-1, Or.inr rfl, fun t => ?_⟩
      simp only [if_pos hc]; ring
    · refine ⟨1, Or.inl rfl, fun t => ?_⟩
      simp only [if_neg hc]; ring
  generalize tick h = δ at hg hδ
  obtain ⟨k, hk⟩ := exists_nat_ge ((σ * (f - φ) + t0 * δ) / Real.pi)
  rw [div_le_iff₀ hpi] at hk
  generalize hx : (k * Real.pi - (σ * (f - φ) + t0 * δ)) / δ = x
  have hx0 : 0 ≤ x := by rw [← hx]; apply div_nonneg _ hδ.le; linarith
  refine ⟨t0 + ⌈x⌉₊, Nat.le_add_right _ _, ?_⟩
  have hgt := hg (t0 + ⌈x⌉₊)
  generalize Orbit.progress ⟨h, i, l, f⟩ (t0 + ⌈x⌉₊) - φ = q at hgt ⊢
  push_cast at hgt
  have hxk : x * δ = k * Real.pi - (σ * (f - φ) + t0 * δ) := by rw [← hx]; field_simp
  have hc1 := Nat.le_ceil x
  have hc2 := Nat.ceil_lt_add_one hx0
  have hb1 : 0 ≤ σ * q - k * Real.pi := by rw [hgt]; nlinarith
  have hb2 : σ * q - k * Real.pi ≤ δ := by rw [hgt]; nlinarith
  have h1 : sin q ^ 2 = sin (σ * q - k * Real.pi) ^ 2 := by
    rw [Real.sin_sub_nat_mul_pi, mul_pow]
    have : ((-1 : ℝ) ^ k) ^ 2 = 1 := by rw [← pow_mul, mul_comm, pow_mul]; norm_num
    rw [this, one_mul]
    rcases hσ with rfl | rfl
    · rw [one_mul]
    · rw [neg_one_mul, sin_neg, neg_sq]
  rw [h1, ← sq_abs]
  apply pow_le_pow_left₀ (abs_nonneg _)
  exact (Real.abs_sin_le_abs).trans (by rw [abs_of_nonneg hb1]; exact hb2)

theorem atNode_sq_le_one (i L F : ℝ) : atNode i L F ^ 2 ≤ 1 := by
  unfold atNode
  have e1 := sin_sq_add_cos_sq i
  have e2 := sin_sq_add_cos_sq L
  have e3 := sin_sq_add_cos_sq F
  have : (cos i * cos F * sin L + sin F * cos L) ^ 2 + (cos i * sin F * sin L - cos F * cos L) ^ 2 + (sin i * sin L) ^ 2 = 1 := by
    linear_combination (cos i ^ 2 * sin L ^ 2 + cos L ^ 2) * e3 + sin L ^ 2 * e1 + e2
  nlinarith [sq_nonneg (cos i * sin F * sin L - cos F * cos L), sq_nonneg (sin i * sin L)]

/-- **C87, in turns**: if one half distance is below the limit and the other one above it (by more than one nanosecond makes
up), the two satellites find and lose each other for ever. -/
theorem C87_in_turns {h i l1 l2 f1 f2 : ℝ} (hh : islEarthRad ≤ h * 1000)
    (hc : (tick h ^ 2 < atTop i ((l1 - l2) / 2) ((f1 - f2) / 2) ∧
        atTop i ((l1 - l2) / 2) ((f1 - f2) / 2) + tick h ^ 2 < 1 - (islEarthRad / (h * 1000)) ^ 2 ∧
        1 - (islEarthRad / (h * 1000)) ^ 2 + tick h ^ 2 ≤ atNode i ((l1 - l2) / 2) ((f1 - f2) / 2) ^ 2) ∨
      (tick h ^ 2 < atNode i ((l1 - l2) / 2) ((f1 - f2) / 2) ^ 2 ∧
        atNode i ((l1 - l2) / 2) ((f1 - f2) / 2) ^ 2 + tick h ^ 2 < 1 - (islEarthRad / (h * 1000)) ^ 2 ∧
        1 - (islEarthRad / (h * 1000)) ^ 2 + tick h ^ 2 ≤ atTop i ((l1 - l2) / 2) ((f1 - f2) / 2))) (t0 : Time) :
    (∃ t ≥ t0, islLos (Orbit.position ⟨h, i, l1, f1⟩ t) (Orbit.position ⟨h, i, l2, f2⟩ t) = true) ∧
    (∃ t ≥ t0, islLos (Orbit.position ⟨h, i, l1, f1⟩ t) (Orbit.position ⟨h, i, l2, f2⟩ t) = false) := by
  have hR := islEarthRad_pos
  have hr : 0 < h := by linarith
  have hT1 := atTop_le_one i ((l1 - l2) / 2) ((f1 - f2) / 2)
  have hT0 : 0 ≤ atTop i ((l1 - l2) / 2) ((f1 - f2) / 2) := by unfold atTop; positivity
  have hN1 := atNode_sq_le_one i ((l1 - l2) / 2) ((f1 - f2) / 2)
  have hN0 := sq_nonneg (atNode i ((l1 - l2) / 2) ((f1 - f2) / 2))
  obtain ⟨tn, n1, n2⟩ := phase_met (i := i) (l := l1) (f := (f1 + f2) / 2) hr 0 t0
  obtain ⟨tt, m1, m2⟩ := phase_met (i := i) (l := l1) (f := (f1 + f2) / 2) hr (Real.pi / 2) t0
  rw [sub_zero] at n2
  rw [Real.sin_sub_pi_div_two, neg_sq] at m2
  have en := sin_sq_add_cos_sq (Orbit.progress ⟨h, i, l1, (f1 + f2) / 2⟩ tn)
  have et := sin_sq_add_cos_sq (Orbit.progress ⟨h, i, l1, (f1 + f2) / 2⟩ tt)
  have kn := C87_line_of_sight (i := i) (l1 := l1) (l2 := l2) (f1 := f1) (f2 := f2) hh tn
  have kt := C87_line_of_sight (i := i) (l1 := l1) (l2 := l2) (f1 := f1) (f2 := f2) hh tt
  have sn := sq_nonneg (sin (Orbit.progress ⟨h, i, l1, (f1 + f2) / 2⟩ tn))
  have st := sq_nonneg (cos (Orbit.progress ⟨h, i, l1, (f1 + f2) / 2⟩ tt))
  generalize 1 - (islEarthRad / (h * 1000)) ^ 2 = B at hc kn kt
  generalize tick h ^ 2 = δ at hc n2 m2
  generalize sin (Orbit.progress ⟨h, i, l1, (f1 + f2) / 2⟩ tn) ^ 2 = x at n2 en kn sn
  generalize cos (Orbit.progress ⟨h, i, l1, (f1 + f2) / 2⟩ tn) ^ 2 = x' at en kn
  generalize cos (Orbit.progress ⟨h, i, l1, (f1 + f2) / 2⟩ tt) ^ 2 = y at m2 et kt st
  generalize sin (Orbit.progress ⟨h, i, l1, (f1 + f2) / 2⟩ tt) ^ 2 = y' at et kt
  generalize atTop i ((l1 - l2) / 2) ((f1 - f2) / 2) = T at *
  generalize atNode i ((l1 - l2) / 2) ((f1 - f2) / 2) ^ 2 = N at *
  obtain rfl : x' = 1 - x := by linarith
  obtain rfl : y' = 1 - y := by linarith
  -- the squared half distance is within δ of N at tn and of T at tt
  have b1 : |x * T + (1 - x) * N - N| ≤ δ := by
    rw [show x * T + (1 - x) * N - N = x * (T - N) by ring, abs_mul, abs_of_nonneg sn]
    have : |T - N| ≤ 1 := by rw [abs_le]; constructor <;> linarith
    nlinarith [abs_nonneg (T - N)]
  have b2 : |(1 - y) * T + y * N - T| ≤ δ := by
    rw [show (1 - y) * T + y * N - T = y * (N - T) by ring, abs_mul, abs_of_nonneg st]
    have : |N - T| ≤ 1 := by rw [abs_le]; constructor <;> linarith
    nlinarith [abs_nonneg (N - T)]
  rw [abs_le] at b1 b2
  rcases hc with ⟨c1, c2, c3⟩ | ⟨c1, c2, c3⟩
  · refine ⟨⟨tt, m1, kt.mpr ⟨by linarith, by linarith⟩⟩, ⟨tn, n1, ?_⟩⟩
    rw [← Bool.not_eq_true, kn]
    rintro ⟨_, h2⟩
    linarith
  · refine ⟨⟨tn, n1, kn.mpr ⟨by linarith, by linarith⟩⟩, ⟨tt, m1, ?_⟩⟩
    rw [← Bool.not_eq_true, kt]
    rintro ⟨_, h2⟩
    linarith

theorem tick_small {h : ℝ} (h1 : 39.8600436 ≤ h) : 0 ≤ tick h ∧ tick h ≤ 1 / 1000000000 := by
  unfold tick
  have : √(39.8600436 / h) ≤ 1 := by
    rw [Real.sqrt_le_left (by norm_num), one_pow]
    exact div_le_one_of_le₀ h1 (by linarith)
  constructor
  · positivity
  · have h0 := Real.sqrt_nonneg (39.8600436 / h)
    linarith

/-- The hypotheses of `C87_in_turns` are met: planes inclined by 60 degrees with nodes 90 degrees apart, 1150 km altitude. -/
example : islEarthRad ≤ 7521.009 * 1000 ∧
    tick 7521.009 ^ 2 < atNode (Real.pi / 3) ((Real.pi / 2 - 0) / 2) ((0 - 0) / 2) ^ 2 ∧
    atNode (Real.pi / 3) ((Real.pi / 2 - 0) / 2) ((0 - 0) / 2) ^ 2 + tick 7521.009 ^ 2 < 1 - (islEarthRad / (7521.009 * 1000)) ^ 2 ∧
    1 - (islEarthRad / (7521.009 * 1000)) ^ 2 + tick 7521.009 ^ 2 ≤ atTop (Real.pi / 3) ((Real.pi / 2 - 0) / 2) ((0 - 0) / 2) := by
  obtain ⟨h1, h2⟩ := tick_small (h := 7521.009) (by norm_num)
  have e1 : (Real.pi / 2 - 0) / 2 = Real.pi / 4 := by ring
  have e2 : √(2 : ℝ) ^ 2 = 2 := Real.sq_sqrt (by norm_num)
  have hs : tick 7521.009 ^ 2 ≤ 1 / 1000000000 := by nlinarith
  have hN : atNode (Real.pi / 3) ((Real.pi / 2 - 0) / 2) ((0 - 0) / 2) ^ 2 = 1 / 8 := by
    unfold atNode
    rw [e1]
    simp only [sub_self, zero_div, sin_zero, cos_zero, Real.cos_pi_div_three, Real.sin_pi_div_four]
    nlinarith
  have hT : atTop (Real.pi / 3) ((Real.pi / 2 - 0) / 2) ((0 - 0) / 2) = 1 / 2 := by
    unfold atTop
    rw [e1]
    simp only [sub_self, zero_div, sin_zero, cos_zero, Real.cos_pi_div_three, Real.sin_pi_div_four]
    nlinarith
  rw [hN, hT]
  unfold islEarthRad
  refine ⟨by norm_num, by linarith, ?_, ?_⟩
  · have : (6371009 / (7521.009 * 1000) : ℝ) ^ 2 < 0.72 := by norm_num
    linarith
  · have : (0.7 : ℝ) < (6371009 / (7521.009 * 1000)) ^ 2 := by norm_num
    linarith

/-- The hypotheses of `C87_never` are met: planes inclined by 45 degrees on opposite sides, 1150 km altitude. -/
example : 1 - (islEarthRad / (7521.009 * 1000)) ^ 2 ≤ atTop (Real.pi / 4) ((Real.pi - 0) / 2) ((0 - 0) / 2) ∧
    1 - (islEarthRad / (7521.009 * 1000)) ^ 2 ≤ atNode (Real.pi / 4) ((Real.pi - 0) / 2) ((0 - 0) / 2) ^ 2 := by
  have e2 : √(2 : ℝ) ^ 2 = 2 := Real.sq_sqrt (by norm_num)
  have : (0.7 : ℝ) < (islEarthRad / (7521.009 * 1000)) ^ 2 := by unfold islEarthRad; norm_num
  unfold atTop atNode
  simp only [sub_self, sub_zero, zero_div, sin_zero, cos_zero, Real.cos_pi_div_four, Real.sin_pi_div_two, Real.cos_pi_div_two]
  constructor <;> nlinarith

/-- **C87, neighbouring planes**: satellites of the same slot of two planes see each other at all times if the planes are no
polar ones and their nodes are nearer than the line of sight allows. -/
theorem C87_same_slot {h i l1 l2 f : ℝ} (hh : islEarthRad ≤ h * 1000) (hi : cos i ≠ 0) (hl : sin ((l1 - l2) / 2) ≠ 0)
    (hd : islEarthRad < h * 1000 * |cos ((l1 - l2) / 2)|) (t : Time) :
    islLos (Orbit.position ⟨h, i, l1, f⟩ t) (Orbit.position ⟨h, i, l2, f⟩ t) = true := by
  have hR := islEarthRad_pos
  have hr : 0 < h * 1000 := lt_of_lt_of_le hR hh
  have e := sin_sq_add_cos_sq ((l1 - l2) / 2)
  have e' := sin_sq_add_cos_sq i
  have hT : atTop i ((l1 - l2) / 2) ((f - f) / 2) = sin ((l1 - l2) / 2) ^ 2 := by unfold atTop; simp
  have hN : atNode i ((l1 - l2) / 2) ((f - f) / 2) = cos i * sin ((l1 - l2) / 2) := by unfold atNode; simp
  have hlim : sin ((l1 - l2) / 2) ^ 2 < 1 - (islEarthRad / (h * 1000)) ^ 2 := by
    have h1 : islEarthRad / (h * 1000) < |cos ((l1 - l2) / 2)| := by rw [div_lt_iff₀ hr, mul_comm]; exact hd
    have h2 := pow_lt_pow_left₀ h1 (by positivity) two_ne_zero
    rw [sq_abs] at h2
    linarith
  apply C87_always hh
  · rw [hT]; positivity
  · rw [hN]; exact mul_ne_zero hi hl
  · rw [hT]; exact hlim
  · rw [hN, mul_pow]
    nlinarith [mul_nonneg (sq_nonneg (sin i)) (sq_nonneg (sin ((l1 - l2) / 2)))]

/-- In polar planes the same slots meet over the poles, where `GetLos` reports no line of sight: the condition is needed. -/
theorem C87_polar_meet {h l1 l2 f : ℝ} (hh : islEarthRad ≤ h * 1000) {t : Time}
    (ht : sin (Orbit.progress ⟨h, Real.pi / 2, l1, f⟩ t) = 0) :
    islLos (Orbit.position ⟨h, Real.pi / 2, l1, f⟩ t) (Orbit.position ⟨h, Real.pi / 2, l2, f⟩ t) = false := by
  rw [← Bool.not_eq_true, C87_line_of_sight hh]
  rintro ⟨h1, _⟩
  rw [show (f + f) / 2 = f by ring, ht] at h1
  simp [atNode] at h1

example : sin (Orbit.progress ⟨7521.009, Real.pi / 2, 0, 0⟩ 0) = 0 := by simp [Orbit.progress, seconds]

/-- The half angle between a slot of a ring and the next one. -/
theorem next_slot {S : Nat} (hS : 2 ≤ S) {k : Nat} (hk : k < S) :
    |sin ((2 * Real.pi * k / S - 2 * Real.pi * ((k + 1) % S : Nat) / S) / 2)| = sin (Real.pi / S) ∧
    |cos ((2 * Real.pi * k / S - 2 * Real.pi * ((k + 1) % S : Nat) / S) / 2)| = cos (Real.pi / S) ∧ 0 < sin (Real.pi / S) := by
  have hS' : (2 : ℝ) ≤ S := by exact_mod_cast hS
  have hpi := Real.pi_pos
  have hx1 : 0 < Real.pi / S := by positivity
  have hx2 : Real.pi / S ≤ Real.pi / 2 := div_le_div_of_nonneg_left hpi.le (by norm_num) hS'
  have hsin : 0 < sin (Real.pi / S) := sin_pos_of_pos_of_lt_pi hx1 (by linarith)
  have hcos : 0 ≤ cos (Real.pi / S) := cos_nonneg_of_neg_pi_div_two_le_of_le (by linarith) hx2
  by_cases h1 : k + 1 = S
  · have e : (2 * Real.pi * k / S - 2 * Real.pi * ((k + 1) % S : Nat) / S) / 2 = Real.pi - Real.pi / S := by
      rw [h1, Nat.mod_self]
      have hk' : (k : ℝ) = S - 1 := by rw [← h1]; push_cast; ring
      rw [hk']
      field_simp
      simp
    rw [e, sin_pi_sub, cos_pi_sub, abs_neg, abs_of_pos hsin, abs_of_nonneg hcos]
    exact ⟨rfl, rfl, hsin⟩
  · have e : (2 * Real.pi * k / S - 2 * Real.pi * ((k + 1) % S : Nat) / S) / 2 = -(Real.pi / S) := by
      rw [Nat.mod_eq_of_lt (by omega)]
      push_cast
      field_simp
      ring
    rw [e, sin_neg, cos_neg, abs_neg, abs_of_pos hsin, abs_of_nonneg hcos]
    exact ⟨rfl, rfl, hsin⟩

/-- **C87 for installed constellations**: the helper's satellites of slot `k` in planes `p` and `p + 1` see each other at all
times if the inclination is no right angle and there are enough planes. -/
theorem C87_installed {junk : ℝ} {now : Time} {o : OrbitRec} (hp : 2 ≤ o.planes) (hs : 0 < o.sats)
    (hn : o.planes * o.sats ≤ 2147483647) (hi : o.inc ≠ 0) (hi' : cos (o.inc / 180 * Real.pi) ≠ 0) (ha : 0 ≤ o.alt)
    (hd : islEarthRad < (6371.009 + o.alt) * 1000 * cos (Real.pi / o.planes)) :
    ∃ l, orbitInstall junk now o = .ok l ∧ ∀ p k, p < o.planes → k < o.sats → ∃ s ∈ l, ∃ s' ∈ l,
      s.orbit.lon = 2 * Real.pi * p / o.planes ∧ s.orbit.off = 2 * Real.pi * k / o.sats ∧
      s'.orbit.lon = 2 * Real.pi * ((p + 1) % o.planes : Nat) / o.planes ∧ s'.orbit.off = 2 * Real.pi * k / o.sats ∧
      ∀ t, islLos (s.orbit.position t) (s'.orbit.position t) = true := by
  obtain ⟨l, h1, _, h2, h3⟩ := C53_one_satellite_per_slot (junk := junk) (now := now) (by omega) hs hn hi
  refine ⟨l, h1, fun p k hp' hk' => ?_⟩
  obtain ⟨i1, ⟨s, hs1, hs2, hs3⟩, _⟩ := h3 p k hp' hk'
  obtain ⟨i2, ⟨s', hs1', hs2', hs3'⟩, _⟩ := h3 ((p + 1) % o.planes) k (Nat.mod_lt _ (by omega)) hk'
  have m1 := List.mem_of_getElem? hs1
  have m2 := List.mem_of_getElem? hs1'
  refine ⟨s, m1, s', m2, hs2, hs3, hs2', hs3', fun t => ?_⟩
  have hpi := Real.pi_ne_zero
  have orb : ∀ x ∈ l, x.orbit.height = 6371.009 + o.alt ∧ x.orbit.incl = o.inc / 180 * Real.pi := by
    intro x hx
    obtain ⟨a1, a2, _⟩ := h2 x hx
    unfold Sat.getAltitude earthRadKm at a1
    unfold Sat.getInclination at a2
    constructor
    · linarith
    · rw [← a2]; field_simp
  have e1 : s.orbit = ⟨6371.009 + o.alt, o.inc / 180 * Real.pi, 2 * Real.pi * p / o.planes, 2 * Real.pi * k / o.sats⟩ := by
    rw [← (orb s m1).1, ← (orb s m1).2, ← hs2, ← hs3]
  have e2 : s'.orbit = ⟨6371.009 + o.alt, o.inc / 180 * Real.pi, 2 * Real.pi * ((p + 1) % o.planes : Nat) / o.planes,
      2 * Real.pi * k / o.sats⟩ := by
    rw [← (orb s' m2).1, ← (orb s' m2).2, ← hs2', ← hs3']
  obtain ⟨n1, n2, n3⟩ := next_slot hp hp'
  rw [e1, e2]
  refine C87_same_slot (by unfold islEarthRad; linarith) hi' ?_ ?_ t
  · rw [← abs_pos, n1]; exact n3
  · rw [n2]; exact hd

/-- **C87 for the shipped data**: in five of the seven orbits of data/orbits the same slots of neighbouring planes see each other
at all times (the hypotheses of `C87_installed`). -/
theorem C87_shipped_always {alt inc : ℝ} {planes : Nat}
    (h : (alt, inc, planes) ∈ [((1150 : ℝ), (53 : ℝ), 32), (1110, 53.8, 32), (1130, 74, 8), (1325, 70, 6), (1000, 99.5, 6)]) :
    cos (inc / 180 * Real.pi) ≠ 0 ∧ islEarthRad < (6371.009 + alt) * 1000 * cos (Real.pi / planes) := by
  have hpi := Real.pi_pos
  have hsq : 1.732 < √3 := Real.lt_sqrt_of_sq_lt (by norm_num)
  have h6 : 6 ≤ planes ∧ 1000 ≤ alt := by
    simp only [List.mem_cons, Prod.mk.injEq, List.not_mem_nil, or_false] at h
    rcases h with ⟨rfl, _, rfl⟩ | ⟨rfl, _, rfl⟩ | ⟨rfl, _, rfl⟩ | ⟨rfl, _, rfl⟩ | ⟨rfl, _, rfl⟩ <;> constructor <;> norm_num
  have hi : (0 < inc ∧ inc < 90) ∨ (90 < inc ∧ inc < 180) := by
    simp only [List.mem_cons, Prod.mk.injEq, List.not_mem_nil, or_false] at h
    rcases h with ⟨_, rfl, _⟩ | ⟨_, rfl, _⟩ | ⟨_, rfl, _⟩ | ⟨_, rfl, _⟩ | ⟨_, rfl, _⟩ <;> norm_num
  constructor
  · rcases hi with ⟨i1, i2⟩ | ⟨i1, i2⟩
    · exact (Real.cos_pos_of_mem_Ioo ⟨by nlinarith, by nlinarith⟩).ne'
    · exact (Real.cos_neg_of_pi_div_two_lt_of_lt (by nlinarith) (by nlinarith)).ne
  · have hp : (6 : ℝ) ≤ planes := by exact_mod_cast h6.1
    have hc : cos (Real.pi / 6) ≤ cos (Real.pi / planes) := by
      apply Real.cos_le_cos_of_nonneg_of_le_pi (by positivity) (by linarith)
      exact div_le_div_of_nonneg_left hpi.le (by norm_num) hp
    rw [Real.cos_pi_div_six] at hc
    unfold islEarthRad
    nlinarith [h6.2]

theorem incl_bounds {inc : ℝ} (a3 : 37.4 ≤ inc) (a4 : inc ≤ 81) :
    0.01 ≤ cos (inc / 180 * Real.pi) ^ 2 ∧ cos (inc / 180 * Real.pi) ^ 2 ≤ 0.84 := by
  have hpi := Real.pi_pos
  have hi1 : 0.4 ≤ sin (inc / 180 * Real.pi) := by
    have := Real.mul_le_sin (x := inc / 180 * Real.pi) (by positivity) (by nlinarith)
    have e : 2 / Real.pi * (inc / 180 * Real.pi) = inc / 90 := by field_simp; ring
    rw [e] at this
    linarith
  have hi2 : 0.1 ≤ cos (inc / 180 * Real.pi) := by
    have := Real.mul_le_sin (x := Real.pi / 2 - inc / 180 * Real.pi) (by nlinarith) (by nlinarith)
    have e : 2 / Real.pi * (Real.pi / 2 - inc / 180 * Real.pi) = 1 - inc / 90 := by field_simp; ring
    rw [e, Real.sin_pi_div_two_sub] at this
    linarith
  have hi3 := sin_sq_add_cos_sq (inc / 180 * Real.pi)
  generalize sin (inc / 180 * Real.pi) = x at *
  generalize cos (inc / 180 * Real.pi) = y at *
  constructor <;> nlinarith

theorem limit_bounds {alt : ℝ} (a1 : 1248 ≤ alt) (a2 : alt ≤ 1275) :
    (islEarthRad / ((6371.009 + alt) * 1000)) ^ 2 ≤ 0.6994 ∧ 0.69 ≤ (islEarthRad / ((6371.009 + alt) * 1000)) ^ 2 := by
  unfold islEarthRad
  constructor
  · rw [div_pow, div_le_iff₀ (by positivity)]; nlinarith
  · rw [div_pow, le_div_iff₀ (by positivity)]; nlinarith

theorem sin_fifth : 0.3454 ≤ sin (Real.pi / (5 : Nat)) ^ 2 ∧ sin (Real.pi / (5 : Nat)) ^ 2 ≤ 0.346 := by
  have h5 : √(5 : ℝ) ^ 2 = 5 := Real.sq_sqrt (by norm_num)
  have h5a : 2.236 < √(5 : ℝ) := Real.lt_sqrt_of_sq_lt (by norm_num)
  have h5b : √(5 : ℝ) < 2.2361 := by rw [Real.sqrt_lt' (by norm_num)]; norm_num
  have hs := sin_sq_add_cos_sq (Real.pi / (5 : Nat))
  have : cos (Real.pi / (5 : Nat)) = (1 + √5) / 4 := by push_cast; exact Real.cos_pi_div_five
  rw [this] at hs
  generalize sin (Real.pi / (5 : Nat)) ^ 2 = x at *
  constructor <;> nlinarith

/-- **C87 for the shipped data**: in the two orbits with five planes they find and lose each other for ever. -/
theorem C87_shipped_in_turns {alt inc : ℝ} (h : (alt, inc) ∈ [((1275 : ℝ), (81 : ℝ)), (1248, 37.4)]) {p : Nat} (hp : p < 5) (f : ℝ)
    (t0 : Time) :
    (∃ t ≥ t0, islLos (Orbit.position ⟨6371.009 + alt, inc / 180 * Real.pi, 2 * Real.pi * p / (5 : Nat), f⟩ t)
      (Orbit.position ⟨6371.009 + alt, inc / 180 * Real.pi, 2 * Real.pi * ((p + 1) % 5 : Nat) / (5 : Nat), f⟩ t) = true) ∧
    (∃ t ≥ t0, islLos (Orbit.position ⟨6371.009 + alt, inc / 180 * Real.pi, 2 * Real.pi * p / (5 : Nat), f⟩ t)
      (Orbit.position ⟨6371.009 + alt, inc / 180 * Real.pi, 2 * Real.pi * ((p + 1) % 5 : Nat) / (5 : Nat), f⟩ t) = false) := by
  have ha : 1248 ≤ alt ∧ alt ≤ 1275 ∧ 37.4 ≤ inc ∧ inc ≤ 81 := by
    simp only [List.mem_cons, Prod.mk.injEq, List.not_mem_nil, or_false] at h
    rcases h with ⟨rfl, rfl⟩ | ⟨rfl, rfl⟩ <;> norm_num
  obtain ⟨a1, a2, a3, a4⟩ := ha
  obtain ⟨n1, _, _⟩ := next_slot (by norm_num : 2 ≤ 5) hp
  obtain ⟨k1, k2⟩ := tick_small (h := 6371.009 + alt) (by linarith)
  have hk : tick (6371.009 + alt) ^ 2 ≤ 1 / 1000000000 := by nlinarith
  obtain ⟨b1, b2⟩ := limit_bounds a1 a2
  obtain ⟨c1, c2⟩ := incl_bounds a3 a4
  obtain ⟨d1, d2⟩ := sin_fifth
  apply C87_in_turns (by unfold islEarthRad; linarith)
  right
  generalize (2 * Real.pi * p / (5 : Nat) - 2 * Real.pi * ((p + 1) % 5 : Nat) / (5 : Nat)) / 2 = L at n1 ⊢
  rw [← n1, sq_abs] at d1 d2
  have hT : atTop (inc / 180 * Real.pi) L ((f - f) / 2) = sin L ^ 2 := by
    unfold atTop; simp
  have hN : atNode (inc / 180 * Real.pi) L ((f - f) / 2) ^ 2 = cos (inc / 180 * Real.pi) ^ 2 * sin L ^ 2 := by
    rw [← mul_pow]; unfold atNode; simp
  rw [hT, hN]
  generalize sin L ^ 2 = y at d1 d2
  generalize cos (inc / 180 * Real.pi) ^ 2 = x at c1 c2
  generalize tick (6371.009 + alt) ^ 2 = z at hk
  generalize (islEarthRad / ((6371.009 + alt) * 1000)) ^ 2 = w at b1 b2
  refine ⟨by nlinarith, by nlinarith, by linarith⟩

open Classical in
/-- Whether a device hears another one on an inter-satellite channel depends on the line of sight at the time of sending. -/
theorem hears_los {K : Sky} {E : Env} {s : Sys} {a b : NodeId} {p q : Time → Vec} (ha : K.pos a = some p) (hb : K.pos b = some q)
    {src dst : DevId} {c : ChanId} (hns : (s.dev src).node = some a) (hnd : (s.dev dst).node = some b) (hc : K.budget c = none)
    (hpow : -900 ≤ (s.dev src).txPower) (m : Mac48) :
    Hears (K.env E) s c src m dst ↔ islLos (p s.now) (q s.now) = true ∧ TakesUp (s.dev dst) dst src m (s.dev src).txPower := by
  unfold Hears reachDev reach
  rw [hns, hnd]
  simp only [Sky.env, ha, hb, Option.isSome_some, hc, Sky.loss]
  cases hl : islLos (p s.now) (q s.now) with
  | true =>
    simp only [Bool.true_eq_false, if_false]
    rw [if_pos hpow]
    constructor
    · rintro ⟨y, hy, hu⟩
      injection hy with hy
      subst hy
      exact ⟨trivial, hu⟩
    · rintro ⟨_, hu⟩
      exact ⟨_, rfl, hu⟩
  | false =>
    simp only [if_true]
    rw [if_neg (by norm_num)]
    constructor
    · rintro ⟨y, hy, _⟩
      cases hy
    · rintro ⟨hf, _⟩
      cases hf

open Classical in
/-- **C87 for packets**: a packet sent to a satellite of another plane of the same height and inclination over a quiet, properly
used inter-satellite channel is received exactly once if the half distance of the two is within the limits at the time of
sending and the received power suffices, and else by nobody; no third device receives it. -/
theorem C87_unicast {K : Sky} {E : Env} {s0 s : Sys} {ops : List Op} {h i la lb oa ob : ℝ} {g : Time → Time} {a b : NodeId}
    {d dst : DevId} {c : ChanId} {p : Bytes} {proto : UInt16} {j : Nat} {X : ℝ}
    (hh : islEarthRad ≤ h * 1000) (ha : K.pos a = some (fun t => Orbit.position ⟨h, i, la, oa⟩ (g t)))
    (hbp : K.pos b = some (fun t => Orbit.position ⟨h, i, lb, ob⟩ (g t))) (hb : K.budget c = none)
    (hE : ErrorFree E) (h0 : Initial s0) (hpr : ProperRun (K.env E) s0 ops) (hx : exec (K.env E) s0 ops = .ok s)
    (hp : s.pending = []) (hup : (s.dev d).linkUp = true) (hcap : 0 < (s.dev d).cap) (hlen : p.length ≤ 1492)
    (hc : (s.dev d).chan = some c) (hk : (s.chan c).kind = .isl) (hdst : (s.chan c).link[j]? = some dst)
    (hns : (s.dev d).node = some a) (hnd : (s.dev dst).node = some b) (hpow : -900 ≤ (s.dev d).txPower)
    (hX : X = sin (Orbit.progress ⟨h, i, la, (oa + ob) / 2⟩ (g s.now)) ^ 2 * atTop i ((la - lb) / 2) ((oa - ob) / 2) +
      cos (Orbit.progress ⟨h, i, la, (oa + ob) / 2⟩ (g s.now)) ^ 2 * atNode i ((la - lb) / 2) ((oa - ob) / 2) ^ 2) :
    ∃ n s', exec (K.env E) s (.send d p (.mac (s.dev dst).addr) proto :: List.replicate n .run) = .ok s' ∧ s'.pending = [] ∧
      ∀ x, upcallLog x s'.log = upcallLog x s.log ++
        if x = dst ∧ (0 < X ∧ X < 1 - (islEarthRad / (h * 1000)) ^ 2) ∧ d ≠ dst ∧
          (s.dev dst).rxThreshold ≤ effectivePower (s.dev dst) (s.dev d).txPower then [(p, proto, (s.dev d).addr)] else [] := by
  obtain ⟨n, s', h1, h2, h3⟩ := C63_isl_unicast (E := K.env E) (proto := proto) (by exact hE) h0 hpr hx hp hup hcap hlen hc hk hdst rfl
  refine ⟨n, s', h1, h2, fun x => ?_⟩
  rw [h3 x]
  congr 1
  refine if_congr ?_ rfl rfl
  rw [hX, ← C87_line_of_sight hh]
  rw [hears_los ha hbp hns hnd hb hpow]
  have : TakesUp (s.dev dst) dst d (s.dev dst).addr (s.dev d).txPower ↔
      d ≠ dst ∧ (s.dev dst).rxThreshold ≤ effectivePower (s.dev dst) (s.dev d).txPower :=
    ⟨fun h => ⟨h.1, h.2.1⟩, fun h => ⟨h.1, h.2, Or.inr (Or.inl rfl)⟩⟩
  rw [this]

/-- The hypotheses of `C87_unicast` are met with a half distance within the limits: satellites 1 and 3 in planes inclined by 60
degrees with nodes 90 degrees apart at 5000 km altitude. -/
example : ∃ K : Sky, ∃ s, K.pos 1 = some (fun t => Orbit.position ⟨11371.009, Real.pi / 3, 0, 0⟩ t) ∧
    K.pos 3 = some (fun t => Orbit.position ⟨11371.009, Real.pi / 3, Real.pi / 2, 0⟩ t) ∧
    islEarthRad ≤ 11371.009 * 1000 ∧ K.budget 1 = none ∧
    ErrorFree Demo.env ∧ Initial Demo.sys ∧ ProperRun (K.env Demo.env) Demo.sys [.attach 1 1, .attach 3 1] ∧
    exec (K.env Demo.env) Demo.sys [.attach 1 1, .attach 3 1] = .ok s ∧ s.pending = [] ∧ (s.dev 1).linkUp = true ∧
    0 < (s.dev 1).cap ∧ (s.dev 1).chan = some 1 ∧ (s.chan 1).kind = .isl ∧ (s.chan 1).link[1]? = some 3 ∧
    (s.dev 1).node = some 1 ∧ (s.dev 3).node = some 3 ∧ -900 ≤ (s.dev 1).txPower ∧
    (islLos (Orbit.position ⟨11371.009, Real.pi / 3, 0, 0⟩ s.now) (Orbit.position ⟨11371.009, Real.pi / 3, Real.pi / 2, 0⟩ s.now) = true) := by
  refine ⟨⟨fun n => some (fun t => Orbit.position ⟨11371.009, Real.pi / 3, if n = 1 then 0 else Real.pi / 2, 0⟩ t), fun _ => none,
    299792458, fun _ => 0⟩, _, by simp, by simp, by norm_num [islEarthRad], rfl, fun _ _ _ _ => rfl, Demo.sys_initial,
    demo_properRun _ ?_, rfl, rfl, rfl, by decide, rfl, rfl, rfl, rfl, rfl, by decide +kernel, ?_⟩
  · intro op hop
    simp only [List.mem_cons, List.not_mem_nil, or_false] at hop
    rcases hop with rfl | rfl <;> exact ⟨_, _, rfl, by decide⟩
  · have e : (0 - Real.pi / 2) / 2 = -(Real.pi / 4) := by ring
    have h2 : 1.4 < √2 := Real.lt_sqrt_of_sq_lt (by norm_num)
    apply C87_same_slot (by norm_num [islEarthRad])
    · rw [Real.cos_pi_div_three]; norm_num
    · rw [e, sin_neg, Real.sin_pi_div_four]
      intro h
      linarith
    · rw [e, cos_neg, Real.cos_pi_div_four, abs_of_nonneg (by positivity)]
      unfold islEarthRad
      linarith

end Verif
