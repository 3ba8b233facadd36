import Mathlib.Analysis.SpecialFunctions.Trigonometric.Inverse
import Mathlib.Tactic.Linarith
import Mathlib.Tactic.LinearCombination
import Mathlib.Tactic.FieldSimp
import Verif.Model.Propagation
import Verif.Lemmas.Orbit
/-!
# Algebra of the propagation loss models
-/

namespace Verif
open Real

theorem propEarthRad_pos : 0 < propEarthRad := by unfold propEarthRad; norm_num
theorem islEarthRad_pos : 0 < islEarthRad := by unfold islEarthRad; norm_num

/-- The discriminant without tangents. -/
theorem disc_eq {α hs R : ℝ} (hc : cos α ≠ 0) :
    (2 * tan α * hs) * (2 * tan α * hs) + 4 * (1 + tan α * tan α) * (hs * hs - R * R) =
      (2 / cos α) ^ 2 * (sin α ^ 2 * hs ^ 2 + hs ^ 2 - R ^ 2) := by
  have h1 : sin α ^ 2 + cos α ^ 2 = 1 := sin_sq_add_cos_sq α
  rw [tan_eq_sin_div_cos]
  field_simp
  linear_combination (4 * hs ^ 2 - 4 * R ^ 2) * h1

theorem a_eq {α : ℝ} (hc : cos α ≠ 0) : 1 + tan α * tan α = 1 / cos α ^ 2 := by
  have h1 : sin α ^ 2 + cos α ^ 2 = 1 := sin_sq_add_cos_sq α
  rw [tan_eq_sin_div_cos]
  field_simp
  linear_combination h1

theorem len2_eq {α t : ℝ} (hc : 0 < cos α) : len2 t (-tan α * t) = |t| / cos α := by
  unfold len2
  have : t * t + -tan α * t * (-tan α * t) = (|t| / cos α) ^ 2 := by
    have := a_eq (α := α) hc.ne'
    rw [div_pow, sq_abs]
    linear_combination t ^ 2 * this
  rw [this, Real.sqrt_sq (by positivity)]

theorem min_abs (x y : ℝ) (hy : 0 ≤ y) : min |-x - y| |-x + y| = |y - abs x| := by
  rcases abs_cases x with ⟨h, h'⟩ | ⟨h, h'⟩ <;> rw [h]
  · rw [min_eq_right]
    · congr 1; ring
    · rw [show -x - y = -(x + y) by ring, abs_neg, abs_of_nonneg (by linarith : 0 ≤ x + y)]
      exact abs_le.mpr ⟨by linarith, by linarith⟩
  · rw [min_eq_left]
    · rw [show y - -x = -(-x - y) by ring, abs_neg]
    · rw [abs_of_nonneg (by linarith : 0 ≤ -x + y)]
      exact abs_le.mpr ⟨by linarith, by linarith⟩

/-- The cut-off distance in closed form. -/
theorem cutoff_eq {m : LeoLoss} {sat : Vec} (hc : 0 < cos m.angle) :
    m.cutoff sat =
      if sin m.angle ^ 2 * sat.len ^ 2 + sat.len ^ 2 - propEarthRad ^ 2 < 0 then -1
      else |√(sin m.angle ^ 2 * sat.len ^ 2 + sat.len ^ 2 - propEarthRad ^ 2) - abs (sin m.angle) * sat.len| := by
  have h2 : 0 < (2 / cos m.angle) ^ 2 := by positivity
  simp only [LeoLoss.cutoff, disc_eq hc.ne']
  set q := sin m.angle ^ 2 * sat.len ^ 2 + sat.len ^ 2 - propEarthRad ^ 2
  by_cases hq : q < 0
  · rw [if_pos hq, if_pos (mul_neg_of_pos_of_neg h2 hq)]
  · rw [if_neg hq, if_neg (not_lt.mpr (mul_nonneg h2.le (not_lt.mp hq)))]
    have hs : √((2 / cos m.angle) ^ 2 * q) = 2 / cos m.angle * √q := by
      rw [Real.sqrt_mul h2.le, Real.sqrt_sq (by positivity)]
    rw [len2_eq hc, len2_eq hc, hs, a_eq hc.ne']
    have e1 : (-(2 * tan m.angle * sat.len) - 2 / cos m.angle * √q) / (2 * (1 / cos m.angle ^ 2)) =
        cos m.angle * (-(sin m.angle * sat.len) - √q) := by
      rw [tan_eq_sin_div_cos]; field_simp
    have e2 : (-(2 * tan m.angle * sat.len) + 2 / cos m.angle * √q) / (2 * (1 / cos m.angle ^ 2)) =
        cos m.angle * (-(sin m.angle * sat.len) + √q) := by
      rw [tan_eq_sin_div_cos]; field_simp
    rw [e1, e2, abs_mul, abs_mul, abs_of_pos hc, mul_div_cancel_left₀ _ hc.ne', mul_div_cancel_left₀ _ hc.ne',
      min_abs _ _ (Real.sqrt_nonneg _), abs_mul, abs_of_nonneg (len_nonneg sat)]

/-- The non-negative root of `d^2 + 2 h s d = h^2 - R^2`. -/
theorem cutoff_root {h s R : ℝ} (hh : R ≤ h) (hR : 0 < R) :
    ¬ (s ^ 2 * h ^ 2 + h ^ 2 - R ^ 2 < 0) ∧ 0 ≤ √(s ^ 2 * h ^ 2 + h ^ 2 - R ^ 2) - s * h ∧
    (√(s ^ 2 * h ^ 2 + h ^ 2 - R ^ 2) - s * h) ^ 2 + 2 * h * (√(s ^ 2 * h ^ 2 + h ^ 2 - R ^ 2) - s * h) * s = h ^ 2 - R ^ 2 := by
  have h0 : 0 ≤ h ^ 2 - R ^ 2 := by nlinarith
  have h1 : (s * h) ^ 2 ≤ s ^ 2 * h ^ 2 + h ^ 2 - R ^ 2 := by nlinarith
  have h2 : 0 ≤ s ^ 2 * h ^ 2 + h ^ 2 - R ^ 2 := le_trans (sq_nonneg _) h1
  refine ⟨not_lt.mpr h2, sub_nonneg.mpr (Real.le_sqrt_of_sq_le h1), ?_⟩
  have h3 := Real.sq_sqrt h2
  linear_combination h3

/-- Monotonicity of the quadratic in `d`. -/
theorem quad_le_iff {h s d e : ℝ} (hh : 0 < h) (hs : 0 ≤ s) (hd : 0 ≤ d) (he : 0 ≤ e) :
    d ≤ e ↔ d ^ 2 + 2 * h * d * s ≤ e ^ 2 + 2 * h * e * s := by
  have hhs : 0 ≤ h * s := mul_nonneg hh.le hs
  constructor
  · intro hde
    have := mul_le_mul_of_nonneg_left hde hhs
    nlinarith
  · intro hq
    by_contra hlt
    push Not at hlt
    have := mul_le_mul_of_nonneg_left hlt.le hhs
    nlinarith

theorem dot_sub_self {g v : Vec} : dot g (v - g) = (v.len ^ 2 - g.len ^ 2 - (v - g).len ^ 2) / 2 := by
  have h1 := len_sq g
  have h2 := len_sq v
  have h3 := len_sq (v - g)
  rw [pow_two, pow_two, pow_two, h1, h2, h3]
  simp only [dot, sub_x, sub_y, sub_z]
  ring

theorem len_eq_zero {v : Vec} (h : v.len = 0) : v = ⟨0, 0, 0⟩ := by
  have := len_sq v
  rw [h] at this
  simp only [dot] at this
  ext
  · simp only; nlinarith [mul_self_nonneg v.x, mul_self_nonneg v.y, mul_self_nonneg v.z]
  · simp only; nlinarith [mul_self_nonneg v.x, mul_self_nonneg v.y, mul_self_nonneg v.z]
  · simp only; nlinarith [mul_self_nonneg v.x, mul_self_nonneg v.y, mul_self_nonneg v.z]

theorem len_sub_pos {a b : Vec} (h : b ≠ a) : 0 < (b - a).len := by
  rcases (len_nonneg (b - a)).lt_or_eq with h' | h'
  · exact h'
  · exfalso
    apply h
    have := len_eq_zero h'.symm
    injection this with h1 h2 h3
    ext <;> linarith

/-- Decision of `GetLos` from the distance `s`, half the coefficient `p = -b/2` and `c`. -/
noncomputable def losOf (s p c : ℝ) : Bool :=
  if p ^ 2 - c < 0 then true else decide (s < |p - √(p ^ 2 - c)|) && decide (s < |p + √(p ^ 2 - c)|)

open Classical in
theorem los_form {a b oc bp : Vec} (h : a.len > b.len ∧ oc = a ∧ bp = b ∨ ¬ a.len > b.len ∧ oc = b ∧ bp = a) :
    islLos a b = if (bp - oc).len = 0 then false
      else losOf (bp - oc).len (-(dot oc (bp - oc) / (bp - oc).len)) (oc.len ^ 2 - islEarthRad ^ 2) := by
  have e1 : (if a.len > b.len then a else b) = oc := by
    rcases h with ⟨h, rfl, rfl⟩ | ⟨h, rfl, rfl⟩
    · rw [if_pos h]
    · rw [if_neg h]
  have e2 : (if a.len > b.len then b else a) = bp := by
    rcases h with ⟨h, rfl, rfl⟩ | ⟨h, rfl, rfl⟩
    · rw [if_pos h]
    · rw [if_neg h]
  simp only [islLos, e1, e2]
  by_cases h0 : (bp - oc).len = 0
  · rw [if_pos h0, if_pos h0]
  · rw [if_neg h0, if_neg h0]
    have hd := len_sq (bp - oc)
    have hoc := len_sq oc
    set s := (bp - oc).len
    set d := bp - oc
    have ha : d.x / s * (d.x / s) + d.y / s * (d.y / s) + d.z / s * (d.z / s) = 1 := by
      have : d.x / s * (d.x / s) + d.y / s * (d.y / s) + d.z / s * (d.z / s) = dot d d / (s * s) := by
        simp only [dot]; field_simp
      rw [this, ← hd, div_self (mul_ne_zero h0 h0)]
    have hb : 2 * (oc.x * (d.x / s) + oc.y * (d.y / s) + oc.z * (d.z / s)) = -(2 * (-(dot oc d / s))) := by
      simp only [dot]; ring
    have hc : oc.x * oc.x + oc.y * oc.y + oc.z * oc.z - islEarthRad * islEarthRad = oc.len ^ 2 - islEarthRad ^ 2 := by
      rw [pow_two, pow_two, hoc]; rfl
    rw [ha, hb, hc]
    set p := -(dot oc d / s)
    set c := oc.len ^ 2 - islEarthRad ^ 2
    have hdisc : -(2 * p) * -(2 * p) - 4 * 1 * c = 2 ^ 2 * (p ^ 2 - c) := by ring
    have hsqrt : √(2 ^ 2 * (p ^ 2 - c)) = 2 * √(p ^ 2 - c) := by
      rw [Real.sqrt_mul (by norm_num), Real.sqrt_sq (by norm_num)]
    unfold losOf
    rw [hdisc, hsqrt]
    by_cases hq : p ^ 2 - c < 0
    · rw [if_pos hq, if_pos (by linarith)]
    · rw [if_neg hq, if_neg (by linarith)]
      have e3 : (- -(2 * p) - 2 * √(p ^ 2 - c)) / (2 * 1) = p - √(p ^ 2 - c) := by ring
      have e4 : (- -(2 * p) + 2 * √(p ^ 2 - c)) / (2 * 1) = p + √(p ^ 2 - c) := by ring
      rw [e3, e4]

/-- The ray `p`, `c` meets the ball within distance `s` iff the decision is negative. -/
theorem losOf_iff {s p c : ℝ} (hs : 0 < s) (hp : 0 ≤ p) (hc : 0 ≤ c) :
    losOf s p c = true ↔ ¬ ∃ t : ℝ, 0 ≤ t ∧ t ≤ 1 ∧ (t * s) ^ 2 - 2 * p * (t * s) + c ≤ 0 := by
  unfold losOf
  by_cases hq : p ^ 2 - c < 0
  · rw [if_pos hq]
    refine iff_of_true rfl ?_
    rintro ⟨t, _, _, h⟩
    nlinarith [sq_nonneg (t * s - p)]
  · rw [if_neg hq]
    push Not at hq
    have hr := Real.sq_sqrt hq
    have hr0 := Real.sqrt_nonneg (p ^ 2 - c)
    set q := √(p ^ 2 - c)
    have hqp : q ≤ p := by nlinarith
    rw [abs_of_nonneg (by linarith : 0 ≤ p - q), abs_of_nonneg (by linarith : 0 ≤ p + q), Bool.and_eq_true,
      decide_eq_true_eq, decide_eq_true_eq]
    constructor
    · rintro ⟨h1, _⟩ ⟨t, h3, h4, h5⟩
      have : t * s ≤ s := by nlinarith
      nlinarith
    · intro h
      have h1 : s < p - q := by
        by_contra hlt
        push Not at hlt
        apply h
        refine ⟨(p - q) / s, div_nonneg (by linarith) hs.le, (div_le_one hs).mpr hlt, ?_⟩
        rw [div_mul_cancel₀ _ hs.ne']
        nlinarith
      exact ⟨h1, by linarith⟩

end Verif
