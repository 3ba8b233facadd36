import Verif.Lemmas.Reach
import Verif.Spec.Coverage
/-! The nearest plane of a constellation and the nearest satellite of a plane (C107). -/

namespace Verif
open Real Spec

/-- Of `n` evenly spaced directions one is within half a step of any given one. -/
theorem nearest_angle {n : Nat} (hn : 0 < n) (u θ : ℝ) :
    ∃ k < n, ∃ m : ℤ, |u + 2 * Real.pi * k / n - (θ + m * (2 * Real.pi))| ≤ Real.pi / n := by
  have hpi := Real.pi_pos
  have hn' : (0 : ℝ) < n := by exact_mod_cast hn
  set y : ℝ := n * ((θ - u) / (2 * Real.pi)) with hy
  set m : ℤ := round y with hm
  have hr : |y - m| ≤ 1 / 2 := abs_sub_round y
  have hmod := Int.emod_add_mul_ediv m n
  have hp0 : 0 ≤ m % (n : ℤ) := Int.emod_nonneg _ (by exact_mod_cast hn.ne')
  have hp1 : m % (n : ℤ) < n := Int.emod_lt_of_pos _ (by exact_mod_cast hn)
  obtain ⟨p, hp⟩ := Int.eq_ofNat_of_zero_le hp0
  refine ⟨p, by rw [hp] at hp1; exact_mod_cast hp1, -(m / (n : ℤ)), ?_⟩
  have hpm : (p : ℝ) = m - n * ((m / (n : ℤ) : ℤ) : ℝ) := by
    have : ((m % (n : ℤ) : ℤ) : ℝ) = p := by rw [hp]; simp
    rw [← this]
    have h3 : ((m % (n : ℤ) + n * (m / (n : ℤ)) : ℤ) : ℝ) = m := by rw [hmod]
    push_cast at h3 ⊢
    linarith
  have hθ : θ = u + 2 * Real.pi * y / n := by rw [hy]; field_simp; ring
  have e : u + 2 * Real.pi * p / n - (θ + ((-(m / (n : ℤ)) : ℤ) : ℝ) * (2 * Real.pi)) = 2 * Real.pi * (m - y) / n := by
    rw [hθ, hpm]; push_cast; field_simp; ring
  rw [e, abs_div, abs_of_pos hn', abs_mul, abs_of_pos (by positivity : (0 : ℝ) < 2 * Real.pi), abs_sub_comm]
  apply div_le_div_of_nonneg_right _ hn'.le
  nlinarith

/-- Some plane passes at most `δ` beside a point that is at most `δ` beyond its turning points. -/
theorem plane_near {i φ δ : ℝ} (hδ : 0 ≤ δ) (h1 : -(Real.pi / 2) ≤ φ) (h2 : φ ≤ Real.pi / 2) (hφ : |φ| ≤ tilt i + δ) :
    ∃ x, |cos i * sin φ - sin i * cos φ * cos x| ≤ δ := by
  obtain ⟨t1, t2⟩ := tilt_mem i
  obtain ⟨ψ, hψ, hd⟩ : ∃ ψ, |ψ| ≤ tilt i ∧ |φ - ψ| ≤ δ := by
    obtain ⟨a1, a2⟩ := abs_le.mp hφ
    by_cases c1 : tilt i < φ
    · exact ⟨tilt i, by rw [abs_of_nonneg t1], by rw [abs_le]; constructor <;> linarith⟩
    · by_cases c2 : φ < -tilt i
      · exact ⟨-tilt i, by rw [abs_neg, abs_of_nonneg t1], by rw [abs_le]; constructor <;> linarith⟩
      · exact ⟨φ, by rw [abs_le]; constructor <;> linarith, by simpa using hδ⟩
  obtain ⟨b1, b2⟩ := abs_le.mp hψ
  obtain ⟨x, hx⟩ := plane_through (i := i) (φ := ψ) (by linarith) (by linarith) hψ
  refine ⟨x, ?_⟩
  refine le_trans ?_ hd
  apply abs_le_of_sq_le_sq _ (abs_nonneg _)
  rw [sq_abs]
  have e : cos i * sin φ - sin i * cos φ * cos x =
      cos i * (sin φ - sin ψ) - sin i * cos x * (cos φ - cos ψ) := by linear_combination hx
  have hAB : cos i ^ 2 + (sin i * cos x) ^ 2 ≤ 1 := by
    have := sin_sq_add_cos_sq i
    have := Real.cos_sq_le_one x
    nlinarith [sq_nonneg (sin i)]
  have hchord : (sin φ - sin ψ) ^ 2 + (cos φ - cos ψ) ^ 2 ≤ (φ - ψ) ^ 2 := by
    have e1 := sin_sq_add_cos_sq φ
    have e2 := sin_sq_add_cos_sq ψ
    have e3 := cos_sub φ ψ
    have := Real.one_sub_sq_div_two_le_cos (x := φ - ψ)
    nlinarith
  rw [e]
  refine le_trans ?_ hchord
  generalize sin φ - sin ψ = u at *
  generalize cos φ - cos ψ = v at *
  generalize cos i = A at *
  generalize sin i * cos x = B at *
  nlinarith [sq_nonneg (A * v + B * u), sq_nonneg u, sq_nonneg v]

/-- A plane of `n` evenly spaced satellites and a point near the plane: the nearest satellite. -/
theorem nearest_of_plane {h i l : ℝ} (hh : 0 ≤ h) {n : Nat} (hn : 2 ≤ n) (t : Time) {g : Vec} {ν : ℝ}
    (hν : |dot (axisN i (Orbit.latitude ⟨h, i, l, 0⟩ t)) g| ≤ g.len * ν) :
    ∃ k < n, h * 1000 * g.len * (√(1 - ν ^ 2) * cos (Real.pi / n)) ≤ dot (Orbit.position ⟨h, i, l, 2 * Real.pi * k / n⟩ t) g := by
  set L := Orbit.latitude ⟨h, i, l, 0⟩ t with hL
  set a := dot (axisU i L) g with ha
  set b := dot (axisW L) g with hb
  set v := dot (axisN i L) g with hv
  have hq := len_nonneg g
  have hsum : a ^ 2 + b ^ 2 + v ^ 2 = g.len * g.len := by
    rw [len_sq, ha, hb, hv]
    have e1 := sin_sq_add_cos_sq i
    have e2 := sin_sq_add_cos_sq L
    simp only [dot, axisU, axisW, axisN]
    linear_combination ((g.x * cos L + g.y * sin L) ^ 2 + g.z ^ 2) * e1 + (g.x ^ 2 + g.y ^ 2) * e2
  obtain ⟨θ, hθa, hθb⟩ : ∃ θ, a = √(a ^ 2 + b ^ 2) * cos θ ∧ b = √(a ^ 2 + b ^ 2) * sin θ := by
    refine ⟨Complex.arg ⟨a, b⟩, ?_, ?_⟩
    · have := Complex.norm_mul_cos_arg ⟨a, b⟩
      rw [Complex.norm_def, Complex.normSq_mk, ← sq, ← sq] at this
      exact this.symm
    · have := Complex.norm_mul_sin_arg ⟨a, b⟩
      rw [Complex.norm_def, Complex.normSq_mk, ← sq, ← sq] at this
      exact this.symm
  obtain ⟨k, hk, hcos⟩ := nearest_slot (n := n) (by omega) (Orbit.progress ⟨h, i, l, 0⟩ t) θ
  refine ⟨k, hk, ?_⟩
  have hpos : dot (Orbit.position ⟨h, i, l, 2 * Real.pi * k / n⟩ t) g =
      h * 1000 * (√(a ^ 2 + b ^ 2) * cos (Orbit.progress ⟨h, i, l, 0⟩ t + 2 * Real.pi * k / n - θ)) := by
    rw [position_eq, progress_off h i l _ 0, sub_zero]
    have hlat : Orbit.latitude ⟨h, i, l, 2 * Real.pi * k / n⟩ t = L := rfl
    rw [hlat, cos_sub]
    generalize Orbit.progress ⟨h, i, l, 0⟩ t + 2 * Real.pi * k / n = u
    have e : √(a ^ 2 + b ^ 2) * (cos u * cos θ + sin u * sin θ) = cos u * a + sin u * b := by
      linear_combination (-cos u) * hθa - sin u * hθb
    rw [e, ha, hb]
    simp only [dot, smul, add_x, add_y, add_z]
    ring
  rw [hpos, mul_assoc]
  apply mul_le_mul_of_nonneg_left _ (by positivity)
  have hn' : (2 : ℝ) ≤ n := by exact_mod_cast hn
  have hc0 : 0 ≤ cos (Real.pi / n) := cos_nonneg_of_neg_pi_div_two_le_of_le
    (by have := Real.pi_pos; have : 0 < Real.pi / n := by positivity
        linarith) (div_le_div_of_nonneg_left Real.pi_pos.le (by norm_num) hn')
  have hw : g.len * √(1 - ν ^ 2) ≤ √(a ^ 2 + b ^ 2) := by
    have hv2 : v ^ 2 ≤ (g.len * ν) ^ 2 := by rw [← sq_abs v]; exact pow_le_pow_left₀ (abs_nonneg _) hν 2
    apply Real.le_sqrt_of_sq_le
    rcases le_total 0 (1 - ν ^ 2) with h0 | h0
    · rw [mul_pow, Real.sq_sqrt h0]
      nlinarith
    · rw [Real.sqrt_eq_zero_of_nonpos h0, mul_zero]
      nlinarith [sq_nonneg a, sq_nonneg b]
  calc g.len * (√(1 - ν ^ 2) * cos (Real.pi / n)) = g.len * √(1 - ν ^ 2) * cos (Real.pi / n) := by ring
    _ ≤ √(a ^ 2 + b ^ 2) * cos (Real.pi / n) := mul_le_mul_of_nonneg_right hw hc0
    _ ≤ _ := mul_le_mul_of_nonneg_left hcos (Real.sqrt_nonneg _)

end Verif
