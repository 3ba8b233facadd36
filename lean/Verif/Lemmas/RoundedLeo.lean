import Verif.Lemmas.Rounded
/-!
# Error of the rounded cut-off distance
-/

namespace Verif
open Real Verif.Spec

theorem cos_rad_ge {e : ℝ} (he : |e| ≤ 60) : 1 / 2 ≤ cos (Spec.rad e) := by
  rw [← cos_abs, ← cos_pi_div_three]
  have hp := Real.pi_pos
  have h1 : |Spec.rad e| = |e| * (π / 180) := by unfold Spec.rad; rw [abs_mul, abs_of_pos (by positivity : 0 < π / 180)]
  refine cos_le_cos_of_nonneg_of_le_pi (abs_nonneg _) (by linarith) ?_
  rw [h1]
  nlinarith

theorem abs_tan_rad {e : ℝ} (he : |e| ≤ 60) : |tan (Spec.rad e)| ≤ 1.7321 := by
  have hc := cos_rad_ge he
  have h1 := sin_sq_add_cos_sq (Spec.rad e)
  refine abs_le_of_sq_le_sq' ?_ (by norm_num) |> abs_le.mpr
  rw [tan_eq_sin_div_cos, div_pow, div_le_iff₀ (by positivity)]
  nlinarith

theorem abs_rad {e : ℝ} (he : |e| ≤ 60) : |Spec.rad e| ≤ 1.0473 := by
  unfold Spec.rad
  have hp := Real.pi_pos
  have h2 := Real.pi_lt_d4
  rw [abs_mul, abs_of_pos (by positivity : 0 < π / 180)]
  nlinarith [abs_nonneg e]

theorem tan_close {a b : ℝ} (ha : 1 / 2 ≤ cos a) (hab : |b - a| ≤ 1e-14) : |tan b - tan a| ≤ 4.1e-14 := by
  have hb : 0.499 ≤ cos b := by
    have := abs_le.mp ((Real.abs_cos_sub_cos_le b a).trans hab)
    have : (1e-14 : ℝ) ≤ 0.001 := by norm_num
    linarith
  have a0 : (0 : ℝ) < cos a := by linarith
  have b0 : (0 : ℝ) < cos b := by linarith
  have h1 : tan b - tan a = sin (b - a) / (cos b * cos a) := by
    rw [tan_eq_sin_div_cos, tan_eq_sin_div_cos, sin_sub, div_sub_div _ _ b0.ne' a0.ne']
  have h2 : |sin (b - a)| ≤ 1e-14 := by
    have := Real.abs_sin_sub_sin_le (b - a) 0
    rw [sin_zero, sub_zero, sub_zero] at this
    exact this.trans hab
  have h3 : 0.2495 ≤ cos b * cos a := by nlinarith
  rw [h1, abs_div, abs_of_pos (by positivity : 0 < cos b * cos a), div_le_iff₀ (by positivity)]
  nlinarith

namespace Spec.Accurate
variable {F : Arith}

theorem elevation_near (h : Accurate F) {e : ℝ} (he : |e| ≤ 60) : |F.elevationAngle e - Spec.rad e| ≤ 1e-14 := by
  have hp := Real.pi_pos
  have h2 := Real.pi_lt_d4
  have h3 : |F.div F.pi 180 - π / 180| ≤ 1e-16 := by
    refine h.div_near (e := 1e-15) (f := 0) (K := 0.02) (L := 180) h.pi (by norm_num) ?_ (by norm_num) (by norm_num) le_rfl (by norm_num) (by norm_num)
    rw [abs_of_pos (by positivity)]
    linarith
  refine h.mul_near (e := 0) (M := 60) (N := 0.02) (by simp) h3 he ?_ (by norm_num) (by norm_num)
  rw [abs_of_pos (by positivity)]
  linarith

theorem tan_near (h : Accurate F) {e : ℝ} (he : |e| ≤ 60) : |F.tan (F.elevationAngle e) - Real.tan (Spec.rad e)| ≤ 5e-14 := by
  have h1 := h.elevation_near he
  have h2 := tan_close (cos_rad_ge he) h1
  have h3 := abs_tan_rad he
  have h4 : |F.elevationAngle e| ≤ 1.5 := by
    have h5 := abs_rad he
    obtain ⟨p, q⟩ := abs_le.mp h1
    obtain ⟨p', q'⟩ := abs_le.mp h5
    rw [abs_le]
    constructor <;> linarith
  have h5 := h.tan _ h4
  have h6 : |Real.tan (F.elevationAngle e)| ≤ 1.7322 := by
    obtain ⟨p, q⟩ := abs_le.mp h2
    obtain ⟨p', q'⟩ := abs_le.mp h3
    rw [abs_le]
    constructor <;> linarith
  calc |F.tan (F.elevationAngle e) - Real.tan (Spec.rad e)|
      = |(F.tan (F.elevationAngle e) - Real.tan (F.elevationAngle e)) + (Real.tan (F.elevationAngle e) - Real.tan (Spec.rad e))| := by ring_nf
    _ ≤ |F.tan (F.elevationAngle e) - Real.tan (F.elevationAngle e)| + |Real.tan (F.elevationAngle e) - Real.tan (Spec.rad e)| := abs_add_le _ _
    _ ≤ 5e-14 := by linarith

/-- The rounded cut-off distance is within a few millimetres of the exact one. -/
theorem cutoff_near (h : Accurate F) {e atm fspl mg : ℝ} (he : |e| ≤ 60) {sat far : Vec} (h1 : 6.471e6 ≤ far.len) (h2 : far.len ≤ 2e7)
    (hs : |F.len sat - far.len| ≤ 5e-7) :
    |F.cutoff (F.elevationAngle e) sat - (LeoLoss.create e atm fspl mg).cutoff far| ≤ 5e-3 := by
  have hT := h.tan_near he
  have hTb := abs_tan_rad he
  have hH : |far.len| ≤ 2e7 := by rw [abs_of_nonneg (len_nonneg _)]; exact h2
  have hang : (LeoLoss.create e atm fspl mg).angle = Spec.rad e := rfl
  unfold Arith.cutoff LeoLoss.cutoff
  rw [hang]
  dsimp only
  generalize F.tan (F.elevationAngle e) = T' at *
  generalize Real.tan (Spec.rad e) = T at *
  generalize F.len sat = H' at *
  generalize far.len = H at *
  have hTT : |T * T| ≤ 3.0002 := by
    rw [abs_mul]
    nlinarith [abs_nonneg T]
  have hTT0 := mul_self_nonneg T
  have ha : |F.add 1 (F.mul T' T') - (1 + T * T)| ≤ 3e-13 := by
    refine h.add_near (e := 0) (f := 2e-13) (M := 4.0002) (by simp) ?_ ?_ (by norm_num) (by norm_num)
    · exact h.mul_near hT hT hTb hTb (by norm_num) (by norm_num)
    · rw [abs_of_nonneg (by linarith)]
      rw [abs_of_nonneg hTT0] at hTT
      linarith
  have hb : |F.mul (F.mul 2 T') H' - 2 * T * H| ≤ 5e-6 := by
    refine h.mul_near (e := 1.1e-13) (f := 5e-7) (M := 3.4642) (N := 2e7) ?_ hs ?_ hH (by norm_num) (by norm_num)
    · exact h.mul_near (e := 0) (M := 2) (N := 1.7321) (by simp) hT (by norm_num) hTb (by norm_num) (by norm_num)
    · rw [abs_mul, abs_two]; linarith
  have hbb : |2 * T * H| ≤ 7e7 := by
    rw [abs_mul, abs_mul, abs_two]
    nlinarith [abs_nonneg T, abs_nonneg H]
  have hcb : |H * H - propEarthRad * propEarthRad| ≤ 4e14 := by
    unfold propEarthRad
    rw [abs_of_nonneg (by nlinarith)]
    nlinarith
  have hc : |F.sub (F.mul H' H') (F.mul propEarthRad propEarthRad) - (H * H - propEarthRad * propEarthRad)| ≤ 25 := by
    refine h.sub_near (e := 21) (f := 1) (M := 4e14) ?_ ?_ hcb (by norm_num) (by norm_num)
    · exact h.mul_near hs hs hH hH (by norm_num) (by norm_num)
    · exact h.mul_near (e := 0) (f := 0) (M := 6.4e6) (N := 6.4e6) (by simp) (by simp) (by unfold propEarthRad; norm_num)
        (by unfold propEarthRad; norm_num) (by norm_num) (by norm_num)
  have hc0 : 1.28e12 ≤ H * H - propEarthRad * propEarthRad := by
    unfold propEarthRad
    nlinarith
  have hab : |1 + T * T| ≤ 4.0002 := by
    rw [abs_of_nonneg (by linarith)]
    rw [abs_of_nonneg hTT0] at hTT
    linarith
  generalize F.sub (F.mul H' H') (F.mul propEarthRad propEarthRad) = c' at *
  generalize H * H - propEarthRad * propEarthRad = c at *
  have ha1 : 1 ≤ 1 + T * T := by linarith
  generalize F.add 1 (F.mul T' T') = a' at *
  generalize 1 + T * T = a at *
  generalize F.mul (F.mul 2 T') H' = b' at *
  generalize 2 * T * H = b at *
  have hac : |4 * a * c| ≤ 6.5e15 := by
    rw [abs_mul, abs_mul, abs_of_pos (by norm_num : (0 : ℝ) < 4)]
    nlinarith [abs_nonneg a, abs_nonneg c]
  have hbb2 : |b * b| ≤ 4.9e15 := by
    rw [abs_mul]; nlinarith [abs_nonneg b]
  have hd : |F.add (F.mul b' b') (F.mul (F.mul 4 a') c') - (b * b + 4 * a * c)| ≤ 2000 := by
    refine h.add_near (e := 710) (f := 1000) (M := 1.2e16) ?_ ?_ ?_ (by norm_num) (by norm_num)
    · exact h.mul_near hb hb hbb hbb (by norm_num) (by norm_num)
    · refine h.mul_near (e := 1.3e-12) (f := 25) (M := 16.0008) (N := 4e14) ?_ hc ?_ hcb (by norm_num) (by norm_num)
      · exact h.mul_near (e := 0) (M := 4) (N := 4.0002) (by simp) ha (by norm_num) hab (by norm_num) (by norm_num)
      · rw [abs_mul, abs_of_pos (by norm_num : (0 : ℝ) < 4)]; linarith
    · exact (abs_add_le _ _).trans (by linarith)
  have hd0 : 5.12e12 ≤ b * b + 4 * a * c := by nlinarith [mul_self_nonneg b]
  have hd1 : b * b + 4 * a * c ≤ 1.2e16 := by
    have := (abs_le.mp hac).2
    have := (abs_le.mp hbb2).2
    linarith
  generalize F.add (F.mul b' b') (F.mul (F.mul 4 a') c') = D' at *
  generalize b * b + 4 * a * c = D at *
  have hD' : 0 ≤ D' := by have := (abs_le.mp hd).1; linarith
  have hr1 : 2.2e6 ≤ √D := Real.le_sqrt_of_sq_le (by linarith)
  have hr2 : √D ≤ 1.1e8 := (Real.sqrt_le_left (by norm_num)).mpr (by linarith)
  have hr : |F.sqrt D' - √D| ≤ 1e-3 :=
    h.sqrt_near hd hD' (by linarith) (by norm_num : (0 : ℝ) < 2.2e6) hr1 hr2 (by norm_num) (by norm_num)
  simp only [if_neg (not_lt.mpr hD'), if_neg (not_lt.mpr (by linarith : (0 : ℝ) ≤ D))]
  generalize F.sqrt D' = r' at *
  generalize √D = r at *
  have hrb : |r| ≤ 1.1e8 := by rw [abs_of_nonneg (by linarith)]; exact hr2
  have hnb : |(-b')-(-b)| ≤ 5e-6 := by rw [show -b' - -b = -(b' - b) by ring, abs_neg]; exact hb
  have h2a : |F.mul 2 a' - 2 * a| ≤ 7e-13 :=
    h.mul_near (e := 0) (M := 2) (N := 4.0002) (by simp) ha (by norm_num) hab (by norm_num) (by norm_num)
  have h2a1 : 1.9 ≤ F.mul 2 a' := by
    have := (abs_le.mp h2a).1
    linarith
  have side : ∀ {n' n : ℝ}, |n' - n| ≤ 1.2e-3 → |n| ≤ 1.8e8 →
      |F.len2 (F.div n' (F.mul 2 a')) (F.mul (-T') (F.div n' (F.mul 2 a'))) - len2 (n / (2 * a)) (-T * (n / (2 * a)))| ≤ 5e-3 := by
    intro n' n hn hnn
    have hqb : |n / (2 * a)| ≤ 9e7 := by
      rw [abs_div, abs_of_pos (by linarith : (0 : ℝ) < 2 * a), div_le_iff₀ (by linarith)]
      nlinarith
    have hq : |F.div n' (F.mul 2 a') - n / (2 * a)| ≤ 1e-3 :=
      h.div_near hn h2a hqb (by linarith) (by norm_num : (0 : ℝ) < 1.9) h2a1 (by norm_num) (by norm_num)
    generalize F.div n' (F.mul 2 a') = q' at *
    generalize n / (2 * a) = q at *
    have hnT : |(-T') - (-T)| ≤ 5e-14 := by rw [show -T' - -T = -(T' - T) by ring, abs_neg]; exact hT
    have hw : |F.mul (-T') q' - (-T * q)| ≤ 2e-3 :=
      h.mul_near (M := 1.7321) hnT hq (by rw [abs_neg]; exact hTb) hqb (by norm_num) (by norm_num)
    have hwb : |-T * q| ≤ 1.6e8 := by
      rw [abs_mul, abs_neg]
      nlinarith [abs_nonneg T, abs_nonneg q]
    generalize F.mul (-T') q' = w' at *
    generalize -T * q = w at *
    have l1 : ∀ x y : ℝ, len2 x y = (⟨x, y, 0⟩ : Vec).len := by
      intro x y
      unfold len2 Vec.len
      simp
    have l2 : |len2 q' w' - len2 q w| ≤ 3e-3 := by
      rw [l1, l1]
      refine (abs_len_sub _ _).trans ?_
      simp only [sub_self, abs_zero, add_zero]
      linarith
    have l3 : len2 q w ≤ 2.5e8 := by
      rw [l1]
      refine (len_le_sum _).trans ?_
      simp only [abs_zero, add_zero]
      linarith
    obtain ⟨p1, p2⟩ := abs_le.mp l2
    have l4 := h.len2_near q' w' (by linarith)
    obtain ⟨p3, p4⟩ := abs_le.mp l4
    rw [abs_le]
    constructor <;> linarith
  have hn1 : |F.sub (-b') r' - (-b - r)| ≤ 1.2e-3 := by
    refine h.sub_near (M := 1.8e8) hnb hr ?_ (by norm_num) (by norm_num)
    refine (abs_sub _ _).trans ?_
    rw [abs_neg]
    linarith
  have hn2 : |F.add (-b') r' - (-b + r)| ≤ 1.2e-3 := by
    refine h.add_near (M := 1.8e8) hnb hr ?_ (by norm_num) (by norm_num)
    refine (abs_add_le _ _).trans ?_
    rw [abs_neg]
    linarith
  refine (abs_min_sub_min_le_max _ _ _ _).trans (max_le ?_ ?_)
  · refine side hn1 ((abs_sub _ _).trans ?_)
    rw [abs_neg]; linarith
  · refine side hn2 ((abs_add_le _ _).trans ?_)
    rw [abs_neg]; linarith

end Spec.Accurate

end Verif
