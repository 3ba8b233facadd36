import Verif.Props.Orbit
import Verif.Props.Propagation
import Verif.Model.Sky
/-!
# Geometry of constellations
-/

namespace Verif
open Real

theorem progress_off (h i l o1 o2 : ℝ) (t : Time) :
    Orbit.progress ⟨h, i, l, o1⟩ t = Orbit.progress ⟨h, i, l, o2⟩ t + (o1 - o2) := by
  unfold Orbit.progress Orbit.speed; simp only; ring

/-- The scalar product of two satellites of one plane. -/
theorem in_plane_dot (h i l o1 o2 : ℝ) (t : Time) :
    dot (Orbit.position ⟨h, i, l, o1⟩ t) (Orbit.position ⟨h, i, l, o2⟩ t) = (h * 1000) * (h * 1000) * cos (o1 - o2) := by
  rw [position_eq, position_eq]
  have hlat : Orbit.latitude ⟨h, i, l, o1⟩ t = Orbit.latitude ⟨h, i, l, o2⟩ t := rfl
  rw [hlat, dot_comb, progress_off h i l o1 o2]
  simp only
  generalize Orbit.progress ⟨h, i, l, o2⟩ t = q
  have : o1 - o2 = (q + (o1 - o2)) - q := by ring
  conv_rhs => rw [this, cos_sub]

theorem segment_dot (a b : Vec) (u : ℝ) :
    dot (a + smul u (b - a)) (a + smul u (b - a)) = (1 - u) ^ 2 * dot a a + 2 * u * (1 - u) * dot a b + u ^ 2 * dot b b := by
  simp only [dot, smul, add_x, add_y, add_z, sub_x, sub_y, sub_z]; ring

/-- Two points at distance `r` from the centre of the Earth, `2 d` apart as seen from there. -/
theorem obstructed_circle {R r d : ℝ} {a b : Vec} (hR : 0 ≤ R) (hr : 0 ≤ r) (ha : dot a a = r * r) (hb : dot b b = r * r)
    (hab : dot a b = r * r * cos (2 * d)) : Spec.Obstructed R a b ↔ r * |cos d| ≤ R := by
  have key (u : ℝ) : dot (a + smul u (b - a)) (a + smul u (b - a)) = r * r * cos d ^ 2 + r * r * (1 - 2 * u) ^ 2 * sin d ^ 2 := by
    rw [segment_dot, ha, hb, hab, cos_two_mul]
    have := sin_sq_add_cos_sq d
    linear_combination (-(r * r * (1 - 2 * u) ^ 2)) * this
  have hsq : r * |cos d| ≤ R ↔ r * r * cos d ^ 2 ≤ R ^ 2 := by
    have h1 : (r * |cos d|) ^ 2 = r * r * cos d ^ 2 := by rw [mul_pow, sq_abs]; ring
    rw [← h1]
    exact (sq_le_sq₀ (by positivity) hR).symm
  rw [hsq]
  constructor
  · rintro ⟨u, _, _, h⟩
    rw [key] at h
    have : 0 ≤ r * r * (1 - 2 * u) ^ 2 * sin d ^ 2 := by positivity
    linarith
  · intro h
    refine ⟨1 / 2, by norm_num, by norm_num, ?_⟩
    rw [key]
    norm_num
    linarith

theorem in_plane_ne {h i l o1 o2 : ℝ} {t : Time} (hh : 0 < h) :
    Orbit.position ⟨h, i, l, o1⟩ t ≠ Orbit.position ⟨h, i, l, o2⟩ t ↔ sin ((o1 - o2) / 2) ≠ 0 := by
  have hd := C33_constant_distance h i l o1 o2 hh.le t
  constructor
  · intro hne h0
    rw [h0] at hd
    have := len_sub_pos (a := Orbit.position ⟨h, i, l, o2⟩ t) hne
    simp at hd
    linarith
  · intro h0 heq
    have h1 : 0 < |sin ((o1 - o2) / 2)| := abs_pos.mpr h0
    rw [heq] at hd
    have h2 : (Orbit.position ⟨h, i, l, o2⟩ t - Orbit.position ⟨h, i, l, o2⟩ t).len = 0 :=
      len_eq le_rfl (by simp [dot])
    rw [h2] at hd
    have : 0 < h * 1000 * (2 * |sin ((o1 - o2) / 2)|) := by positivity
    linarith

end Verif
