import Verif.Model.Orbit
import Mathlib.Tactic.LinearCombination
import Mathlib.Tactic.FieldSimp
/-! Vector algebra of the orbit model. -/

namespace Verif
open Real

@[simp] theorem add_x (a b : Vec) : (a + b).x = a.x + b.x := rfl
@[simp] theorem add_y (a b : Vec) : (a + b).y = a.y + b.y := rfl
@[simp] theorem add_z (a b : Vec) : (a + b).z = a.z + b.z := rfl
@[simp] theorem sub_x (a b : Vec) : (a - b).x = a.x - b.x := rfl
@[simp] theorem sub_y (a b : Vec) : (a - b).y = a.y - b.y := rfl
@[simp] theorem sub_z (a b : Vec) : (a - b).z = a.z - b.z := rfl

theorem len_sq (v : Vec) : v.len * v.len = dot v v := by
  unfold Vec.len dot
  apply Real.mul_self_sqrt
  nlinarith [mul_self_nonneg v.x, mul_self_nonneg v.y, mul_self_nonneg v.z]

theorem len_nonneg (v : Vec) : 0 ≤ v.len := Real.sqrt_nonneg _

theorem len_eq {v : Vec} {r : ℝ} (hr : 0 ≤ r) (h : dot v v = r * r) : v.len = r := by
  unfold Vec.len
  rw [show v.x * v.x + v.y * v.y + v.z * v.z = r * r from h]
  exact Real.sqrt_mul_self hr

/-- Start direction of the orbit. -/
noncomputable def axisU (i l : ℝ) : Vec := ⟨cos i * cos l, cos i * sin l, sin i⟩
/-- Normal of the orbital plane. -/
noncomputable def axisN (i l : ℝ) : Vec := ⟨-sin i * cos l, -sin i * sin l, cos i⟩
/-- Third direction: a quarter turn ahead of the start. -/
noncomputable def axisW (l : ℝ) : Vec := ⟨-sin l, cos l, 0⟩

theorem norm_eq (o : Orbit) (t : Time) : o.norm t = axisN o.incl (o.latitude t) := by
  unfold Orbit.norm axisN; rw [sin_neg]

theorem rotatePlane_axis (i l a r : ℝ) :
    rotatePlane (axisN i l) a (smul r (axisU i l)) = smul r (smul (cos a) (axisU i l) + smul (sin a) (axisW l)) := by
  have h1 := sin_sq_add_cos_sq i
  have h2 := sin_sq_add_cos_sq l
  have d0 : dot (axisN i l) (smul r (axisU i l)) = 0 := by
    simp only [dot, axisN, axisU, smul]
    linear_combination (-r * sin i * cos i) * h2
  have c1 : cross (axisN i l) (smul r (axisU i l)) = smul r (axisW l) := by
    ext <;> simp only [cross, axisN, axisU, axisW, smul]
    · linear_combination (-r * sin l) * h1
    · linear_combination (r * cos l) * h1
    · ring
  have c2 : cross (smul r (axisW l)) (axisN i l) = smul r (axisU i l) := by
    ext <;> simp only [cross, axisN, axisU, axisW, smul]
    · ring
    · ring
    · linear_combination (r * sin i) * h2
  unfold rotatePlane
  rw [d0, c1, c2]
  ext <;> simp only [smul, add_x, add_y, add_z] <;> ring

theorem position_eq (o : Orbit) (t : Time) :
    o.position t = smul (o.height * 1000)
      (smul (cos (o.progress t)) (axisU o.incl (o.latitude t)) + smul (sin (o.progress t)) (axisW (o.latitude t))) := by
  unfold Orbit.position
  rw [norm_eq]
  exact rotatePlane_axis _ _ _ _

theorem axis_dots (i l : ℝ) : dot (axisU i l) (axisU i l) = 1 ∧ dot (axisW l) (axisW l) = 1 ∧
    dot (axisU i l) (axisW l) = 0 ∧ dot (axisN i l) (axisN i l) = 1 ∧ dot (axisN i l) (axisU i l) = 0 ∧
    dot (axisN i l) (axisW l) = 0 := by
  have h1 := sin_sq_add_cos_sq i
  have h2 := sin_sq_add_cos_sq l
  refine ⟨?_, ?_, ?_, ?_, ?_, ?_⟩ <;> simp only [dot, axisN, axisU, axisW]
  · linear_combination h1 + (cos i * cos i) * h2
  · linear_combination h2
  · ring
  · linear_combination h1 + (sin i * sin i) * h2
  · linear_combination (-sin i * cos i) * h2
  · ring

theorem dot_comb (r a b c d : ℝ) (i l : ℝ) :
    dot (smul r (smul a (axisU i l) + smul b (axisW l))) (smul r (smul c (axisU i l) + smul d (axisW l)))
      = r * r * (a * c + b * d) := by
  obtain ⟨h1, h2, h3, _⟩ := axis_dots i l
  simp only [dot, smul, add_x, add_y, add_z] at h1 h2 h3 ⊢
  linear_combination (r * r * a * c) * h1 + (r * r * b * d) * h2 + (r * r * (a * d + b * c)) * h3

theorem position_dot (o : Orbit) (t : Time) :
    dot (o.position t) (o.position t) = (o.height * 1000) * (o.height * 1000) := by
  rw [position_eq, dot_comb]
  have := sin_sq_add_cos_sq (o.progress t)
  linear_combination (o.height * 1000 * (o.height * 1000)) * this

theorem position_norm (o : Orbit) (t : Time) : dot (o.norm t) (o.position t) = 0 := by
  obtain ⟨_, _, _, _, h1, h2⟩ := axis_dots o.incl (o.latitude t)
  rw [position_eq, norm_eq]
  simp only [dot, smul, add_x, add_y, add_z] at h1 h2 ⊢
  linear_combination (o.height * 1000 * cos (o.progress t)) * h1 + (o.height * 1000 * sin (o.progress t)) * h2

theorem cross_axis (i l a b : ℝ) :
    cross (axisN i l) (smul a (axisU i l) + smul b (axisW l)) = smul a (axisW l) - smul b (axisU i l) := by
  have h1 := sin_sq_add_cos_sq i
  have h2 := sin_sq_add_cos_sq l
  ext <;> simp only [cross, axisN, axisU, axisW, smul, add_x, add_y, add_z, sub_x, sub_y, sub_z]
  · linear_combination (-a * sin l) * h1
  · linear_combination (a * cos l) * h1
  · linear_combination (-b * sin i) * h2

/-! ### Rodrigues rotation about a unit vector -/

theorem cross_cross_cross (n x : Vec) (hn : dot n n = 1) : cross n (cross n (cross n x)) = smul (-1) (cross n x) := by
  simp only [dot] at hn
  ext <;> simp only [cross, smul]
  · linear_combination (-(n.y * x.z - n.z * x.y)) * hn
  · linear_combination (-(n.z * x.x - n.x * x.z)) * hn
  · linear_combination (-(n.x * x.y - n.y * x.x)) * hn

theorem cross_add (n a b : Vec) : cross n (a + b) = cross n a + cross n b := by
  ext <;> simp only [cross, add_x, add_y, add_z] <;> ring
theorem cross_smul (n a : Vec) (k : ℝ) : cross n (smul k a) = smul k (cross n a) := by
  ext <;> simp only [cross, smul] <;> ring
theorem cross_self (n : Vec) : cross n n = ⟨0, 0, 0⟩ := by
  ext <;> simp only [cross] <;> ring
theorem cross_anti (a b : Vec) : cross a b = smul (-1) (cross b a) := by
  ext <;> simp only [cross, smul] <;> ring
theorem dot_cross (n x : Vec) : dot n (cross n x) = 0 := by simp only [dot, cross]; ring
theorem dot_add (n a b : Vec) : dot n (a + b) = dot n a + dot n b := by
  simp only [dot, add_x, add_y, add_z]; ring
theorem dot_smul (n a : Vec) (k : ℝ) : dot n (smul k a) = k * dot n a := by simp only [dot, smul]; ring

/-- The rotation written with iterated cross products. -/
theorem rotatePlane_eq (n : Vec) (a : ℝ) (x : Vec) :
    rotatePlane n a x = smul (dot n x) n + smul (-cos a) (cross n (cross n x)) + smul (sin a) (cross n x) := by
  unfold rotatePlane
  rw [cross_anti (cross n x) n]
  ext <;> simp only [smul, add_x, add_y, add_z] <;> ring

theorem rotatePlane_zero (n x : Vec) (hn : dot n n = 1) : rotatePlane n 0 x = x := by
  unfold rotatePlane
  simp only [dot] at hn
  rw [cos_zero, sin_zero]
  ext <;> simp only [cross, smul, add_x, add_y, add_z, dot]
  · linear_combination x.x * hn
  · linear_combination x.y * hn
  · linear_combination x.z * hn

theorem rotatePlane_add (n : Vec) (a b : ℝ) (x : Vec) (hn : dot n n = 1) :
    rotatePlane n a (rotatePlane n b x) = rotatePlane n (a + b) x := by
  have hd : dot n (rotatePlane n b x) = dot n x := by
    rw [rotatePlane_eq, dot_add, dot_add, dot_smul, dot_smul, dot_smul, dot_cross, dot_cross, hn]; ring
  have hc : cross n (rotatePlane n b x) = smul (cos b) (cross n x) + smul (sin b) (cross n (cross n x)) := by
    rw [rotatePlane_eq, cross_add, cross_add, cross_smul, cross_smul, cross_smul, cross_self, cross_cross_cross n x hn]
    ext <;> simp only [smul, add_x, add_y, add_z] <;> ring
  have hcc : cross n (cross n (rotatePlane n b x)) =
      smul (cos b) (cross n (cross n x)) + smul (-sin b) (cross n x) := by
    rw [hc, cross_add, cross_smul, cross_smul, cross_cross_cross n x hn]
    ext <;> simp only [smul, add_x, add_y, add_z] <;> ring
  rw [rotatePlane_eq n a, hd, hcc, hc, rotatePlane_eq n (a + b), cos_add, sin_add]
  ext <;> simp only [smul, add_x, add_y, add_z] <;> ring

theorem rotatePlane_dot (n : Vec) (a : ℝ) (x y : Vec) (hn : dot n n = 1) :
    dot (rotatePlane n a x) (rotatePlane n a y) = dot x y := by
  have hsc := sin_sq_add_cos_sq a
  -- decomposition of both arguments
  have e : ∀ u v : Vec, dot u v = dot n u * dot n v + dot (cross n u) (cross n v) := by
    intro u v
    simp only [dot] at hn
    simp only [dot, cross]
    linear_combination (-(u.x * v.x + u.y * v.y + u.z * v.z)) * hn
  have f : ∀ u v : Vec, dot (cross n (cross n u)) (cross n v) = -dot (cross n u) (cross n (cross n v)) := by
    intro u v; simp only [dot, cross]; ring
  have g : ∀ u v : Vec, dot (cross n (cross n u)) (cross n (cross n v)) = dot (cross n u) (cross n v) := by
    intro u v
    rw [e (cross n u) (cross n v), dot_cross, dot_cross]; ring
  have hd : ∀ b z, dot n (rotatePlane n b z) = dot n z := by
    intro b z
    rw [rotatePlane_eq, dot_add, dot_add, dot_smul, dot_smul, dot_smul, dot_cross, dot_cross, hn]; ring
  have hc : ∀ b z, cross n (rotatePlane n b z) = smul (cos b) (cross n z) + smul (sin b) (cross n (cross n z)) := by
    intro b z
    rw [rotatePlane_eq, cross_add, cross_add, cross_smul, cross_smul, cross_smul, cross_self, cross_cross_cross n z hn]
    ext <;> simp only [smul, add_x, add_y, add_z] <;> ring
  have bil : ∀ (p q p' q' : Vec) (c s : ℝ), dot (smul c p + smul s q) (smul c p' + smul s q') =
      c * c * dot p p' + c * s * (dot p q' + dot q p') + s * s * dot q q' := by
    intro p q p' q' c s; simp only [dot, smul, add_x, add_y, add_z]; ring
  rw [e (rotatePlane n a x), hd, hd, hc, hc, bil, g, f, e x y]
  linear_combination (dot (cross n x) (cross n y)) * hsc

end Verif
