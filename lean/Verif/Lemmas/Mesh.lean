import Verif.Spec.Mesh
import Verif.Props.Visibility
import Verif.Props.Example
import Verif.Props.Relay
/-!
# Lemmas about the mesh of a constellation
-/

namespace Verif
open Real Spec

/-- The orbit of slot `x.2` of plane `x.1`. -/
noncomputable def slotOrbit (o : OrbitRec) (x : Nat × Nat) : Orbit :=
  ⟨6371.009 + o.alt, rad o.inc, 2 * Real.pi * x.1 / o.planes, 2 * Real.pi * x.2 / o.sats⟩

theorem slot_len {o : OrbitRec} (ha : -6371.009 < o.alt) (x : Nat × Nat) (t : Time) : ((slotOrbit o x).position t).len = radius o :=
  len_eq (by unfold radius; linarith) (position_dot _ _)

theorem ring_dist {h i l f1 f2 : ℝ} (hh : 0 ≤ h) (t : Time) :
    (Orbit.position ⟨h, i, l, f1⟩ t - Orbit.position ⟨h, i, l, f2⟩ t).len = 2 * (h * 1000) * |sin ((f1 - f2) / 2)| := by
  have hlaw := C69_distance_law (h := h) (i := i) (l1 := l) (l2 := l) (f1 := f1) (f2 := f2) t
  have hn := len_nonneg (Orbit.position ⟨h, i, l, f1⟩ t - Orbit.position ⟨h, i, l, f2⟩ t)
  have e : ((Orbit.position ⟨h, i, l, f1⟩ t - Orbit.position ⟨h, i, l, f2⟩ t).len) ^ 2 = (2 * (h * 1000) * |sin ((f1 - f2) / 2)|) ^ 2 := by
    rw [hlaw, mul_pow (2 * (h * 1000)), sq_abs]
    congr 1
    simp only [atTop, atNode, sub_self, zero_div, sin_zero, cos_zero, mul_zero, mul_one, zero_add, add_zero]
    have e1 := sin_sq_add_cos_sq (Orbit.progress ⟨h, i, l, (f1 + f2) / 2⟩ t)
    have e2 := sin_sq_add_cos_sq i
    have e3 : (cos i * sin ((f1 - f2) / 2)) ^ 2 + (sin i * sin ((f1 - f2) / 2)) ^ 2 = sin ((f1 - f2) / 2) ^ 2 := by
      linear_combination (sin ((f1 - f2) / 2) ^ 2) * e2
    rw [e3]
    linear_combination (sin ((f1 - f2) / 2) ^ 2) * e1
  exact (sq_eq_sq₀ hn (by positivity)).mp e

theorem plane_dist {h i l1 l2 f : ℝ} (hh : 0 ≤ h) (t : Time) :
    2 * (h * 1000) * |sin ((l1 - l2) / 2)| * |cos i| ≤ (Orbit.position ⟨h, i, l1, f⟩ t - Orbit.position ⟨h, i, l2, f⟩ t).len ∧
    (Orbit.position ⟨h, i, l1, f⟩ t - Orbit.position ⟨h, i, l2, f⟩ t).len ≤ 2 * (h * 1000) * |sin ((l1 - l2) / 2)| := by
  have hlaw := C69_distance_law (h := h) (i := i) (l1 := l1) (l2 := l2) (f1 := f) (f2 := f) t
  have hn := len_nonneg (Orbit.position ⟨h, i, l1, f⟩ t - Orbit.position ⟨h, i, l2, f⟩ t)
  simp only [atTop, atNode, sub_self, zero_div, sin_zero, cos_zero, mul_zero, mul_one, zero_mul, zero_add, add_zero, one_mul] at hlaw
  have e1 := sin_sq_add_cos_sq (Orbit.progress ⟨h, i, l1, (f + f) / 2⟩ t)
  generalize Orbit.progress ⟨h, i, l1, (f + f) / 2⟩ t = θ at hlaw e1
  have e2 := sin_sq_add_cos_sq i
  generalize (Orbit.position ⟨h, i, l1, f⟩ t - Orbit.position ⟨h, i, l2, f⟩ t).len = D at hlaw hn
  have hr : 0 ≤ 2 * (h * 1000) := by positivity
  have hc : cos i ^ 2 ≤ 1 := by nlinarith [sq_nonneg (sin i)]
  have hq : 0 ≤ (2 * (h * 1000)) ^ 2 * sin ((l1 - l2) / 2) ^ 2 := by positivity
  have hD : D ^ 2 = (2 * (h * 1000)) ^ 2 * sin ((l1 - l2) / 2) ^ 2 * (1 - cos θ ^ 2 * (1 - cos i ^ 2)) := by
    rw [hlaw]
    linear_combination ((2 * (h * 1000)) ^ 2 * sin ((l1 - l2) / 2) ^ 2) * e1
  have hθ : 0 ≤ cos θ ^ 2 ∧ cos θ ^ 2 ≤ 1 := ⟨sq_nonneg _, by nlinarith [sq_nonneg (sin θ)]⟩
  have b1 : cos i ^ 2 ≤ 1 - cos θ ^ 2 * (1 - cos i ^ 2) := by nlinarith [hθ.1, hθ.2]
  have b2 : 1 - cos θ ^ 2 * (1 - cos i ^ 2) ≤ 1 := by nlinarith [hθ.1, hθ.2]
  constructor
  · refine le_of_sq_le_sq ?_ hn
    rw [hD, mul_pow, mul_pow, sq_abs, sq_abs]
    exact mul_le_mul_of_nonneg_left b1 hq
  · refine le_of_sq_le_sq ?_ (by positivity)
    have e3 : (2 * (h * 1000) * |sin ((l1 - l2) / 2)|) ^ 2 = (2 * (h * 1000)) ^ 2 * sin ((l1 - l2) / 2) ^ 2 := by rw [mul_pow _ |_|, sq_abs]
    rw [hD, e3]
    exact mul_le_of_le_one_right hq b2

theorem abs_sin_step {n a b : Nat} (h : a + 1 = b ∨ b + 1 = a) (hn : 0 < n) :
    |sin ((2 * Real.pi * a / n - 2 * Real.pi * b / n) / 2)| = |sin (Real.pi / n)| := by
  have hn' : (n : ℝ) ≠ 0 := by exact_mod_cast hn.ne'
  rcases h with rfl | rfl
  · have e : (2 * Real.pi * a / n - 2 * Real.pi * (a + 1 : Nat) / n) / 2 = -(Real.pi / n) := by push_cast; field_simp; ring
    rw [e, sin_neg, abs_neg]
  · have e : (2 * Real.pi * (b + 1 : Nat) / n - 2 * Real.pi * b / n) / 2 = Real.pi / n := by push_cast; field_simp; ring
    rw [e]

theorem sin_pi_div_nonneg {n : Nat} (hn : 0 < n) : 0 ≤ sin (Real.pi / n) := by
  have hn' : (1 : ℝ) ≤ n := by exact_mod_cast hn
  have := Real.pi_pos
  refine sin_nonneg_of_nonneg_of_le_pi (by positivity) ?_
  rw [div_le_iff₀ (by linarith)]
  nlinarith

theorem adjacent_dist {o : OrbitRec} {m W : ℝ} (hM : Meshed o m W) (hp : 0 < o.planes) (hs : 0 < o.sats) (ha : -6371.009 < o.alt)
    {x y : Nat × Nat} (h : Adjacent x y) (t : Time) :
    m < ((slotOrbit o x).position t - (slotOrbit o y).position t).len ∧
      ((slotOrbit o x).position t - (slotOrbit o y).position t).len + m ≤ W := by
  obtain ⟨p, k⟩ := x
  obtain ⟨p', k'⟩ := y
  have hh : 0 ≤ 6371.009 + o.alt := by linarith
  have hrad : radius o = (6371.009 + o.alt) * 1000 := rfl
  obtain ⟨m1, m2, m3, m4, _⟩ := hM
  rcases h with ⟨h1, h2⟩ | ⟨h1, h2⟩
  · simp only at h1 h2
    subst h1
    simp only [slotOrbit]
    rw [ring_dist hh, abs_sin_step h2 hs, abs_of_nonneg (sin_pi_div_nonneg hs), ← hrad]
    exact ⟨m1, m2⟩
  · simp only at h1 h2
    subst h1
    simp only [slotOrbit]
    obtain ⟨d1, d2⟩ := plane_dist (i := rad o.inc) (l1 := 2 * Real.pi * p / o.planes) (l2 := 2 * Real.pi * p' / o.planes)
      (f := 2 * Real.pi * k / o.sats) hh t
    rw [abs_sin_step h2 hp, abs_of_nonneg (sin_pi_div_nonneg hp), ← hrad] at d1 d2
    exact ⟨by linarith, by linarith⟩

/-- A way through the grid: every step goes to a neighbour and nearer to the end. -/
theorem grid_way (y : Nat × Nat) : ∀ (n : Nat) (x : Nat × Nat), gridDist x y = n → ∃ l : List (Nat × Nat), l.length = n ∧
    (x :: l).getLast? = some y ∧ (x :: l).IsChain Adjacent ∧ (∀ z ∈ l, gridDist z y < n) ∧ (x :: l).Nodup ∧
    (∀ z ∈ x :: l, z.1 ≤ max x.1 y.1 ∧ z.2 ≤ max x.2 y.2) := by
  intro n
  induction n with
  | zero =>
    intro x hx
    have : x = y := by
      unfold gridDist at hx
      ext <;> omega
    subst this
    exact ⟨[], rfl, rfl, by simp, by simp, by simp, by simp⟩
  | succ n ih =>
    intro x hx
    obtain ⟨z, hz, hadj, hb⟩ : ∃ z, gridDist z y = n ∧ Adjacent x z ∧ z.1 ≤ max x.1 y.1 ∧ z.2 ≤ max x.2 y.2 := by
      obtain ⟨p, k⟩ := x
      obtain ⟨q, j⟩ := y
      simp only [gridDist, Adjacent] at *
      by_cases h1 : p < q
      · exact ⟨(p + 1, k), by omega, by simp, by simp only; omega, by simp only; omega⟩
      · by_cases h2 : q < p
        · exact ⟨(p - 1, k), by simp only; omega, Or.inr ⟨rfl, Or.inr (Nat.sub_add_cancel (by omega))⟩, by simp only; omega, by simp only; omega⟩
        · by_cases h3 : k < j
          · exact ⟨(p, k + 1), by omega, by simp, by simp only; omega, by simp only; omega⟩
          · exact ⟨(p, k - 1), by simp only; omega, Or.inl ⟨rfl, Or.inr (Nat.sub_add_cancel (by omega))⟩, by simp only; omega, by simp only; omega⟩
    obtain ⟨l, h1, h2, h3, h4, h5, h6⟩ := ih z hz
    refine ⟨z :: l, by simp [h1], by rw [List.getLast?_cons_cons]; exact h2, List.IsChain.cons_cons hadj h3, ?_, ?_, ?_⟩
    · intro w hw
      rcases List.mem_cons.mp hw with rfl | hw
      · omega
      · have := h4 w hw; omega
    · rw [List.nodup_cons]
      refine ⟨fun hmem => ?_, h5⟩
      rcases List.mem_cons.mp hmem with rfl | hmem
      · omega
      · have := h4 x hmem; omega
    · intro w hw
      rcases List.mem_cons.mp hw with rfl | hw
      · omega
      · have := h6 w hw; omega

end Verif
