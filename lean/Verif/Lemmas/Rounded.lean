import Verif.Spec.Rounded
import Verif.Props.Visibility
/-!
# Error bounds of the rounded operations
-/

namespace Verif
open Real Verif.Spec

theorem comp_le (v : Vec) : |v.x| ≤ v.len ∧ |v.y| ≤ v.len ∧ |v.z| ≤ v.len := by
  have hx := mul_self_nonneg v.x
  have hy := mul_self_nonneg v.y
  have hz := mul_self_nonneg v.z
  refine ⟨?_, ?_, ?_⟩ <;> refine Real.abs_le_sqrt ?_ <;> nlinarith

theorem len_le_sum (v : Vec) : v.len ≤ |v.x| + |v.y| + |v.z| := by
  unfold Vec.len
  rw [Real.sqrt_le_left (by positivity)]
  have hx := abs_mul_abs_self v.x
  have hy := abs_mul_abs_self v.y
  have hz := abs_mul_abs_self v.z
  have h1 := mul_nonneg (abs_nonneg v.x) (abs_nonneg v.y)
  have h2 := mul_nonneg (abs_nonneg v.x) (abs_nonneg v.z)
  have h3 := mul_nonneg (abs_nonneg v.y) (abs_nonneg v.z)
  nlinarith

/-- Lengths of close vectors are close. -/
theorem abs_len_sub (v w : Vec) : |v.len - w.len| ≤ |v.x - w.x| + |v.y - w.y| + |v.z - w.z| := by
  have h1 : v.len ≤ w.len + (v - w).len := by
    have := len_add_le w (v - w)
    rwa [show w + (v - w) = v by ext <;> simp] at this
  have h2 : w.len ≤ v.len + (v - w).len := by
    have := len_add_le v (w - v)
    rw [show v + (w - v) = w by ext <;> simp] at this
    rwa [dist_comm' v w] at this
  have h3 := len_le_sum (v - w)
  simp only [sub_x, sub_y, sub_z] at h3
  rw [abs_le]
  constructor <;> linarith

namespace Spec.Accurate
variable {F : Arith}

theorem near (h : Accurate F) {a x e M g : ℝ} (ha : |a - x| ≤ e) (hx : |x| ≤ M) (hM : M + e ≤ 1e100)
    (hg : e + 1e-15 * (M + e) + 1e-100 ≤ g) : |F.rnd a - x| ≤ g := by
  have h1 : |a| ≤ M + e := by
    calc |a| = |x + (a - x)| := by ring_nf
      _ ≤ |x| + |a - x| := abs_add_le _ _
      _ ≤ M + e := add_le_add hx ha
  have h2 := h.rnd a (h1.trans hM)
  calc |F.rnd a - x| = |(F.rnd a - a) + (a - x)| := by ring_nf
    _ ≤ |F.rnd a - a| + |a - x| := abs_add_le _ _
    _ ≤ g := by linarith

theorem add_near (h : Accurate F) {a b x y e f M g : ℝ} (ha : |a - x| ≤ e) (hb : |b - y| ≤ f) (hx : |x + y| ≤ M)
    (hM : M + (e + f) ≤ 1e100) (hg : (e + f) + 1e-15 * (M + (e + f)) + 1e-100 ≤ g) : |F.add a b - (x + y)| ≤ g := by
  refine h.near ?_ hx hM hg
  calc |a + b - (x + y)| = |(a - x) + (b - y)| := by ring_nf
    _ ≤ |a - x| + |b - y| := abs_add_le _ _
    _ ≤ e + f := add_le_add ha hb

theorem sub_near (h : Accurate F) {a b x y e f M g : ℝ} (ha : |a - x| ≤ e) (hb : |b - y| ≤ f) (hx : |x - y| ≤ M)
    (hM : M + (e + f) ≤ 1e100) (hg : (e + f) + 1e-15 * (M + (e + f)) + 1e-100 ≤ g) : |F.sub a b - (x - y)| ≤ g := by
  refine h.near ?_ hx hM hg
  calc |a - b - (x - y)| = |(a - x) - (b - y)| := by ring_nf
    _ ≤ |a - x| + |b - y| := abs_sub _ _
    _ ≤ e + f := add_le_add ha hb

theorem mul_near (h : Accurate F) {a b x y e f M N g : ℝ} (ha : |a - x| ≤ e) (hb : |b - y| ≤ f) (hx : |x| ≤ M) (hy : |y| ≤ N)
    (hM : M * N + (e * N + f * M + e * f) ≤ 1e100)
    (hg : (e * N + f * M + e * f) + 1e-15 * (M * N + (e * N + f * M + e * f)) + 1e-100 ≤ g) : |F.mul a b - x * y| ≤ g := by
  have e0 : 0 ≤ e := (abs_nonneg _).trans ha
  have M0 : 0 ≤ M := (abs_nonneg _).trans hx
  refine h.near ?_ (by rw [abs_mul]; exact mul_le_mul hx hy (abs_nonneg _) M0) hM hg
  calc |a * b - x * y| = |(a - x) * y + (b - y) * x + (a - x) * (b - y)| := by ring_nf
    _ ≤ |(a - x) * y| + |(b - y) * x| + |(a - x) * (b - y)| := abs_add_three _ _ _
    _ = |a - x| * |y| + |b - y| * |x| + |a - x| * |b - y| := by rw [abs_mul, abs_mul, abs_mul]
    _ ≤ e * N + f * M + e * f :=
      add_le_add (add_le_add (mul_le_mul ha hy (abs_nonneg _) e0) (mul_le_mul hb hx (abs_nonneg _) ((abs_nonneg _).trans hb)))
        (mul_le_mul ha hb (abs_nonneg _) e0)

theorem div_near (h : Accurate F) {a b x y e f K L g : ℝ} (ha : |a - x| ≤ e) (hb : |b - y| ≤ f) (hK : |x / y| ≤ K) (hy : 0 < y)
    (hL : 0 < L) (hLb : L ≤ b) (hM : K + (e + K * f) / L ≤ 1e100)
    (hg : (e + K * f) / L + 1e-15 * (K + (e + K * f) / L) + 1e-100 ≤ g) : |F.div a b - x / y| ≤ g := by
  have b0 : 0 < b := hL.trans_le hLb
  have K0 : 0 ≤ K := (abs_nonneg _).trans hK
  have e0 : 0 ≤ e := (abs_nonneg _).trans ha
  have f0 : 0 ≤ f := (abs_nonneg _).trans hb
  refine h.near ?_ hK hM hg
  have : a / b - x / y = ((a - x) - (x / y) * (b - y)) / b := by field_simp; ring
  rw [this, abs_div, abs_of_pos b0]
  have h1 : |(a - x) - x / y * (b - y)| ≤ e + K * f := by
    calc |(a - x) - x / y * (b - y)| ≤ |a - x| + |x / y * (b - y)| := abs_sub _ _
      _ = |a - x| + |x / y| * |b - y| := by rw [abs_mul]
      _ ≤ e + K * f := add_le_add ha (mul_le_mul hK hb (abs_nonneg _) K0)
  exact div_le_div₀ (by positivity) h1 hL hLb

theorem sqrt_near (h : Accurate F) {a x e m M g : ℝ} (ha : |a - x| ≤ e) (a0 : 0 ≤ a) (x0 : 0 ≤ x) (hm : 0 < m) (hmx : m ≤ √x)
    (hM : √x ≤ M) (hB : M * M + e ≤ 1e100) (hg : e / m + 1e-15 * (M + e / m) + 1e-100 ≤ g) : |F.sqrt a - √x| ≤ g := by
  have e0 : 0 ≤ e := (abs_nonneg _).trans ha
  have M0 : 0 ≤ M := (Real.sqrt_nonneg _).trans hM
  have h1 : |√a - √x| ≤ e / m := by
    rw [le_div_iff₀ hm]
    have hs : |√a - √x| * (√a + √x) = |a - x| := by
      rw [← abs_of_nonneg (add_nonneg (Real.sqrt_nonneg a) (Real.sqrt_nonneg x)), ← abs_mul]
      congr 1
      have h1 := Real.mul_self_sqrt a0
      have h2 := Real.mul_self_sqrt x0
      linear_combination h1 - h2
    calc |√a - √x| * m ≤ |√a - √x| * (√a + √x) :=
          mul_le_mul_of_nonneg_left (by have := Real.sqrt_nonneg a; linarith) (abs_nonneg _)
      _ ≤ e := hs.le.trans ha
  have h2 : √a ≤ M + e / m := by have := (abs_le.mp h1).2; linarith
  have hxM : x ≤ M * M := by
    have := Real.mul_self_sqrt x0
    have := mul_le_mul hM hM (Real.sqrt_nonneg _) M0
    linarith
  have h3 := h.sqrt a a0 (by have := (abs_le.mp ha).2; linarith)
  calc |F.sqrt a - √x| = |(F.sqrt a - √a) + (√a - √x)| := by ring_nf
    _ ≤ |F.sqrt a - √a| + |√a - √x| := abs_add_le _ _
    _ ≤ g := by linarith

/-- The rounded length of a vector has a small relative error. -/
theorem sq_near (h : Accurate F) {S a : ℝ} (S0 : 0 ≤ S) (hS : S ≤ 1e90) (a0 : 0 ≤ a) (ha : |a - S| ≤ 4e-15 * S + 1e-98) :
    |F.sqrt a - √S| ≤ 6e-15 * √S + 1e-48 := by
  have r0 := Real.sqrt_nonneg S
  have rS := Real.mul_self_sqrt S0
  obtain ⟨l1, l2⟩ := abs_le.mp ha
  have h1 : √a ≤ (1 + 4e-15) * √S + 1e-49 := by
    rw [Real.sqrt_le_left (by positivity)]
    nlinarith
  have h2 : (1 - 4e-15) * √S - 1e-49 ≤ √a := by
    by_cases hn : (1 - 4e-15) * √S - 1e-49 ≤ 0
    · exact hn.trans (Real.sqrt_nonneg _)
    · push Not at hn
      rw [Real.le_sqrt hn.le a0]
      nlinarith
  have h3 := h.sqrt a a0 (by linarith)
  have h4 : |F.sqrt a - √a| ≤ 1e-15 * ((1 + 4e-15) * √S + 1e-49) + 1e-100 := by linarith
  obtain ⟨k1, k2⟩ := abs_le.mp h4
  rw [abs_le]
  constructor <;> linarith

theorem sum3_sq (h : Accurate F) (x y z : ℝ) (hS : x * x + y * y + z * z ≤ 1e90) :
    0 ≤ F.sum3 x x y y z z ∧ |F.sum3 x x y y z z - (x * x + y * y + z * z)| ≤ 4e-15 * (x * x + y * y + z * z) + 1e-98 := by
  have hx := mul_self_nonneg x
  have hy := mul_self_nonneg y
  have hz := mul_self_nonneg z
  have x1 := h.rnd (x * x) (by rw [abs_of_nonneg hx]; linarith)
  have y1 := h.rnd (y * y) (by rw [abs_of_nonneg hy]; linarith)
  have z1 := h.rnd (z * z) (by rw [abs_of_nonneg hz]; linarith)
  rw [abs_of_nonneg hx] at x1
  rw [abs_of_nonneg hy] at y1
  rw [abs_of_nonneg hz] at z1
  have x2 := h.nonneg _ hx
  have y2 := h.nonneg _ hy
  have z2 := h.nonneg _ hz
  obtain ⟨x3, x4⟩ := abs_le.mp x1
  obtain ⟨y3, y4⟩ := abs_le.mp y1
  obtain ⟨z3, z4⟩ := abs_le.mp z1
  have s0 := add_nonneg x2 y2
  have s1 := h.rnd (F.rnd (x * x) + F.rnd (y * y)) (by rw [abs_of_nonneg s0]; linarith)
  rw [abs_of_nonneg s0] at s1
  have s2 := h.nonneg _ s0
  obtain ⟨s3, s4⟩ := abs_le.mp s1
  have w0 := add_nonneg s2 z2
  have w1 := h.rnd (F.rnd (F.rnd (x * x) + F.rnd (y * y)) + F.rnd (z * z)) (by rw [abs_of_nonneg w0]; linarith)
  rw [abs_of_nonneg w0] at w1
  have w2 := h.nonneg _ w0
  obtain ⟨w3, w4⟩ := abs_le.mp w1
  refine ⟨w2, ?_⟩
  show |F.rnd (F.rnd (F.rnd (x * x) + F.rnd (y * y)) + F.rnd (z * z)) - (x * x + y * y + z * z)| ≤ _
  rw [abs_le]
  constructor <;> linarith

theorem len_near (h : Accurate F) (v : Vec) (hv : v.len ≤ 1e40) : |F.len v - v.len| ≤ 6e-15 * v.len + 1e-48 := by
  have hS : v.x * v.x + v.y * v.y + v.z * v.z ≤ 1e90 := by
    have h1 := len_sq v
    have h2 := mul_le_mul hv hv (len_nonneg v) (by norm_num)
    unfold dot at h1
    have : (1e40 : ℝ) * 1e40 ≤ 1e90 := by norm_num
    linarith
  obtain ⟨a0, ha⟩ := h.sum3_sq v.x v.y v.z hS
  exact h.sq_near (add_nonneg (add_nonneg (mul_self_nonneg _) (mul_self_nonneg _)) (mul_self_nonneg _)) hS a0 ha

theorem len2_near (h : Accurate F) (x y : ℝ) (hv : len2 x y ≤ 1e40) : |F.len2 x y - len2 x y| ≤ 6e-15 * len2 x y + 1e-48 := by
  have hx := mul_self_nonneg x
  have hy := mul_self_nonneg y
  have hS : x * x + y * y ≤ 1e90 := by
    have h1 := Real.mul_self_sqrt (add_nonneg hx hy)
    have h2 := mul_le_mul hv hv (Real.sqrt_nonneg _) (by norm_num)
    have : (1e40 : ℝ) * 1e40 ≤ 1e90 := by norm_num
    unfold len2 at h2
    linarith
  have x1 := h.rnd (x * x) (by rw [abs_of_nonneg hx]; linarith)
  have y1 := h.rnd (y * y) (by rw [abs_of_nonneg hy]; linarith)
  rw [abs_of_nonneg hx] at x1
  rw [abs_of_nonneg hy] at y1
  have x2 := h.nonneg _ hx
  have y2 := h.nonneg _ hy
  obtain ⟨x3, x4⟩ := abs_le.mp x1
  obtain ⟨y3, y4⟩ := abs_le.mp y1
  have s0 := add_nonneg x2 y2
  have s1 := h.rnd (F.rnd (x * x) + F.rnd (y * y)) (by rw [abs_of_nonneg s0]; linarith)
  rw [abs_of_nonneg s0] at s1
  have s2 := h.nonneg _ s0
  obtain ⟨s3, s4⟩ := abs_le.mp s1
  refine h.sq_near (add_nonneg hx hy) hS s2 ?_
  show |F.rnd (F.rnd (x * x) + F.rnd (y * y)) - (x * x + y * y)| ≤ _
  rw [abs_le]
  constructor <;> linarith

/-- Rounding the components of a difference. -/
theorem subV_near (h : Accurate F) (a b : Vec) (hd : (a - b).len ≤ 1e40) :
    |(F.subV a b).x - (a - b).x| ≤ 1e-15 * |(a - b).x| + 1e-100 ∧ |(F.subV a b).y - (a - b).y| ≤ 1e-15 * |(a - b).y| + 1e-100 ∧
    |(F.subV a b).z - (a - b).z| ≤ 1e-15 * |(a - b).z| + 1e-100 := by
  obtain ⟨hx, hy, hz⟩ := comp_le (a - b)
  exact ⟨h.rnd _ (by have := hx.trans hd; simp only [sub_x] at this; linarith),
    h.rnd _ (by have := hy.trans hd; simp only [sub_y] at this; linarith),
    h.rnd _ (by have := hz.trans hd; simp only [sub_z] at this; linarith)⟩

/-- The rounded distance. -/
theorem dist_near (h : Accurate F) (a b : Vec) (hd : (a - b).len ≤ 1e39) :
    |F.len (F.subV a b) - (a - b).len| ≤ 1e-14 * (a - b).len + 1e-47 := by
  obtain ⟨hx, hy, hz⟩ := h.subV_near a b (hd.trans (by norm_num))
  obtain ⟨cx, cy, cz⟩ := comp_le (a - b)
  have l0 := len_nonneg (a - b)
  have h1 : |(F.subV a b).len - (a - b).len| ≤ 3e-15 * (a - b).len + 3e-100 := by
    refine (abs_len_sub _ _).trans ?_
    linarith
  obtain ⟨k1, k2⟩ := abs_le.mp h1
  have h2 := h.len_near (F.subV a b) (by linarith)
  obtain ⟨m1, m2⟩ := abs_le.mp h2
  rw [abs_le]
  constructor <;> linarith

end Spec.Accurate

end Verif
