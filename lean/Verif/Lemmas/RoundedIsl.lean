import Verif.Lemmas.Rounded
import Verif.Lemmas.Reach
/-!
# Error of the rounded line-of-sight test
-/

namespace Verif
open Real Verif.Spec

theorem le_of_sq_le {x y : ℝ} (h : x ^ 2 ≤ y ^ 2) (hy : 0 ≤ y) : x ≤ y := (abs_le_of_sq_le_sq' h hy).2

theorem abs_dot_le (a b : Vec) : |dot a b| ≤ a.len * b.len := by
  rw [abs_le]
  have h1 := dot_le a b
  have h2 := dot_le a ⟨-b.x, -b.y, -b.z⟩
  have e1 : dot a ⟨-b.x, -b.y, -b.z⟩ = -dot a b := by unfold dot; ring
  have e2 : (⟨-b.x, -b.y, -b.z⟩ : Vec).len = b.len := by unfold Vec.len; simp
  rw [e1, e2] at h2
  constructor <;> linarith

/-- A clear line: the computed intersections lie beyond the second satellite. -/
theorem clear_arith {O β s ρ : ℝ} (s1 : 1 ≤ s) (O1 : 6.471009e6 ≤ O) (O2 : O ≤ 2e7) (hβ : |β| ≤ O) (B1 : 6.471009e6 ^ 2 ≤ O ^ 2 + 2 * β * s + s ^ 2)
    (hsel : O ^ 2 + 2 * β * s + s ^ 2 ≤ O ^ 2 + 100) (ρ0 : 0 ≤ ρ) (hρ : |ρ ^ 2 - (β ^ 2 - (O ^ 2 - 6.371009e6 ^ 2))| ≤ 300)
    (hclear : ∀ σ, 0 ≤ σ → σ ≤ s → (6.371009e6 + 0.01) ^ 2 < O ^ 2 + 2 * β * σ + σ ^ 2) : s + 1 ≤ -β - ρ := by
  obtain ⟨p1, p2⟩ := abs_le.mp hρ
  obtain ⟨b1, b2⟩ := abs_le.mp hβ
  have hO : (6.471009e6 : ℝ) ^ 2 ≤ O ^ 2 := pow_le_pow_left₀ (by norm_num) O1 2
  have hρ0 := sq_nonneg ρ
  have hneg : β < 0 := by
    by_contra hb
    push Not at hb
    have h1 : (1e6 : ℝ) ^ 2 ≤ β ^ 2 := by linarith
    have h2 : 1e6 ≤ β := le_of_sq_le h1 hb
    have h3 : (1e6 : ℝ) * 1 ≤ β * s := mul_le_mul h2 s1 (by norm_num) hb
    have h4 := sq_nonneg s
    linarith
  have hfoot : s < -β := by
    by_contra hs
    push Not at hs
    have h1 := hclear (-β) (by linarith) hs
    have h2 : O ^ 2 + 2 * β * -β + (-β) ^ 2 = O ^ 2 - β ^ 2 := by ring
    linarith
  have hy : ρ ^ 2 + 1.2e12 ≤ (-β - s) ^ 2 := by
    have h2 : (-β - s) ^ 2 = β ^ 2 + 2 * β * s + s ^ 2 := by ring
    linarith
  have hβO : β ^ 2 ≤ O ^ 2 := sq_le_sq' (by linarith) b2
  have hρ2 : ρ ≤ 6.4e6 := le_of_sq_le (by linarith) (by norm_num)
  by_contra hlt
  push Not at hlt
  have h3 : (-β - s) ^ 2 ≤ (ρ + 1) ^ 2 := pow_le_pow_left₀ (by linarith) (by linarith) 2
  have h4 : (ρ + 1) ^ 2 = ρ ^ 2 + 2 * ρ + 1 := by ring
  linarith

/-- A hidden satellite: the first computed intersection lies before it. -/
theorem hidden_arith {O β s ρ σ : ℝ} (O1 : 6.471009e6 ≤ O) (O2 : O ≤ 2e7) (hβ : |β| ≤ O) (s4 : s ≤ 4e7)
    (B1 : 6.471009e6 ^ 2 ≤ O ^ 2 + 2 * β * s + s ^ 2) (ρ0 : 0 ≤ ρ) (hρ : |ρ ^ 2 - (β ^ 2 - (O ^ 2 - 6.371009e6 ^ 2))| ≤ 300)
    (σ0 : 0 ≤ σ) (σs : σ ≤ s) (hhid : O ^ 2 + 2 * β * σ + σ ^ 2 ≤ (6.371009e6 - 0.01) ^ 2) :
    0 ≤ -β - ρ ∧ -β - ρ ≤ s - 1 := by
  obtain ⟨p1, p2⟩ := abs_le.mp hρ
  obtain ⟨b1, b2⟩ := abs_le.mp hβ
  have hO : (6.471009e6 : ℝ) ^ 2 ≤ O ^ 2 := pow_le_pow_left₀ (by norm_num) O1 2
  have hneg : β < 0 := by
    by_contra hb
    push Not at hb
    have h1 := mul_nonneg hb σ0
    have h2 := sq_nonneg σ
    linarith
  constructor
  · have h1 : ρ ^ 2 ≤ (-β) ^ 2 := by
      have h2 : (-β) ^ 2 = β ^ 2 := by ring
      linarith
    have := le_of_sq_le h1 (by linarith)
    linarith
  · have h1 : (σ + β) ^ 2 ≤ ρ ^ 2 := by
      have h2 : (σ + β) ^ 2 = σ ^ 2 + 2 * β * σ + β ^ 2 := by ring
      linarith
    have h2 := (abs_le_of_sq_le_sq' h1 ρ0).1
    have h3 : σ + 1 ≤ s := by
      by_contra hlt
      push Not at hlt
      have e1 : s ^ 2 - σ ^ 2 = (s - σ) * (s + σ) := by ring
      have e2 : (s - σ) * (s + σ) ≤ 1 * (4e7 + 4e7) := mul_le_mul (by linarith) (by linarith) (by linarith) (by norm_num)
      have e3 : β * (s - σ) ≤ 0 := mul_nonpos_of_nonpos_of_nonneg hneg.le (by linarith)
      linarith
    linarith

namespace Spec.Accurate
variable {F : Arith}

/-- What the rounded test computes, against the exact numbers: the distance `s`, the component `β` of the first position along the line,
and half the root of the computed discriminant. -/
theorem los_near (h : Accurate F) (oc bp : Vec) (ho : oc.len ≤ 2e7) (hb : bp.len ≤ 2e7) (h1 : 1 ≤ (bp - oc).len) :
    let d := F.subV bp oc
    let s2 := F.len d
    let u : Vec := ⟨F.div d.x s2, F.div d.y s2, F.div d.z s2⟩
    let a := F.sum3 u.x u.x u.y u.y u.z u.z
    let b := F.mul 2 (F.sum3 oc.x u.x oc.y u.y oc.z u.z)
    let c := F.sub (F.sum3 oc.x oc.x oc.y oc.y oc.z oc.z) (F.mul islEarthRad islEarthRad)
    let disc := F.sub (F.mul b b) (F.mul (F.mul 4 a) c)
    let β := dot oc (bp - oc) / (bp - oc).len
    |s2 - (bp - oc).len| ≤ 1e-6 ∧ |β| ≤ oc.len ∧ |disc - 4 * (β ^ 2 - (oc.len ^ 2 - islEarthRad ^ 2))| ≤ 820 ∧
    (0 ≤ disc → |F.div (F.sub (-b) (F.sqrt disc)) (F.mul 2 a) - (-β - √disc / 2)| ≤ 1e-2 ∧
      |F.div (F.add (-b) (F.sqrt disc)) (F.mul 2 a) - (-β + √disc / 2)| ≤ 1e-2) := by
  intro d s2 u a b c disc β
  have hd4 : (bp - oc).len ≤ 4e7 := by
    have := len_add_le bp ⟨-oc.x, -oc.y, -oc.z⟩
    have e1 : bp + ⟨-oc.x, -oc.y, -oc.z⟩ = bp - oc := by ext <;> simp [sub_eq_add_neg]
    have e2 : (⟨-oc.x, -oc.y, -oc.z⟩ : Vec).len = oc.len := by unfold Vec.len; simp
    rw [e1, e2] at this
    linarith
  have hs := h.dist_near bp oc (hd4.trans (by norm_num))
  have hs' : |s2 - (bp - oc).len| ≤ 1e-6 := hs.trans (by linarith)
  obtain ⟨dx, dy, dz⟩ := h.subV_near bp oc (hd4.trans (by norm_num))
  obtain ⟨cx, cy, cz⟩ := comp_le (bp - oc)
  obtain ⟨ox, oy, oz⟩ := comp_le oc
  have hdd := len_sq (bp - oc)
  have hoo := len_sq oc
  have hO0 := len_nonneg oc
  have hcs := abs_dot_le oc (bp - oc)
  have hs2 : 0.99 * (bp - oc).len ≤ s2 := by have := (abs_le.mp hs).1; linarith
  have hβd : β = dot oc (bp - oc) / (bp - oc).len := rfl
  have hS0 : 0 < (bp - oc).len := by linarith
  generalize bp - oc = e at *
  generalize hS : e.len = S at *
  have unit : ∀ {n' n : ℝ}, |n' - n| ≤ 1e-15 * |n| + 1e-100 → |n| ≤ S → |F.div n' s2 - n / S| ≤ 2e-14 := by
    intro n' n hn hnS
    have hq : |n / S| ≤ 1 := by rw [abs_div, abs_of_pos hS0]; exact div_le_one_of_le₀ hnS hS0.le
    refine h.div_near (e := 1e-15 * S + 1e-100) (f := 1e-14 * S + 1e-47) (K := 1) (L := 0.99 * S) (hn.trans (by linarith)) hs hq hS0
      (by positivity) hs2 ?_ ?_
    · have : (1e-15 * S + 1e-100 + 1 * (1e-14 * S + 1e-47)) / (0.99 * S) ≤ 1 := by
        rw [div_le_one (by positivity)]
        linarith
      linarith
    · have : (1e-15 * S + 1e-100 + 1 * (1e-14 * S + 1e-47)) / (0.99 * S) ≤ 1.2e-14 := by
        rw [div_le_iff₀ (by positivity)]
        linarith
      linarith
  have ux : |u.x - e.x / S| ≤ 2e-14 := unit dx cx
  have uy : |u.y - e.y / S| ≤ 2e-14 := unit dy cy
  have uz : |u.z - e.z / S| ≤ 2e-14 := unit dz cz
  have bx : |e.x / S| ≤ 1 := by rw [abs_div, abs_of_pos hS0]; exact div_le_one_of_le₀ cx hS0.le
  have bY : |e.y / S| ≤ 1 := by rw [abs_div, abs_of_pos hS0]; exact div_le_one_of_le₀ cy hS0.le
  have bz : |e.z / S| ≤ 1 := by rw [abs_div, abs_of_pos hS0]; exact div_le_one_of_le₀ cz hS0.le
  have hn1 : e.x / S * (e.x / S) + e.y / S * (e.y / S) + e.z / S * (e.z / S) = 1 := by
    field_simp
    unfold dot at hdd
    linarith
  have hβ2 : oc.x * (e.x / S) + oc.y * (e.y / S) + oc.z * (e.z / S) = β := by
    rw [hβd]
    unfold dot
    field_simp
  have hβb : |β| ≤ oc.len := by
    rw [hβd, abs_div, abs_of_pos hS0, div_le_iff₀ hS0]
    exact hcs
  clear_value β
  generalize e.x / S = vx at *
  generalize e.y / S = vy at *
  generalize e.z / S = vz at *
  have px := mul_self_nonneg vx
  have py := mul_self_nonneg vy
  have pz := mul_self_nonneg vz
  have ha : |a - 1| ≤ 2e-13 := by
    rw [← hn1]
    refine h.add_near (e := 1e-13) (f := 4.5e-14) (M := 1) ?_ (h.mul_near uz uz bz bz (by norm_num) (by norm_num)) ?_ (by norm_num) (by norm_num)
    · refine h.add_near (e := 4.5e-14) (f := 4.5e-14) (M := 1) (h.mul_near ux ux bx bx (by norm_num) (by norm_num))
        (h.mul_near uy uy bY bY (by norm_num) (by norm_num)) ?_ (by norm_num) (by norm_num)
      rw [abs_of_nonneg (by linarith)]; linarith
    · rw [hn1]; norm_num
  have m2 : ∀ {x y : ℝ}, |x| ≤ 2e7 → |y| ≤ 1 → |x * y| ≤ 2e7 := by
    intro x y hx hy
    rw [abs_mul]
    calc |x| * |y| ≤ 2e7 * 1 := mul_le_mul hx hy (abs_nonneg _) (by norm_num)
      _ = 2e7 := by norm_num
  have hb1 : |F.sum3 oc.x u.x oc.y u.y oc.z u.z - β| ≤ 2e-6 := by
    rw [← hβ2]
    refine h.add_near (e := 1e-6) (f := 4.3e-7) (M := 2e7) ?_
      (h.mul_near (e := 0) (M := 2e7) (by simp) uz (oz.trans ho) bz (by norm_num) (by norm_num)) ?_ (by norm_num) (by norm_num)
    · refine h.add_near (e := 4.3e-7) (f := 4.3e-7) (M := 4e7)
        (h.mul_near (e := 0) (M := 2e7) (by simp) ux (ox.trans ho) bx (by norm_num) (by norm_num))
        (h.mul_near (e := 0) (M := 2e7) (by simp) uy (oy.trans ho) bY (by norm_num) (by norm_num)) ?_ (by norm_num) (by norm_num)
      have := m2 (ox.trans ho) bx
      have := m2 (oy.trans ho) bY
      exact (abs_add_le _ _).trans (by linarith)
    · rw [hβ2]; exact hβb.trans ho
  have hbn : |b - 2 * β| ≤ 5e-6 :=
    h.mul_near (e := 0) (M := 2) (by simp) hb1 (by norm_num) (hβb.trans ho) (by norm_num) (by norm_num)
  have hbb : |2 * β| ≤ 4e7 := by rw [abs_mul, abs_two]; linarith
  have hOO : oc.len * oc.len ≤ 4e14 := by
    calc oc.len * oc.len ≤ 2e7 * 2e7 := mul_le_mul ho ho hO0 (by norm_num)
      _ = 4e14 := by norm_num
  have hO20 := mul_self_nonneg oc.len
  have hc1 : |F.sum3 oc.x oc.x oc.y oc.y oc.z oc.z - oc.len * oc.len| ≤ 2 := by
    rw [hoo]
    unfold dot at hoo ⊢
    exact (h.sum3_sq oc.x oc.y oc.z (by linarith)).2.trans (by linarith)
  have hR : (islEarthRad * islEarthRad : ℝ) ≤ 4.06e13 ∧ 0 ≤ (islEarthRad * islEarthRad : ℝ) := by unfold islEarthRad; constructor <;> norm_num
  have hcb : |oc.len * oc.len - islEarthRad * islEarthRad| ≤ 4e14 := by
    rw [abs_le]; constructor <;> linarith [hR.1, hR.2]
  have hcn : |c - (oc.len * oc.len - islEarthRad * islEarthRad)| ≤ 4 := by
    refine h.sub_near (f := 1) hc1 ?_ hcb (by norm_num) (by norm_num)
    exact h.mul_near (e := 0) (f := 0) (M := 6.4e6) (N := 6.4e6) (by simp) (by simp) (by unfold islEarthRad; norm_num)
        (by unfold islEarthRad; norm_num) (by norm_num) (by norm_num)
  have h4a : |F.mul 4 a - 4 * 1| ≤ 9e-13 :=
    h.mul_near (e := 0) (M := 4) (N := 1) (by simp) ha (by norm_num) (by norm_num) (by norm_num) (by norm_num)
  have hac : |F.mul (F.mul 4 a) c - 4 * 1 * (oc.len * oc.len - islEarthRad * islEarthRad)| ≤ 400 :=
    h.mul_near h4a hcn (M := 4) (by norm_num) hcb (by norm_num) (by norm_num)
  have hbsq : |F.mul b b - 2 * β * (2 * β)| ≤ 410 := h.mul_near hbn hbn hbb hbb (by norm_num) (by norm_num)
  have hD : |disc - (2 * β * (2 * β) - 4 * 1 * (oc.len * oc.len - islEarthRad * islEarthRad))| ≤ 820 := by
    refine h.sub_near (M := 3.2e15) hbsq hac ?_ (by norm_num) (by norm_num)
    refine (abs_sub _ _).trans ?_
    rw [abs_mul (2 * β) (2 * β), abs_mul (4 * 1 : ℝ)]
    have h3 : |2 * β| * |2 * β| ≤ 4e7 * 4e7 := mul_le_mul hbb hbb (abs_nonneg _) (by norm_num)
    have h4 : |(4 * 1 : ℝ)| * |oc.len * oc.len - islEarthRad * islEarthRad| ≤ 4 * 4e14 :=
      mul_le_mul (by norm_num) hcb (abs_nonneg _) (by norm_num)
    linarith
  have hD2 : |disc - 4 * (β ^ 2 - (oc.len ^ 2 - islEarthRad ^ 2))| ≤ 820 := by
    rw [show 4 * (β ^ 2 - (oc.len ^ 2 - islEarthRad ^ 2)) = 2 * β * (2 * β) - 4 * 1 * (oc.len * oc.len - islEarthRad * islEarthRad) by ring]
    exact hD
  refine ⟨hs', hβb, hD2, ?_⟩
  intro hd0
  clear_value disc c b a
  have hβO : β ^ 2 ≤ oc.len ^ 2 := by
    obtain ⟨q1, q2⟩ := abs_le.mp hβb
    exact sq_le_sq' q1 q2
  have hr1 : √disc ≤ 1.3e7 := by
    refine (Real.sqrt_le_left (by norm_num)).mpr ?_
    have h4 := (abs_le.mp hD2).2
    have h3 : islEarthRad ^ 2 ≤ 4.06e13 := by rw [sq]; exact hR.1
    linarith
  have hr0 := Real.sqrt_nonneg disc
  have hrb : |√disc| ≤ 1.3e7 := by rw [abs_of_nonneg hr0]; exact hr1
  have hdb : disc ≤ 1e100 := by
    have := Real.mul_self_sqrt hd0
    have h3 : √disc * √disc ≤ 1.3e7 * 1.3e7 := mul_le_mul hr1 hr1 hr0 (by norm_num)
    linarith
  have hr : |F.sqrt disc - √disc| ≤ 2e-8 := (h.sqrt disc hd0 hdb).trans (by linarith)
  generalize F.sqrt disc = r' at *
  generalize √disc = r at *
  have h2a : |F.mul 2 a - 2 * 1| ≤ 5e-13 :=
    h.mul_near (e := 0) (M := 2) (N := 1) (by simp) ha (by norm_num) (by norm_num) (by norm_num) (by norm_num)
  have h2a1 : 1.9 ≤ F.mul 2 a := by have := (abs_le.mp h2a).1; linarith
  have hnb : |(-b) - (-(2 * β))| ≤ 5e-6 := by rw [show -b - -(2 * β) = -(b - 2 * β) by ring, abs_neg]; exact hbn
  have fin : ∀ {n' n : ℝ}, |n' - n| ≤ 1e-5 → |n| ≤ 5.3e7 → |F.div n' (F.mul 2 a) - n / (2 * 1)| ≤ 1e-2 := by
    intro n' n hn hnn
    refine h.div_near (K := 2.7e7) hn h2a ?_ (by norm_num) (by norm_num : (0 : ℝ) < 1.9) h2a1 (by norm_num) (by norm_num)
    rw [abs_div, abs_of_pos (by norm_num : (0 : ℝ) < 2 * 1), div_le_iff₀ (by norm_num)]
    linarith
  have n1 : |-(2 * β) - r| ≤ 5.3e7 := by
    refine (abs_sub _ _).trans ?_
    rw [abs_neg]; linarith
  have n2 : |-(2 * β) + r| ≤ 5.3e7 := by
    refine (abs_add_le _ _).trans ?_
    rw [abs_neg]; linarith
  constructor
  · have := fin (h.sub_near (g := 1e-5) hnb hr n1 (by norm_num) (by norm_num)) n1
    rwa [show (-(2 * β) - r) / (2 * 1) = -β - r / 2 by ring] at this
  · have := fin (h.add_near (g := 1e-5) hnb hr n2 (by norm_num) (by norm_num)) n2
    rwa [show (-(2 * β) + r) / (2 * 1) = -β + r / 2 by ring] at this

end Spec.Accurate

open Classical in
/-- The rounded test after the choice of the origin. -/
noncomputable def losAt (F : Arith) (oc bp : Vec) : Bool :=
  let d := F.subV bp oc
  let s2 := F.len d
  if s2 = 0 then false
  else
    let u : Vec := ⟨F.div d.x s2, F.div d.y s2, F.div d.z s2⟩
    let a := F.sum3 u.x u.x u.y u.y u.z u.z
    let b := F.mul 2 (F.sum3 oc.x u.x oc.y u.y oc.z u.z)
    let c := F.sub (F.sum3 oc.x oc.x oc.y oc.y oc.z oc.z) (F.mul islEarthRad islEarthRad)
    let disc := F.sub (F.mul b b) (F.mul (F.mul 4 a) c)
    if disc < 0 then true
    else
      let t1 := F.div (F.sub (-b) (F.sqrt disc)) (F.mul 2 a)
      let t2 := F.div (F.add (-b) (F.sqrt disc)) (F.mul 2 a)
      decide (s2 < |t1|) && decide (s2 < |t2|)

/-- Points of the segment from `oc` to `bp`, by their distance from `oc`. -/
theorem segment_len {oc bp : Vec} (hd : 0 < (bp - oc).len) (t : ℝ) :
    dot (oc + smul t (bp - oc)) (oc + smul t (bp - oc)) =
      oc.len ^ 2 + 2 * (dot oc (bp - oc) / (bp - oc).len) * (t * (bp - oc).len) + (t * (bp - oc).len) ^ 2 := by
  have h1 := len_sq' oc
  have h2 := len_sq' (bp - oc)
  rw [h1]
  have h3 : 2 * (dot oc (bp - oc) / (bp - oc).len) * (t * (bp - oc).len) = 2 * t * dot oc (bp - oc) := by field_simp
  rw [h3, mul_pow, h2]
  unfold dot smul
  simp only [add_x, add_y, add_z]
  ring

open Classical in
theorem losAt_numbers {F : Arith} (h : Accurate F) {oc bp : Vec} (ho : oc.len ≤ 2e7) (hb : bp.len ≤ 2e7) (h1 : 1 ≤ (bp - oc).len) :
    ∃ s2 D t1 t2, losAt F oc bp = (if s2 = 0 then false else if D < 0 then true else decide (s2 < |t1|) && decide (s2 < |t2|)) ∧
      |s2 - (bp - oc).len| ≤ 1e-6 ∧ |dot oc (bp - oc) / (bp - oc).len| ≤ oc.len ∧
      |D - 4 * ((dot oc (bp - oc) / (bp - oc).len) ^ 2 - (oc.len ^ 2 - islEarthRad ^ 2))| ≤ 820 ∧
      (0 ≤ D → |t1 - (-(dot oc (bp - oc) / (bp - oc).len) - √D / 2)| ≤ 1e-2 ∧
        |t2 - (-(dot oc (bp - oc) / (bp - oc).len) + √D / 2)| ≤ 1e-2) := by
  exact ⟨_, _, _, _, rfl, h.los_near oc bp ho hb h1⟩

theorem losAt_spec {F : Arith} (h : Accurate F) {oc bp : Vec} (o1 : 6.471009e6 ≤ oc.len) (o2 : oc.len ≤ 2e7) (b1 : 6.471009e6 ≤ bp.len)
    (b2 : bp.len ≤ 2e7) (h1 : 1 ≤ (bp - oc).len) (hsel : bp.len ≤ oc.len + 1e-6) :
    (¬ Obstructed (islEarthRad + 0.01) oc bp → losAt F oc bp = true) ∧ (Obstructed (islEarthRad - 0.01) oc bp → losAt F oc bp = false) := by
  have hd : 0 < (bp - oc).len := by linarith
  have hseg := segment_len hd
  have hbp := hseg 1
  rw [show oc + smul 1 (bp - oc) = bp by unfold smul; ext <;> simp, ← len_sq', one_mul] at hbp
  have hs4 : (bp - oc).len ≤ 4e7 := by
    have := len_add_le bp ⟨-oc.x, -oc.y, -oc.z⟩
    have e1 : bp + ⟨-oc.x, -oc.y, -oc.z⟩ = bp - oc := by ext <;> simp [sub_eq_add_neg]
    have e2 : (⟨-oc.x, -oc.y, -oc.z⟩ : Vec).len = oc.len := by unfold Vec.len; simp
    rw [e1, e2] at this
    linarith
  have hB : (6.471009e6 : ℝ) ^ 2 ≤ bp.len ^ 2 := pow_le_pow_left₀ (by norm_num) b1 2
  have hBsel : bp.len ^ 2 ≤ oc.len ^ 2 + 100 := by
    have h2 : bp.len ^ 2 ≤ (oc.len + 1e-6) ^ 2 := pow_le_pow_left₀ (len_nonneg _) hsel 2
    have h3 : (oc.len + 1e-6) ^ 2 = oc.len ^ 2 + 2e-6 * oc.len + 1e-12 := by ring
    linarith
  rw [hbp] at hB hBsel
  obtain ⟨s2, D, t1, t2, hlos, n1, n2, n3, n4⟩ := losAt_numbers h o2 b2 h1
  rw [hlos]
  set s := (bp - oc).len with hs
  set β := dot oc (bp - oc) / s with hβ
  obtain ⟨m1, m2⟩ := abs_le.mp n1
  rw [if_neg (by intro h0; rw [h0] at m1; linarith : ¬ s2 = 0)]
  have root : 0 ≤ D → |(√D / 2) ^ 2 - (β ^ 2 - (oc.len ^ 2 - 6.371009e6 ^ 2))| ≤ 300 := by
    intro hD
    have h2 := Real.sq_sqrt hD
    unfold islEarthRad at n3
    obtain ⟨q1, q2⟩ := abs_le.mp n3
    have h3 : (√D / 2) ^ 2 = D / 4 := by rw [div_pow, h2]; norm_num
    rw [h3, abs_le]
    constructor <;> linarith
  have r0 : 0 ≤ √D / 2 := by positivity
  constructor
  · intro hclear
    by_cases hD : D < 0
    · rw [if_pos hD]
    · rw [if_neg hD]
      push Not at hD
      have hfar : s + 1 ≤ -β - √D / 2 := by
        refine clear_arith h1 o1 o2 n2 hB hBsel r0 (root hD) ?_
        intro σ h2 h3
        by_contra hle
        push Not at hle
        refine hclear ⟨σ / s, by positivity, (div_le_one hd).mpr h3, ?_⟩
        rw [hseg, div_mul_cancel₀ _ hd.ne']
        exact hle
      obtain ⟨k1, k2⟩ := n4 hD
      have l1 := (abs_le.mp k1).1
      have l2 := (abs_le.mp k2).1
      have a1 := le_abs_self t1
      have a2 := le_abs_self t2
      rw [Bool.and_eq_true, decide_eq_true_eq, decide_eq_true_eq]
      constructor <;> linarith
  · rintro ⟨t, h2, h3, h4⟩
    rw [hseg] at h4
    have hts : t * s ≤ s := by nlinarith
    have hD : 0 ≤ D := by
      have h5 : (t * s + β) ^ 2 = (t * s) ^ 2 + 2 * β * (t * s) + β ^ 2 := by ring
      have h6 := sq_nonneg (t * s + β)
      have := (abs_le.mp n3).1
      unfold islEarthRad at h4 this
      linarith
    rw [if_neg (not_lt.mpr hD)]
    obtain ⟨c1, c2⟩ := hidden_arith o1 o2 n2 hs4 hB r0 (root hD) (by positivity) hts h4
    obtain ⟨k1, k2⟩ := n4 hD
    obtain ⟨l1, l2⟩ := abs_le.mp k1
    have : ¬ s2 < |t1| := by
      rw [not_lt, abs_le]
      constructor <;> linarith
    rw [decide_eq_false this, Bool.false_and]

end Verif
