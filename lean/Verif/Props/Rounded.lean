import Verif.Lemmas.RoundedOrbit
import Verif.Lemmas.RoundedLeo
import Verif.Spec.Reach
import Verif.Props.Placement
import Verif.Props.Example
import Mathlib.Data.Int.Log
/-!
# Rounding: C94, C95

The other properties of propagation and motion speak about real numbers.  Here every operation is rounded; all
assumptions about rounding are those of `Spec.Accurate`.
-/

namespace Verif
open Real Verif.Spec

/-! ## Lemmas -/

theorem Spec.Accurate.len_far {F : Arith} (h : Accurate F) {v : Vec} (hv : v.len ≤ 2e7) : |F.len v - v.len| ≤ 1.3e-7 :=
  (h.len_near v (by linarith)).trans (by linarith)

theorem len_sub_le_add (v w : Vec) : (v - w).len ≤ v.len + w.len := by
  have h2 := len_add_le v (⟨-w.x, -w.y, -w.z⟩ : Vec)
  have h3 : (⟨-w.x, -w.y, -w.z⟩ : Vec).len = w.len := by
    unfold Vec.len
    congr 1
    ring
  have h4 : v + (⟨-w.x, -w.y, -w.z⟩ : Vec) = v - w := by
    ext
    · simp only [add_x, sub_x]; ring
    · simp only [add_y, sub_y]; ring
    · simp only [add_z, sub_z]; ring
  rwa [h3, h4] at h2

theorem Spec.Accurate.dist_far {F : Arith} (h : Accurate F) {v w : Vec} (hv : v.len ≤ 2e7) (hw : w.len ≤ 2e7) :
    |F.len (F.subV v w) - (v - w).len| ≤ 1e-6 := by
  have h1 : (v - w).len ≤ 4e7 := (len_sub_le_add v w).trans (by linarith)
  exact (h.dist_near v w (h1.trans (by norm_num))).trans (by linarith)

theorem Spec.Accurate.budget_near {F : Arith} (h : Accurate F) {tx atm fspl mg : ℝ} (t1 : |tx| ≤ 1e4) (t2 : |atm| ≤ 1e4) (t3 : |fspl| ≤ 1e4)
    (t4 : |mg| ≤ 1e4) : |F.sub (F.sub (F.sub tx atm) fspl) mg - (tx - atm - fspl - mg)| ≤ 1e-10 := by
  obtain ⟨p1, p2⟩ := abs_le.mp t1
  obtain ⟨q1, q2⟩ := abs_le.mp t2
  obtain ⟨r1, r2⟩ := abs_le.mp t3
  obtain ⟨s1, s2⟩ := abs_le.mp t4
  refine h.sub_near (e := 5.02e-11) (f := 0) (M := 4e4) ?_ (by simp) (abs_le.mpr ⟨by linarith, by linarith⟩) (by norm_num) (by norm_num)
  refine h.sub_near (e := 2.01e-11) (f := 0) (M := 3e4) ?_ (by simp) (abs_le.mpr ⟨by linarith, by linarith⟩) (by norm_num) (by norm_num)
  exact h.sub_near (e := 0) (f := 0) (M := 2e4) (by simp) (by simp) (abs_le.mpr ⟨by linarith, by linarith⟩) (by norm_num) (by norm_num)

theorem slant_root {R r s : ℝ} (h : R ≤ r) (hR : 0 ≤ R) (hs : 0 ≤ s) :
    0 ≤ slantRange R r s ∧ slantRange R r s ^ 2 + 2 * r * slantRange R r s * s = r ^ 2 - R ^ 2 := by
  have h0 : 0 ≤ r ^ 2 - R ^ 2 := by nlinarith
  have h1 : 0 ≤ (r * s) ^ 2 + (r ^ 2 - R ^ 2) := by positivity
  have h2 := Real.sq_sqrt h1
  have h3 : r * s ≤ √((r * s) ^ 2 + (r ^ 2 - R ^ 2)) := Real.le_sqrt_of_sq_le (by linarith)
  unfold slantRange
  refine ⟨by linarith, ?_⟩
  linear_combination h2

theorem slant_near {r r' s : ℝ} (h1 : 6470900 ≤ r) (h1' : 6470900 ≤ r') (hs0 : 0 ≤ s) (hs1 : s ≤ 1) (hd : |r' - r| ≤ 6.1e-3) :
    |slantRange propEarthRad r' s - slantRange propEarthRad r s| ≤ 0.079 := by
  have key : ∀ q : ℝ, 6470900 ≤ q → 0.17 * q ≤ √((q * s) ^ 2 + (q ^ 2 - propEarthRad ^ 2)) := by
    intro q hq
    refine Real.le_sqrt_of_sq_le ?_
    have : 0 ≤ (q * s) ^ 2 := sq_nonneg _
    unfold propEarthRad
    nlinarith
  have e1 := key r h1
  have e2 := key r' h1'
  have q1 : √((r * s) ^ 2 + (r ^ 2 - propEarthRad ^ 2)) ^ 2 = (r * s) ^ 2 + (r ^ 2 - propEarthRad ^ 2) :=
    Real.sq_sqrt (by unfold propEarthRad; have : 0 ≤ (r * s) ^ 2 := sq_nonneg _; nlinarith)
  have q2 : √((r' * s) ^ 2 + (r' ^ 2 - propEarthRad ^ 2)) ^ 2 = (r' * s) ^ 2 + (r' ^ 2 - propEarthRad ^ 2) :=
    Real.sq_sqrt (by unfold propEarthRad; have : 0 ≤ (r' * s) ^ 2 := sq_nonneg _; nlinarith)
  unfold slantRange
  generalize √((r * s) ^ 2 + (r ^ 2 - propEarthRad ^ 2)) = E at *
  generalize √((r' * s) ^ 2 + (r' ^ 2 - propEarthRad ^ 2)) = E' at *
  have hE : (E' - E) * (E' + E) = (1 + s ^ 2) * (r' + r) * (r' - r) := by linear_combination q2 - q1
  have hpos : 0 < E' + E := by linarith
  have hdiff : |E' - E| ≤ 0.072 := by
    have h3 : |E' - E| * (E' + E) = (1 + s ^ 2) * (r' + r) * |r' - r| := by
      rw [← abs_of_nonneg (mul_nonneg (by positivity : 0 ≤ 1 + s ^ 2) (by linarith : 0 ≤ r' + r)), ← abs_mul, ← hE, abs_mul, abs_of_pos hpos]
    have h4 : (1 + s ^ 2) * (r' + r) * |r' - r| ≤ 2 * (r' + r) * 6.1e-3 := by
      have : s ^ 2 ≤ 1 := by nlinarith
      have h5 : (1 + s ^ 2) * (r' + r) ≤ 2 * (r' + r) := mul_le_mul_of_nonneg_right (by linarith) (by linarith)
      exact mul_le_mul h5 hd (abs_nonneg _) (by linarith)
    by_contra hc
    push Not at hc
    have h6 : 0.072 * (E' + E) < |E' - E| * (E' + E) := mul_lt_mul_of_pos_right hc hpos
    linarith
  have hrs : |(r' - r) * s| ≤ 6.1e-3 := by
    rw [abs_mul, abs_of_nonneg hs0]
    calc |r' - r| * s ≤ 6.1e-3 * 1 := mul_le_mul hd hs1 hs0 (by norm_num)
      _ = 6.1e-3 := by norm_num
  obtain ⟨a1, a2⟩ := abs_le.mp hdiff
  obtain ⟨b1, b2⟩ := abs_le.mp hrs
  exact abs_le.mpr ⟨by linarith, by linarith⟩

/-! ## C94: decisions and delays at given positions -/

/-- Rounding to the nearest number with 53 significant bits, as the hardware does
(without limits of the exponent, and with halves rounded up). -/
noncomputable def Demo.nearest (x : ℝ) : ℝ := round (x * 2 ^ (52 - Int.log 2 |x|)) / 2 ^ (52 - Int.log 2 |x|)

/-- `double` with a correctly rounding library. -/
noncomputable def Demo.binary53 : Arith :=
  ⟨Demo.nearest, fun x => Demo.nearest (Real.sin x), fun x => Demo.nearest (Real.cos x), fun x => Demo.nearest (Real.tan x),
    fun x => Demo.nearest √x, Demo.nearest π⟩

theorem Demo.nearest_near (x : ℝ) : |Demo.nearest x - x| ≤ 1.2e-16 * |x| := by
  rcases eq_or_ne x 0 with rfl | hx
  · simp [Demo.nearest]
  have hx' : 0 < |x| := abs_pos.mpr hx
  have h1 := Int.zpow_log_le_self (b := 2) (by norm_num) hx'
  have hp : (0 : ℝ) < 2 ^ (52 - Int.log 2 |x|) := by positivity
  have h2 := abs_sub_round (x * 2 ^ (52 - Int.log 2 |x|))
  have e : Demo.nearest x - x = -(x * 2 ^ (52 - Int.log 2 |x|) - round (x * 2 ^ (52 - Int.log 2 |x|))) / 2 ^ (52 - Int.log 2 |x|) := by
    unfold Demo.nearest; field_simp; ring
  rw [e, abs_div, abs_neg, abs_of_pos hp, div_le_iff₀ hp]
  refine h2.trans ?_
  have h3 : (2 : ℝ) ^ (52 - Int.log 2 |x|) = 2 ^ (52 : ℤ) / 2 ^ Int.log 2 |x| := by rw [zpow_sub₀ (by norm_num)]
  rw [h3, mul_div_assoc']
  have hl : (0 : ℝ) < 2 ^ Int.log 2 |x| := by positivity
  rw [le_div_iff₀ hl]
  push_cast at h1
  norm_num
  linarith

theorem Demo.nearest_of_int {x : ℝ} {n : ℤ} (h : x * 2 ^ (52 - Int.log 2 |x|) = n) : Demo.nearest x = x := by
  have hp : (0 : ℝ) < 2 ^ (52 - Int.log 2 |x|) := by positivity
  unfold Demo.nearest
  rw [h, round_intCast, ← h]
  field_simp

/-- Correctly rounded arithmetic with 53 bits meets the assumptions. -/
theorem C94_binary53 : Accurate Demo.binary53 := by
  have k := Demo.nearest_near
  refine ⟨fun x _ => (k x).trans ?_, fun x hx => ?_, fun x _ => (k _).trans ?_, fun x _ => (k _).trans ?_, fun x _ => (k _).trans ?_,
    fun x _ _ => (k _).trans ?_, (k _).trans ?_⟩
  · have := abs_nonneg x; linarith
  · show 0 ≤ Demo.nearest x
    unfold Demo.nearest
    refine div_nonneg ?_ (by positivity)
    have : 0 ≤ x * 2 ^ (52 - Int.log 2 |x|) := by positivity
    have h2 : (0 : ℤ) ≤ round (x * 2 ^ (52 - Int.log 2 |x|)) := by
      rw [round_eq]; exact Int.floor_nonneg.mpr (by linarith)
    exact_mod_cast h2
  · have := Real.abs_sin_le_one x; linarith
  · have := Real.abs_cos_le_one x; linarith
  · have := abs_nonneg (Real.tan x); linarith
  · have := Real.sqrt_nonneg x; rw [abs_of_nonneg this]; linarith
  · have := Real.pi_pos; have := Real.pi_lt_d4; rw [abs_of_pos Real.pi_pos]; linarith

/-- C94: with the mask at most 60 degrees and the farther node between 100 km and 13600 km above the ground, the link budget
is received, up to rounding, from nodes more than 1 cm inside the slant range, and -1000 dBm from nodes more
than 1 cm beyond. -/
theorem C94_ground_space {F : Arith} (h : Accurate F) {e atm fspl mg tx : ℝ} (he : |e| ≤ 60) {a b far : Vec} (hf : far = a ∨ far = b)
    (ha : a.len ≤ far.len) (hb : b.len ≤ far.len) (h1 : 6.471e6 ≤ far.len) (h2 : far.len ≤ 2e7) :
    ((b - a).len ≤ slantRange propEarthRad far.len |sin (rad e)| - 0.01 → |tx| ≤ 1e4 → |atm| ≤ 1e4 → |fspl| ≤ 1e4 → |mg| ≤ 1e4 →
      |F.leoRxPower e atm fspl mg tx a b - (tx - atm - fspl - mg)| ≤ 1e-10) ∧
    (slantRange propEarthRad far.len |sin (rad e)| + 0.01 ≤ (b - a).len → F.leoRxPower e atm fspl mg tx a b = -1000) := by
  obtain ⟨e1, e2⟩ := abs_le.mp he
  obtain ⟨hD, hs⟩ := slant_root (s := |sin (rad e)|) (by unfold propEarthRad; linarith : propEarthRad ≤ far.len) (by unfold propEarthRad; norm_num) (abs_nonneg _)
  generalize slantRange propEarthRad far.len |sin (rad e)| = D at *
  have hc := (C45_slant_range (e := e) (atm := atm) (fspl := fspl) (mg := mg) (sat := far) (by linarith) (by linarith)
    (by unfold propEarthRad; linarith) D).mpr ⟨hD, hs⟩
  have la := abs_le.mp (h.len_far (ha.trans h2))
  have lb := abs_le.mp (h.len_far (hb.trans h2))
  have hsat : |F.len (if F.len a > F.len b then a else b) - far.len| ≤ 5e-7 := by
    split
    · rename_i hg
      rcases hf with rfl | rfl
      · exact abs_le.mpr ⟨by linarith, by linarith⟩
      · exact abs_le.mpr ⟨by linarith, by linarith⟩
    · rename_i hg
      rcases hf with rfl | rfl
      · exact abs_le.mpr ⟨by linarith, by linarith⟩
      · exact abs_le.mpr ⟨by linarith, by linarith⟩
  have hn := h.cutoff_near (atm := atm) (fspl := fspl) (mg := mg) he h1 h2 hsat
  rw [hc] at hn
  have hdist := abs_le.mp (h.dist_far (hb.trans h2) (ha.trans h2))
  have hn := abs_le.mp hn
  unfold Arith.leoRxPower
  constructor
  · intro hd t1 t2 t3 t4
    dsimp only
    rw [if_neg (by linarith)]
    exact h.budget_near t1 t2 t3 t4
  · intro hd
    dsimp only
    rw [if_pos (by linarith)]

theorem los_eq_losAt (F : Arith) (a b : Vec) :
    F.los a b = if F.len a > F.len b then losAt F a b else losAt F b a := by
  by_cases hg : F.len a > F.len b
  · rw [if_pos hg]
    unfold Arith.los losAt
    simp only [hg, if_true]
  · rw [if_neg hg]
    unfold Arith.los losAt
    simp only [hg, if_false]

/-- C94: satellites at least 1 m apart and between 100 km and 13600 km above the ground hear each other if the Earth with 1 cm
added to its radius does not hide them, and not if the Earth less 1 cm does. -/
theorem C94_line_of_sight {F : Arith} (h : Accurate F) {a b : Vec} (tx : ℝ) (a1 : islEarthRad + 100000 ≤ a.len) (a2 : a.len ≤ 2e7)
    (b1 : islEarthRad + 100000 ≤ b.len) (b2 : b.len ≤ 2e7) (hd : 1 ≤ (b - a).len) :
    (¬ Obstructed (islEarthRad + 0.01) a b → F.islRxPower tx a b = tx) ∧
    (Obstructed (islEarthRad - 0.01) a b → F.islRxPower tx a b = -1000) := by
  have la := abs_le.mp (h.len_far a2)
  have lb := abs_le.mp (h.len_far b2)
  unfold islEarthRad at a1 b1
  have key : (¬ Obstructed (islEarthRad + 0.01) a b → F.los a b = true) ∧ (Obstructed (islEarthRad - 0.01) a b → F.los a b = false) := by
    rw [los_eq_losAt]
    split
    · rename_i hg
      exact losAt_spec h (by linarith) a2 (by linarith) b2 hd (by linarith)
    · rename_i hg
      have := losAt_spec h (oc := b) (bp := a) (by linarith) b2 (by linarith) a2 (by rw [dist_comm']; exact hd) (by linarith)
      exact ⟨fun ho => this.1 fun ho' => ho (obstructed_symm ho'), fun ho => this.2 (obstructed_symm ho)⟩
  unfold Arith.islRxPower
  exact ⟨fun ho => by rw [if_neg (by rw [key.1 ho]; simp)], fun ho => by rw [if_pos (key.2 ho)]⟩

/-- C94: at the speed of light or more the propagation delay is within 1e-14 s of the exact one. -/
theorem C94_delay {F : Arith} (h : Accurate F) {speed : ℝ} (hs : 299792458 ≤ speed) {a b : Vec} (ha : a.len ≤ 2e7) (hb : b.len ≤ 2e7) :
    |F.delaySeconds speed a b - (b - a).len / speed| ≤ 1e-14 := by
  have hd := h.dist_far hb ha
  have hv : 0 < speed := by linarith
  have h0 := len_nonneg (b - a)
  have h4 : (b - a).len ≤ 4e7 := (len_sub_le_add b a).trans (by linarith)
  generalize (b - a).len = d at *
  unfold Arith.delaySeconds Arith.div
  generalize F.len (F.subV b a) = s at *
  obtain ⟨d1, d2⟩ := abs_le.mp hd
  have e1 : |s / speed - d / speed| ≤ 4e-15 := by
    rw [← sub_div, abs_div, abs_of_pos hv, div_le_iff₀ hv]
    linarith
  have e2 : |s / speed| ≤ 1 := by
    rw [abs_div, abs_of_pos hv, div_le_one hv, abs_le]
    exact ⟨by linarith, by linarith⟩
  have e3 := h.rnd (s / speed) (by linarith)
  have e4 := abs_sub_le (F.rnd (s / speed)) (s / speed) (d / speed)
  linarith

/-! ## C95: positions, and decisions at the computed positions -/

/-- Rounding cannot change the direction of motion: the inclination is not closer to 90 degrees than 1e-12 without being 90, and
for 90 the comparison of `GetProgress` is exact (it is for `double`: half of `M_PI` is compared with itself). -/
def Spec.SureSign (F : Arith) (inc : ℝ) : Prop :=
  1e-12 ≤ |inc - 90| ∨ inc = 90 ∧ ¬ F.mul (F.div 90 180) F.pi > F.div F.pi 2

/-- Orbits between 100 km and 13600 km. -/
def Spec.Usual (F : Arith) (o : OrbitRec) : Prop := 100 ≤ o.alt ∧ o.alt ≤ 13600 ∧ |o.inc| ≤ 180 ∧ SureSign F o.inc

/-- Position of satellite `k` of plane `p` as computed at time `t`. -/
noncomputable def roundedTrack (F : Arith) (o : OrbitRec) (p k : Nat) (t : Time) : Vec :=
  F.position (F.slot o.alt o.inc p o.planes k o.sats) t

/-- Velocity of satellite `k` of plane `p` as computed at time `t` from the position of that time. -/
noncomputable def roundedVelocity (F : Arith) (o : OrbitRec) (p k : Nat) (t : Time) : Vec :=
  F.velocity (F.slot o.alt o.inc p o.planes k o.sats) t (roundedTrack F o p k t)

theorem Spec.Accurate.sign_ok {F : Arith} (h : Accurate F) {i : ℝ} (hi : |i| ≤ 180) (hs : SureSign F i) :
    F.mul (F.div i 180) F.pi > F.div F.pi 2 ↔ i / 180 * π > π / 2 := by
  rcases hs with h9 | ⟨rfl, hn⟩
  · exact h.sign_near hi h9
  · constructor
    · intro hc; exact absurd hc hn
    · intro hc; exfalso; linarith

/-- Polar orbits are no exception. -/
theorem C95_polar_sign : SureSign Demo.binary53 90 := by
  refine Or.inr ⟨rfl, ?_⟩
  have h : Demo.binary53.div 90 180 = 1 / 2 := by
    show Demo.nearest (90 / 180) = 1 / 2
    rw [show (90 / 180 : ℝ) = 1 / 2 by norm_num]
    refine Demo.nearest_of_int (n := 2 ^ 52) ?_
    have hl : Int.log 2 |(1 / 2 : ℝ)| = -1 := by
      rw [abs_of_pos (by norm_num), show (1 / 2 : ℝ) = ((2 : ℕ) : ℝ) ^ (-1 : ℤ) by norm_num]
      exact Int.log_zpow (by norm_num) _
    rw [hl]
    norm_num
  rw [h, gt_iff_lt, not_lt]
  show Demo.nearest (1 / 2 * Demo.binary53.pi) ≤ Demo.nearest (Demo.binary53.pi / 2)
  rw [show 1 / 2 * Demo.binary53.pi = Demo.binary53.pi / 2 by ring]
/-- C95: for eleven days of simulated time every coordinate of the position of an installed satellite is computed to 2 mm. -/
theorem C95_positions {F : Arith} (h : Accurate F) {o : OrbitRec} (ho : Usual F o) {p k : Nat} (hp : p < o.planes) (hk : k < o.sats)
    {t : Time} (ht : t ≤ 1000000000000000) : Within 2e-3 (roundedTrack F o p k t) (track o p k (t / 1000000000)) := by
  obtain ⟨h1, h2, h3, h4⟩ := ho
  rw [← track_eq (x := (o, p, k)) (by linarith)]
  obtain ⟨f1, f2⟩ := h.fraction_near hp
  obtain ⟨g1, g2⟩ := h.fraction_near hk
  obtain ⟨i1, i2⟩ := h.incl_near h3
  have ht' : (t : ℝ) ≤ 1e15 := by
    have : (t : ℝ) ≤ 1000000000000000 := by exact_mod_cast ht
    linarith
  rw [← mul_div_assoc] at f1 f2 g1 g2
  refine h.position_near ?_ ?_ ht' ?_ ?_ ?_ (h.sign_ok h3 h4) (h.height_near (by linarith) h2) i1 f1 g1
  · show 6471 ≤ earthRadKm + o.alt
    unfold earthRadKm; linarith
  · show earthRadKm + o.alt ≤ 20000
    unfold earthRadKm; linarith
  · exact f2.trans (by norm_num)
  · exact g2.trans (by norm_num)
  · exact i2.trans (by norm_num)

/-- C95: and every coordinate of its velocity to 30 micrometres per second. -/
theorem C95_velocities {F : Arith} (h : Accurate F) {o : OrbitRec} (ho : Usual F o) {p k : Nat} (hp : p < o.planes) (hk : k < o.sats)
    {t : Time} (ht : t ≤ 1000000000000000) :
    Within 3e-5 (roundedVelocity F o p k t) ((orbitOf (o, p, k)).velocity t ((orbitOf (o, p, k)).position t)) := by
  have hpos := C95_positions h ho hp hk ht
  obtain ⟨h1, h2, h3, h4⟩ := ho
  rw [← track_eq (x := (o, p, k)) (by linarith)] at hpos
  have hl : ((orbitOf (o, p, k)).position t).len = radius o := by
    rw [track_eq (x := (o, p, k)) (by linarith)]
    exact track_len (by linarith) _
  obtain ⟨f1, f2⟩ := h.fraction_near hp
  obtain ⟨i1, i2⟩ := h.incl_near h3
  have ht' : (t : ℝ) ≤ 1e15 := by
    have : (t : ℝ) ≤ 1000000000000000 := by exact_mod_cast ht
    linarith
  rw [← mul_div_assoc] at f1 f2
  refine h.velocity_near ?_ ?_ ht' ?_ ?_ (h.height_near (by linarith) h2) i1 f1 hpos ?_ ?_
  · show 6471 ≤ earthRadKm + o.alt
    unfold earthRadKm; linarith
  · show earthRadKm + o.alt ≤ 20000
    unfold earthRadKm; linarith
  · exact f2.trans (by norm_num)
  · exact i2.trans (by norm_num)
  · rw [hl, radius]; linarith
  · rw [hl, radius]; linarith

/-- C95: stations given by latitude and longitude are placed to 2 micrometres. -/
theorem C95_stations {F : Arith} (h : Accurate F) {l : LatLong} (h1 : |l.latitude| ≤ 180) (h2 : |l.longitude| ≤ 360) :
    Within 2e-6 (F.earthPosition l) (location (90 - 2 * l.latitude) l.longitude) := by
  rw [← C43_law]
  have hp0 := Real.pi_pos
  have hp4 := Real.pi_lt_d4
  have k1 : |π / 90| ≤ 0.035 := by rw [abs_of_pos (by positivity)]; linarith
  have k2 : |π / 180| ≤ 0.0175 := by rw [abs_of_pos (by positivity)]; linarith
  have d1 : |F.div F.pi 90 - π / 90| ≤ 5e-17 :=
    h.div_near (f := 0) h.pi (by simp) k1 (by norm_num) (by norm_num : (0 : ℝ) < 90) le_rfl (by norm_num) (by norm_num)
  have d2 : |F.div F.pi 180 - π / 180| ≤ 2.5e-17 :=
    h.div_near (f := 0) h.pi (by simp) k2 (by norm_num) (by norm_num : (0 : ℝ) < 180) le_rfl (by norm_num) (by norm_num)
  have m1 : |F.mul l.latitude (F.div F.pi 90) - l.latitude * (π / 90)| ≤ 1e-13 :=
    h.mul_near (e := 0) (by simp) d1 h1 k1 (by norm_num) (by norm_num)
  have m2 : |F.mul l.longitude (F.div F.pi 180) - l.longitude * (π / 180)| ≤ 1e-13 :=
    h.mul_near (e := 0) (by simp) d2 h2 k2 (by norm_num) (by norm_num)
  refine h.ground_near m1 m2 ?_ ?_
  · rw [abs_mul]
    calc _ ≤ 180 * 0.035 := mul_le_mul h1 k1 (abs_nonneg _) (by norm_num)
      _ ≤ 1e6 := by norm_num
  · rw [abs_mul]
    calc _ ≤ 360 * 0.0175 := mul_le_mul h2 k2 (abs_nonneg _) (by norm_num)
      _ ≤ 1e6 := by norm_num

theorem Spec.Accurate.grid_angle {F : Arith} (h : Accurate F) {i L : Nat} {c c' : ℝ} (hc : |c' - c| ≤ 1e-14) (hb : |c| ≤ 6.3) (hi : i ≤ L)
    (hL : 0 < L) (hL' : L < 2 ^ 32) : |F.mul i (F.div c' L) - i * (c / L)| ≤ 1e-13 ∧ |i * (c / L)| ≤ 6.3 := by
  have L1 : (1 : ℝ) ≤ L := by exact_mod_cast hL
  have L2 : (L : ℝ) ≤ 4294967296 := by exact_mod_cast (by omega : L ≤ 4294967296)
  have i1 : |(i : ℝ)| ≤ L := by rw [abs_of_nonneg (Nat.cast_nonneg _)]; exact_mod_cast hi
  have L0 : (0 : ℝ) < L := by linarith
  have k1 : |c / L| ≤ 6.3 / L := by
    rw [abs_div, abs_of_pos L0]
    exact div_le_div_of_nonneg_right hb L0.le
  have k0 : 6.3 / (L : ℝ) ≤ 6.3 := div_le_self (by norm_num) L1
  have d1 : |F.div c' L - c / L| ≤ 2e-14 / L := by
    refine h.div_near (f := 0) hc (by simp) k1 L0 L0 le_rfl ?_ ?_
    · have : (1e-14 + 6.3 / (L : ℝ) * 0) / L ≤ 1 := by rw [div_le_one L0]; linarith
      linarith
    · rw [le_div_iff₀ L0]
      have e : ((1e-14 + 6.3 / (L : ℝ) * 0) / L + 1e-15 * (6.3 / L + (1e-14 + 6.3 / (L : ℝ) * 0) / L) + 1e-100) * L =
          1e-14 + 1e-15 * (6.3 + 1e-14) + 1e-100 * L := by field_simp; ring
      rw [e]
      linarith
  have eM : (L : ℝ) * (6.3 / L) = 6.3 := by field_simp
  have ef : 2e-14 / (L : ℝ) * L = 2e-14 := by field_simp
  refine ⟨h.mul_near (e := 0) (by simp) d1 i1 k1 ?_ ?_, ?_⟩
  · rw [eM, ef]; norm_num
  · rw [eM, ef]; norm_num
  · rw [abs_mul, ← eM]
    exact mul_le_mul i1 k1 (abs_nonneg _) L0.le

/-- C95: the stations of a grid are placed to 2 micrometres. -/
theorem C95_grid {F : Arith} (h : Accurate F) {L M i j : Nat} (hi : i ≤ L) (hj : j ≤ M) (hL : 0 < L) (hM : 0 < M) (hL' : L < 2 ^ 32)
    (hM' : M < 2 ^ 32) : Within 2e-6 (F.gridPosition i L j M) (Spec.gridPoint L M i j) := by
  rw [← gridPoint_eq]
  have hp0 := Real.pi_pos
  have hp4 := Real.pi_lt_d4
  have kp : |π| ≤ 3.1416 := by rw [abs_of_pos hp0]; exact hp4.le
  have h2 : |F.mul 2 F.pi - 2 * π| ≤ 1e-14 := h.mul_near (e := 0) (M := 2) (by simp) h.pi (by norm_num) kp (by norm_num) (by norm_num)
  obtain ⟨a1, a2⟩ := h.grid_angle (c := π) (c' := F.pi) (h.pi.trans (by norm_num)) (kp.trans (by norm_num)) hi hL hL'
  obtain ⟨b1, b2⟩ := h.grid_angle h2 (by rw [abs_of_pos (by linarith)]; linarith) hj hM hM'
  exact h.ground_near a1 b1 (by linarith) (by linarith)

theorem Within.len_le {e : ℝ} {v w : Vec} (h : Within e v w) : (v - w).len ≤ 3 * e := by
  refine (len_le_sum _).trans ?_
  have h1 := h.1
  have h2 := h.2.1
  have h3 := h.2.2
  simp only [sub_x, sub_y, sub_z]
  linarith

theorem Within.dist {e f : ℝ} {v w v' w' : Vec} (h : Within e v w) (h' : Within f v' w') :
    |(v' - v).len - (w' - w).len| ≤ 3 * (e + f) := by
  refine (abs_len_sub _ _).trans ?_
  have k : ∀ a b c d : ℝ, |a - b - (c - d)| ≤ |a - c| + |b - d| := fun a b c d => by
    rw [show a - b - (c - d) = (a - c) - (b - d) by ring]; exact abs_sub _ _
  have h1 := h.1
  have h2 := h.2.1
  have h3 := h.2.2
  have g1 := h'.1
  have g2 := h'.2.1
  have g3 := h'.2.2
  simp only [sub_x, sub_y, sub_z]
  have k1 := k v'.x v.x w'.x w.x
  have k2 := k v'.y v.y w'.y w.y
  have k3 := k v'.z v.z w'.z w.z
  linarith

/-- C95: whether a station and a satellite hear each other is decided as the exact positions demand, unless the station is within
10 cm of the slant range. -/
theorem C95_ground_space {F : Arith} (h : Accurate F) {e atm fspl mg tx : ℝ} (he : |e| ≤ 60) {o : OrbitRec} (ho : Usual F o) {p k : Nat}
    (hp : p < o.planes) (hk : k < o.sats) {t : Time} (ht : t ≤ 1000000000000000) {g g' : Vec} (hg : g.len = 6371000) (hg' : Within 2e-6 g' g) :
    ((track o p k (t / 1000000000) - g).len ≤ slantRange propEarthRad (radius o) |sin (rad e)| - 0.1 →
      |tx| ≤ 1e4 → |atm| ≤ 1e4 → |fspl| ≤ 1e4 → |mg| ≤ 1e4 →
      |F.leoRxPower e atm fspl mg tx g' (roundedTrack F o p k t) - (tx - atm - fspl - mg)| ≤ 1e-10 ∧
      |F.leoRxPower e atm fspl mg tx (roundedTrack F o p k t) g' - (tx - atm - fspl - mg)| ≤ 1e-10) ∧
    (slantRange propEarthRad (radius o) |sin (rad e)| + 0.1 ≤ (track o p k (t / 1000000000) - g).len →
      F.leoRxPower e atm fspl mg tx g' (roundedTrack F o p k t) = -1000 ∧
      F.leoRxPower e atm fspl mg tx (roundedTrack F o p k t) g' = -1000) := by
  have hs := C95_positions h ho hp hk ht
  obtain ⟨h1, h2, h3, h4⟩ := ho
  have hl : (track o p k (t / 1000000000)).len = radius o := track_len (by linarith) _
  have r1 : 6471009 ≤ radius o := by unfold radius; linarith
  have r2 : radius o ≤ 19971009 := by unfold radius; linarith
  generalize track o p k (t / 1000000000) = s at *
  generalize roundedTrack F o p k t = s' at *
  have l1 : |s'.len - radius o| ≤ 6e-3 := by
    rw [← hl]
    refine (abs_len_sub _ _).trans ?_
    have := hs.1; have := hs.2.1; have := hs.2.2
    linarith
  have l2 : |g'.len - 6371000| ≤ 1 := by
    rw [← hg]
    refine (abs_len_sub _ _).trans ?_
    have := hg'.1; have := hg'.2.1; have := hg'.2.2
    linarith
  have l1' := abs_le.mp l1
  have l2' := abs_le.mp l2
  have hd := abs_le.mp (hg'.dist hs)
  have hD := abs_le.mp (slant_near (s := |sin (rad e)|) (by linarith : 6470900 ≤ radius o) (by linarith : 6470900 ≤ s'.len) (abs_nonneg _)
    (Real.abs_sin_le_one _) (by linarith))
  have c1 := C94_ground_space h (atm := atm) (fspl := fspl) (mg := mg) (tx := tx) he (a := g') (b := s') (far := s') (Or.inr rfl) (by linarith)
    le_rfl (by linarith) (by linarith)
  have c2 := C94_ground_space h (atm := atm) (fspl := fspl) (mg := mg) (tx := tx) he (a := s') (b := g') (far := s') (Or.inl rfl) le_rfl
    (by linarith) (by linarith) (by linarith)
  rw [dist_comm' s' g'] at c2
  constructor
  · intro hn t1 t2 t3 t4
    exact ⟨c1.1 (by linarith) t1 t2 t3 t4, c2.1 (by linarith) t1 t2 t3 t4⟩
  · intro hn
    exact ⟨c1.2 (by linarith), c2.2 (by linarith)⟩

theorem obstructed_near {R e : ℝ} {a b a' b' : Vec} (hR : 0 ≤ R) (ha : (a' - a).len ≤ e) (hb : (b' - b).len ≤ e) (h : Obstructed R a b) :
    Obstructed (R + e) a' b' := by
  obtain ⟨t, t0, t1, ht⟩ := h
  refine ⟨t, t0, t1, ?_⟩
  have e0 : 0 ≤ e := (len_nonneg _).trans ha
  have k1 : a' + smul t (b' - a') = (a + smul t (b - a)) + (smul (1 - t) (a' - a) + smul t (b' - b)) := by
    ext <;> simp only [smul, add_x, add_y, add_z, sub_x, sub_y, sub_z] <;> ring
  have k2 := len_add_le (a + smul t (b - a)) (smul (1 - t) (a' - a) + smul t (b' - b))
  have k3 := len_add_le (smul (1 - t) (a' - a)) (smul t (b' - b))
  rw [len_smul', len_smul', abs_of_nonneg (by linarith), abs_of_nonneg t0] at k3
  rw [← len_sq'] at ht ⊢
  have k4 : (a + smul t (b - a)).len ≤ R := le_of_sq_le ht hR
  rw [← k1] at k2
  have k5 : (1 - t) * (a' - a).len ≤ (1 - t) * e := mul_le_mul_of_nonneg_left ha (by linarith)
  have k6 : t * (b' - b).len ≤ t * e := mul_le_mul_of_nonneg_left hb t0
  have k7 : (a' + smul t (b' - a')).len ≤ R + e := by linarith
  exact pow_le_pow_left₀ (len_nonneg _) k7 2

/-- C95: whether two satellites hear each other over inter-satellite links is decided as the exact positions demand, up to 2 cm of
the radius of the Earth. -/
theorem C95_line_of_sight {F : Arith} (h : Accurate F) (tx : ℝ) {o o' : OrbitRec} (ho : Usual F o) (ho' : Usual F o') {p k p' k' : Nat}
    (hp : p < o.planes) (hk : k < o.sats) (hp' : p' < o'.planes) (hk' : k' < o'.sats) {t t' : Time} (ht : t ≤ 1000000000000000)
    (ht' : t' ≤ 1000000000000000) (h0 : 101 ≤ o.alt) (h0' : 101 ≤ o'.alt)
    (hd : 2 ≤ (track o' p' k' (t' / 1000000000) - track o p k (t / 1000000000)).len) :
    (¬ Obstructed (islEarthRad + 0.02) (track o p k (t / 1000000000)) (track o' p' k' (t' / 1000000000)) →
      F.islRxPower tx (roundedTrack F o p k t) (roundedTrack F o' p' k' t') = tx) ∧
    (Obstructed (islEarthRad - 0.02) (track o p k (t / 1000000000)) (track o' p' k' (t' / 1000000000)) →
      F.islRxPower tx (roundedTrack F o p k t) (roundedTrack F o' p' k' t') = -1000) := by
  have hs := C95_positions h ho hp hk ht
  have hs' := C95_positions h ho' hp' hk' ht'
  have hl : (track o p k (t / 1000000000)).len = radius o := track_len (by linarith) _
  have hl' : (track o' p' k' (t' / 1000000000)).len = radius o' := track_len (by linarith) _
  have r1 : 6472009 ≤ radius o := by unfold radius; linarith
  have r2 : radius o ≤ 19971009 := by have := ho.2.1; unfold radius; linarith
  have r1' : 6472009 ≤ radius o' := by unfold radius; linarith
  have r2' : radius o' ≤ 19971009 := by have := ho'.2.1; unfold radius; linarith
  generalize track o p k (t / 1000000000) = s at *
  generalize roundedTrack F o p k t = q at *
  generalize track o' p' k' (t' / 1000000000) = s' at *
  generalize roundedTrack F o' p' k' t' = q' at *
  have l1 := hs.len_le
  have l1' := hs'.len_le
  have m1 := abs_le.mp (hs.dist hs')
  have m2 : |q.len - s.len| ≤ 6e-3 := by
    refine (abs_len_sub _ _).trans ?_
    have := hs.1; have := hs.2.1; have := hs.2.2
    linarith
  have m3 : |q'.len - s'.len| ≤ 6e-3 := by
    refine (abs_len_sub _ _).trans ?_
    have := hs'.1; have := hs'.2.1; have := hs'.2.2
    linarith
  have m2 := abs_le.mp m2
  have m3 := abs_le.mp m3
  have hR : islEarthRad = 6371009 := by unfold islEarthRad; norm_num
  have c := C94_line_of_sight h tx (a := q) (b := q') (by linarith) (by linarith) (by linarith) (by linarith) (by linarith)
  constructor
  · intro hn
    refine c.1 fun hc => hn ?_
    have := obstructed_near (e := 0.01) (a' := s) (b' := s') (by linarith) (by rw [dist_comm']; linarith) (by rw [dist_comm']; linarith) hc
    rwa [show islEarthRad + 0.01 + 0.01 = islEarthRad + 0.02 by ring] at this
  · intro hn
    refine c.2 ?_
    have := obstructed_near (e := 0.01) (a' := q) (b' := q') (by linarith) (by linarith) (by linarith) hn
    rwa [show islEarthRad - 0.02 + 0.01 = islEarthRad - 0.01 by ring] at this

/-- C95: propagation delays between computed positions are within 50 ps of those between the exact ones. -/
theorem C95_delay {F : Arith} (h : Accurate F) {speed : ℝ} (hv : 299792458 ≤ speed) {a b a' b' : Vec} (ha : Within 2e-3 a' a)
    (hb : Within 2e-3 b' b) (la : a.len ≤ 1.99e7) (lb : b.len ≤ 1.99e7) :
    |F.delaySeconds speed a' b' - (b - a).len / speed| ≤ 5e-11 := by
  have k1 : |a'.len - a.len| ≤ 6e-3 := (abs_len_sub _ _).trans (by have := ha.1; have := ha.2.1; have := ha.2.2; linarith)
  have k2 : |b'.len - b.len| ≤ 6e-3 := (abs_len_sub _ _).trans (by have := hb.1; have := hb.2.1; have := hb.2.2; linarith)
  have k1 := abs_le.mp k1
  have k2 := abs_le.mp k2
  have hd := ha.dist hb
  have h1 := C94_delay h hv (a := a') (b := b') (by linarith) (by linarith)
  have v0 : 0 < speed := by linarith
  have h2 : |(b' - a').len / speed - (b - a).len / speed| ≤ 4.1e-11 := by
    rw [← sub_div, abs_div, abs_of_pos v0, div_le_iff₀ v0]
    linarith
  have h3 := abs_sub_le (F.delaySeconds speed a' b') ((b' - a').len / speed) ((b - a).len / speed)
  linarith

/-! ## Examples -/

theorem slant_thirty : 1200000 ≤ slantRange propEarthRad 7521010 |sin (rad 30)| := by
  rw [rad_thirty, abs_of_pos (by norm_num)]
  unfold slantRange propEarthRad
  have : (1200000 + 7521010 * (1 / 2) : ℝ) ≤ √((7521010 * (1 / 2)) ^ 2 + (7521010 ^ 2 - 6.37101e6 ^ 2)) := Real.le_sqrt_of_sq_le (by norm_num)
  linarith

/-- With 53 bits: a satellite above the station is heard, one on the other side of the Earth is not. -/
example : |Demo.binary53.leoRxPower 30 0 180 1 98 (onAxis 6371010) (onAxis 7521010) - (98 - 0 - 180 - 1)| ≤ 1e-10 ∧
    Demo.binary53.leoRxPower 30 0 180 1 98 (onAxis (-6371010)) (onAxis 7521010) = -1000 := by
  have hneg : (onAxis (-6371010)).len = 6371010 := len_eq (by norm_num) (by simp [onAxis, dot])
  have l1 : (onAxis 7521010).len = 7521010 := len_onAxis (by norm_num)
  have l2 : (onAxis 6371010).len = 6371010 := len_onAxis (by norm_num)
  have hs := slant_thirty
  have hu : slantRange propEarthRad 7521010 |sin (rad 30)| ≤ 7521010 := by
    rw [rad_thirty, abs_of_pos (by norm_num)]
    unfold slantRange propEarthRad
    have : √((7521010 * (1 / 2)) ^ 2 + (7521010 ^ 2 - 6.37101e6 ^ 2)) ≤ 7521010 := (Real.sqrt_le_left (by norm_num)).mpr (by norm_num)
    linarith
  constructor
  · refine (C94_ground_space C94_binary53 (by norm_num) (far := onAxis 7521010) (Or.inr rfl) ?_ le_rfl ?_ ?_).1 ?_ (by norm_num) (by norm_num)
      (by norm_num) (by norm_num)
    · rw [l1, l2]; norm_num
    · rw [l1]; norm_num
    · rw [l1]; norm_num
    · rw [l1, len_sub_onAxis (by norm_num)]; linarith
  · refine (C94_ground_space C94_binary53 (by norm_num) (far := onAxis 7521010) (Or.inr rfl) ?_ le_rfl ?_ ?_).2 ?_
    · rw [l1, hneg]; norm_num
    · rw [l1]; norm_num
    · rw [l1]; norm_num
    · rw [l1, len_sub_onAxis (by norm_num)]; linarith

/-- With 53 bits: neighbours see each other, satellites on opposite sides of the Earth do not; and the delay of the neighbours. -/
example : Demo.binary53.islRxPower 5 (onAxis 7500000) (onAxis 8500000) = 5 ∧
    Demo.binary53.islRxPower 5 (onAxis (-7500000)) (onAxis 8500000) = -1000 ∧
    |Demo.binary53.delaySeconds 299792458 (onAxis 7500000) (onAxis 8500000) - 1000000 / 299792458| ≤ 1e-14 := by
  have hneg : (onAxis (-7500000)).len = 7500000 := len_eq (by norm_num) (by simp [onAxis, dot])
  have l1 : (onAxis 7500000).len = 7500000 := len_onAxis (by norm_num)
  have l2 : (onAxis 8500000).len = 8500000 := len_onAxis (by norm_num)
  have hR : islEarthRad = 6371009 := by unfold islEarthRad; norm_num
  refine ⟨?_, ?_, ?_⟩
  · refine (C94_line_of_sight C94_binary53 5 ?_ ?_ ?_ ?_ ?_).1 ?_
    · rw [l1, hR]; norm_num
    · rw [l1]; norm_num
    · rw [l2, hR]; norm_num
    · rw [l2]; norm_num
    · rw [len_sub_onAxis (by norm_num)]; norm_num
    · rintro ⟨t, t0, t1, ht⟩
      simp only [onAxis, dot, smul, add_x, add_y, add_z, sub_x, sub_y, sub_z] at ht
      rw [hR] at ht
      nlinarith
  · refine (C94_line_of_sight C94_binary53 5 ?_ ?_ ?_ ?_ ?_).2 ?_
    · rw [hneg, hR]; norm_num
    · rw [hneg]; norm_num
    · rw [l2, hR]; norm_num
    · rw [l2]; norm_num
    · rw [len_sub_onAxis (by norm_num)]; norm_num
    · refine ⟨1 / 2, by norm_num, by norm_num, ?_⟩
      simp only [onAxis, dot, smul, add_x, add_y, add_z, sub_x, sub_y, sub_z]
      rw [hR]
      norm_num
  · have := C94_delay C94_binary53 (le_refl 299792458) (a := onAxis 7500000) (b := onAxis 8500000) (by rw [l1]; norm_num) (by rw [l2]; norm_num)
    rw [len_sub_onAxis (by norm_num)] at this
    norm_num at this ⊢
    exact this

/-- The first orbit of the shipped Starlink file. -/
def Demo.shell : OrbitRec := ⟨1150, 53, 32, 50⟩

theorem Demo.shell_usual : Usual Demo.binary53 Demo.shell :=
  ⟨by norm_num [Demo.shell], by norm_num [Demo.shell], by norm_num [Demo.shell], Or.inl (by norm_num [Demo.shell])⟩

/-- A polar orbit, for which the comparison with 90 degrees matters. -/
theorem Demo.polar_usual : Usual Demo.binary53 ⟨1000, 90, 6, 11⟩ :=
  ⟨by norm_num, by norm_num, by norm_num, C95_polar_sign⟩

/-- Computed positions and velocities after a week. -/
example : Within 2e-3 (roundedTrack Demo.binary53 Demo.shell 31 49 604800000000000) (track Demo.shell 31 49 604800) ∧
    Within 2e-3 (roundedTrack Demo.binary53 ⟨1000, 90, 6, 11⟩ 5 10 604800000000000) (track ⟨1000, 90, 6, 11⟩ 5 10 604800) ∧
    Within 3e-5 (roundedVelocity Demo.binary53 Demo.shell 31 49 604800000000000)
      ((orbitOf (Demo.shell, 31, 49)).velocity 604800000000000 ((orbitOf (Demo.shell, 31, 49)).position 604800000000000)) := by
  have h1 := C95_positions C94_binary53 Demo.shell_usual (p := 31) (k := 49) (by decide) (by decide) (t := 604800000000000) (by norm_num)
  have h2 := C95_positions C94_binary53 Demo.polar_usual (p := 5) (k := 10) (by decide) (by decide) (t := 604800000000000) (by norm_num)
  rw [show (((604800000000000 : Nat) : ℝ) / 1000000000) = 604800 by norm_num] at h1 h2
  exact ⟨h1, h2, C95_velocities C94_binary53 Demo.shell_usual (by decide) (by decide) (by norm_num)⟩

example : Within 2e-6 (Demo.binary53.earthPosition ⟨20, -122⟩) (location 50 (-122)) ∧
    Within 2e-6 (Demo.binary53.gridPosition 3 10 7 20) (Spec.gridPoint 10 20 3 7) := by
  have h1 := C95_stations C94_binary53 (l := ⟨20, -122⟩) (by norm_num) (by norm_num)
  rw [show (90 : ℝ) - 2 * 20 = 50 by norm_num] at h1
  exact ⟨h1, C95_grid C94_binary53 (by decide) (by decide) (by decide) (by decide) (by decide) (by decide)⟩

/-- The station right below a satellite hears it, the one on the other side of the Earth does not: both cases of `C95_ground_space`. -/
example (t : Time) (ht : t ≤ 1000000000000000) :
    let g := smul (6371000 / 7521009) (track Demo.shell 3 7 (t / 1000000000))
    |Demo.binary53.leoRxPower 30 0 180 1 98 g (roundedTrack Demo.binary53 Demo.shell 3 7 t) - (98 - 0 - 180 - 1)| ≤ 1e-10 ∧
    Demo.binary53.leoRxPower 30 0 180 1 98 (smul (-1) g) (roundedTrack Demo.binary53 Demo.shell 3 7 t) = -1000 := by
  intro g
  have hr : radius Demo.shell = 7521009 := by unfold radius Demo.shell; norm_num
  have hl : (track Demo.shell 3 7 (t / 1000000000)).len = 7521009 := by
    rw [← hr]; exact track_len (by norm_num [Demo.shell]) _
  have hg : g.len = 6371000 := by
    show (smul (6371000 / 7521009) _).len = _
    rw [len_smul', hl, abs_of_pos (by norm_num)]; norm_num
  have hg' : (smul (-1) g).len = 6371000 := by rw [len_smul', hg]; norm_num
  have d1 : (track Demo.shell 3 7 (t / 1000000000) - g).len = 1150009 := by
    rw [show track Demo.shell 3 7 (t / 1000000000) - g = smul (1150009 / 7521009) (track Demo.shell 3 7 (t / 1000000000)) by
      ext <;> simp only [g, smul, sub_x, sub_y, sub_z] <;> ring, len_smul', hl, abs_of_pos (by norm_num)]
    norm_num
  have d2 : (track Demo.shell 3 7 (t / 1000000000) - smul (-1) g).len = 13892009 := by
    rw [show track Demo.shell 3 7 (t / 1000000000) - smul (-1) g = smul (13892009 / 7521009) (track Demo.shell 3 7 (t / 1000000000)) by
      ext <;> simp only [g, smul, sub_x, sub_y, sub_z] <;> ring, len_smul', hl, abs_of_pos (by norm_num)]
    norm_num
  have w : ∀ v : Vec, Within 2e-6 v v := fun v => ⟨by norm_num, by norm_num, by norm_num⟩
  have s1 : 1200000 ≤ slantRange propEarthRad (radius Demo.shell) |sin (rad 30)| := by
    rw [hr, rad_thirty, abs_of_pos (by norm_num)]
    unfold slantRange propEarthRad
    have : (1200000 + 7521009 * (1 / 2) : ℝ) ≤ √((7521009 * (1 / 2)) ^ 2 + (7521009 ^ 2 - 6.37101e6 ^ 2)) := Real.le_sqrt_of_sq_le (by norm_num)
    linarith
  have s2 : slantRange propEarthRad (radius Demo.shell) |sin (rad 30)| ≤ 7521009 := by
    rw [hr, rad_thirty, abs_of_pos (by norm_num)]
    unfold slantRange propEarthRad
    have : √((7521009 * (1 / 2)) ^ 2 + (7521009 ^ 2 - 6.37101e6 ^ 2)) ≤ 7521009 := (Real.sqrt_le_left (by norm_num)).mpr (by norm_num)
    linarith
  exact ⟨((C95_ground_space C94_binary53 (by norm_num) Demo.shell_usual (by decide) (by decide) ht hg (w g)).1 (by rw [d1]; linarith)
      (by norm_num) (by norm_num) (by norm_num) (by norm_num)).1,
    ((C95_ground_space C94_binary53 (by norm_num) Demo.shell_usual (by decide) (by decide) ht hg' (w _)).2 (by rw [d2]; linarith)).1⟩

/-- A satellite and one 850 km above it see each other when they start, satellites on opposite sides of an orbit never do. -/
example (t : Time) (ht : t ≤ 1000000000000000) :
    Demo.binary53.islRxPower 5 (roundedTrack Demo.binary53 Demo.shell 3 7 0) (roundedTrack Demo.binary53 ⟨2000, 53, 32, 50⟩ 3 7 0) = 5 ∧
    Demo.binary53.islRxPower 5 (roundedTrack Demo.binary53 Demo.shell 3 7 t) (roundedTrack Demo.binary53 Demo.shell 3 32 t) = -1000 := by
  have hr : radius Demo.shell = 7521009 := by unfold radius Demo.shell; norm_num
  have hl : ∀ u : ℝ, (track Demo.shell 3 7 u).len = 7521009 := fun u => by rw [← hr]; exact track_len (by norm_num [Demo.shell]) _
  have hR : islEarthRad = 6371009 := by unfold islEarthRad; norm_num
  have up : track ⟨2000, 53, 32, 50⟩ 3 7 (((0 : Nat) : ℝ) / 1000000000) = smul (8371009 / 7521009) (track Demo.shell 3 7 (((0 : Nat) : ℝ) / 1000000000)) := by
    simp only [Nat.cast_zero, zero_div]
    unfold track
    simp only [Demo.shell, show radius ⟨1150, 53, 32, 50⟩ = 7521009 by unfold radius; norm_num,
      show radius ⟨2000, 53, 32, 50⟩ = 8371009 by unfold radius; norm_num, mul_zero, zero_div, add_zero, smul]
    ext <;> simp only <;> ring
  have op : track Demo.shell 3 32 (t / 1000000000) = smul (-1) (track Demo.shell 3 7 (t / 1000000000)) := by
    unfold track
    have e : 2 * Real.pi * ((32 : Nat) : ℝ) / ((Demo.shell.sats : Nat) : ℝ) = 2 * Real.pi * ((7 : Nat) : ℝ) / ((Demo.shell.sats : Nat) : ℝ) + Real.pi := by
      simp only [Demo.shell]; push_cast; ring
    dsimp only
    rw [e, add_right_comm, cos_add_pi, sin_add_pi]
    ext <;> simp only [smul] <;> ring
  have hl0 := hl (((0 : Nat) : ℝ) / 1000000000)
  have hlt := hl (t / 1000000000)
  constructor
  · refine (C95_line_of_sight C94_binary53 5 Demo.shell_usual (o' := ⟨2000, 53, 32, 50⟩)
      ⟨by norm_num, by norm_num, by norm_num, Or.inl (by norm_num)⟩ (by decide) (by decide) (by decide) (by decide) (Nat.zero_le _) (Nat.zero_le _)
      (by norm_num [Demo.shell]) (by norm_num) ?_).1 ?_
    · rw [up, show smul (8371009 / 7521009) (track Demo.shell 3 7 (((0 : Nat) : ℝ) / 1000000000)) - track Demo.shell 3 7 (((0 : Nat) : ℝ) / 1000000000) =
        smul (850000 / 7521009) (track Demo.shell 3 7 (((0 : Nat) : ℝ) / 1000000000)) by
          ext <;> simp only [smul, sub_x, sub_y, sub_z] <;> ring, len_smul', hl0, abs_of_pos (by norm_num)]
      norm_num
    · rintro ⟨u, u0, u1, hu⟩
      rw [up] at hu
      generalize track Demo.shell 3 7 (((0 : Nat) : ℝ) / 1000000000) = v at *
      rw [show v + smul u (smul (8371009 / 7521009) v - v) = smul (1 + u * (850000 / 7521009)) v by
          ext <;> simp only [smul, add_x, add_y, add_z, sub_x, sub_y, sub_z] <;> ring, ← len_sq', len_smul', hl0,
        abs_of_pos (by positivity), hR] at hu
      nlinarith
  · refine (C95_line_of_sight C94_binary53 5 Demo.shell_usual Demo.shell_usual (by decide) (by decide) (by decide) (by decide) ht ht
      (by norm_num [Demo.shell]) (by norm_num [Demo.shell]) ?_).2 ?_
    · rw [op, show smul (-1) (track Demo.shell 3 7 (t / 1000000000)) - track Demo.shell 3 7 (t / 1000000000) =
        smul (-2) (track Demo.shell 3 7 (t / 1000000000)) by
          ext <;> simp only [smul, sub_x, sub_y, sub_z] <;> ring, len_smul', hlt]
      norm_num
    · refine ⟨1 / 2, by norm_num, by norm_num, ?_⟩
      rw [op, hR]
      simp only [dot, smul, add_x, add_y, add_z, sub_x, sub_y, sub_z]
      ring_nf
      norm_num

/-- The delay between a station and a satellite. -/
example (t : Time) (ht : t ≤ 1000000000000000) :
    |Demo.binary53.delaySeconds 299792458 (Demo.binary53.earthPosition ⟨20, -122⟩) (roundedTrack Demo.binary53 Demo.shell 3 7 t) -
      (track Demo.shell 3 7 (t / 1000000000) - location 50 (-122)).len / 299792458| ≤ 5e-11 := by
  have h1 := C95_stations C94_binary53 (l := ⟨20, -122⟩) (by norm_num) (by norm_num)
  have hr : radius Demo.shell = 7521009 := by unfold radius Demo.shell; norm_num
  have hl : (track Demo.shell 3 7 (t / 1000000000)).len = 7521009 := by rw [← hr]; exact track_len (by norm_num [Demo.shell]) _
  have hg := C43_on_surface_partial ⟨20, -122⟩
  rw [C43_law] at hg
  rw [show (90 : ℝ) - 2 * 20 = 50 by norm_num] at h1 hg
  refine C95_delay C94_binary53 le_rfl ⟨?_, ?_, ?_⟩ (C95_positions C94_binary53 Demo.shell_usual (by decide) (by decide) ht) ?_ ?_
  · exact h1.1.trans (by norm_num)
  · exact h1.2.1.trans (by norm_num)
  · exact h1.2.2.trans (by norm_num)
  · rw [hg]; norm_num
  · rw [hl]; norm_num

end Verif
