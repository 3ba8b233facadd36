import Verif.Spec.Separation
import Verif.Props.Constellation
import Mathlib.Data.Fintype.Lattice
/-!
# C69: the exact distance of any two satellites of a constellation
-/

namespace Verif
open Real Spec

/-- **C69, the law**: the distance of two satellites of any two planes of the same height and inclination at any time.  `q` is
the mean of their phases. -/
theorem C69_distance_law {h i l1 l2 f1 f2 : ℝ} (t : Time) :
    (Orbit.position ⟨h, i, l1, f1⟩ t - Orbit.position ⟨h, i, l2, f2⟩ t).len ^ 2 =
      (2 * (h * 1000)) ^ 2 *
        (sin (Orbit.progress ⟨h, i, l1, (f1 + f2) / 2⟩ t) ^ 2 * atTop i ((l1 - l2) / 2) ((f1 - f2) / 2) +
          cos (Orbit.progress ⟨h, i, l1, (f1 + f2) / 2⟩ t) ^ 2 * atNode i ((l1 - l2) / 2) ((f1 - f2) / 2) ^ 2) := by
  have hlen : ∀ v : Vec, v.len ^ 2 = dot v v := by
    intro v; rw [sq]; exact len_sq v
  rw [hlen, position_eq, position_eq]
  have hp1 : Orbit.progress ⟨h, i, l1, f1⟩ t = Orbit.progress ⟨h, i, l1, (f1 + f2) / 2⟩ t + (f1 - f2) / 2 := by
    unfold Orbit.progress Orbit.speed; simp only; ring
  have hp2 : Orbit.progress ⟨h, i, l2, f2⟩ t = Orbit.progress ⟨h, i, l1, (f1 + f2) / 2⟩ t - (f1 - f2) / 2 := by
    unfold Orbit.progress Orbit.speed; simp only; ring
  have hl1 : Orbit.latitude ⟨h, i, l1, f1⟩ t = Orbit.latitude ⟨h, i, (l1 + l2) / 2, 0⟩ t + (l1 - l2) / 2 := by
    unfold Orbit.latitude; simp only; ring
  have hl2 : Orbit.latitude ⟨h, i, l2, f2⟩ t = Orbit.latitude ⟨h, i, (l1 + l2) / 2, 0⟩ t - (l1 - l2) / 2 := by
    unfold Orbit.latitude; simp only; ring
  rw [hp1, hp2, hl1, hl2]
  generalize Orbit.progress ⟨h, i, l1, (f1 + f2) / 2⟩ t = q
  generalize Orbit.latitude ⟨h, i, (l1 + l2) / 2, 0⟩ t = m
  generalize (f1 - f2) / 2 = F
  generalize (l1 - l2) / 2 = L
  simp only [dot, smul, axisU, axisW, add_x, add_y, add_z, sub_x, sub_y, sub_z, atTop, atNode, cos_add, cos_sub, sin_add,
    sin_sub]
  have em := sin_sq_add_cos_sq m
  generalize hX : -(2 * sin q * (cos i * sin F * cos L + cos F * sin L)) = X
  generalize hY : 2 * cos q * (cos i * cos F * sin L + sin F * cos L) = Y
  have key : ∀ a b c : ℝ, a = (h * 1000) * (cos m * X - sin m * Y) → b = (h * 1000) * (sin m * X + cos m * Y) →
      c = (h * 1000) * (-(2 * sin i * sin q * sin F)) →
      a * a + b * b + c * c = (h * 1000) ^ 2 * (X ^ 2 + Y ^ 2 + (2 * sin i * sin q * sin F) ^ 2) := by
    intro a b c ha hb hc
    rw [ha, hb, hc]
    linear_combination (h * 1000) ^ 2 * (X ^ 2 + Y ^ 2) * em
  rw [key _ _ _ (by rw [← hX, ← hY]; ring) (by rw [← hX, ← hY]; ring) (by ring), ← hX, ← hY]
  ring

/-- The half distance does not exceed the radius. -/
theorem atTop_le_one (i L F : ℝ) : atTop i L F ≤ 1 := by
  unfold atTop
  have e1 := sin_sq_add_cos_sq i
  have e2 := sin_sq_add_cos_sq L
  have e3 := sin_sq_add_cos_sq F
  have : (cos i * sin F * cos L + cos F * sin L) ^ 2 + (sin i * sin F) ^ 2 + (cos i * sin F * sin L - cos F * cos L) ^ 2 = 1 := by
    linear_combination ((cos i * sin F) ^ 2 + cos F ^ 2) * e2 + sin F ^ 2 * e1 + e3
  nlinarith [sq_nonneg (cos i * sin F * sin L - cos F * cos L)]

/-- **C69, the bound**: the distance is never less than the smaller of the distances at the nodes and at the tops. -/
theorem C69_apart_partial {h i l1 l2 f1 f2 : ℝ} (t : Time) :
    2 * (h * 1000) * min (√(atTop i ((l1 - l2) / 2) ((f1 - f2) / 2))) |atNode i ((l1 - l2) / 2) ((f1 - f2) / 2)| ≤
      (Orbit.position ⟨h, i, l1, f1⟩ t - Orbit.position ⟨h, i, l2, f2⟩ t).len := by
  have hlaw := C69_distance_law (h := h) (i := i) (l1 := l1) (l2 := l2) (f1 := f1) (f2 := f2) t
  have hn := len_nonneg (Orbit.position ⟨h, i, l1, f1⟩ t - Orbit.position ⟨h, i, l2, f2⟩ t)
  apply abs_le_of_sq_le_sq' _ hn |>.2
  rw [hlaw, mul_pow]
  apply mul_le_mul_of_nonneg_left _ (by positivity)
  generalize hm : min (√(atTop i ((l1 - l2) / 2) ((f1 - f2) / 2))) |atNode i ((l1 - l2) / 2) ((f1 - f2) / 2)| = m
  have hT : 0 ≤ atTop i ((l1 - l2) / 2) ((f1 - f2) / 2) := by unfold atTop; positivity
  have hm0 : 0 ≤ m := by rw [← hm]; exact le_min (Real.sqrt_nonneg _) (abs_nonneg _)
  have h1 : m ^ 2 ≤ atTop i ((l1 - l2) / 2) ((f1 - f2) / 2) := by
    rw [← Real.sq_sqrt hT]
    exact pow_le_pow_left₀ hm0 (by rw [← hm]; exact min_le_left _ _) 2
  have h2 : m ^ 2 ≤ atNode i ((l1 - l2) / 2) ((f1 - f2) / 2) ^ 2 := by
    rw [← sq_abs (atNode i ((l1 - l2) / 2) ((f1 - f2) / 2))]
    exact pow_le_pow_left₀ hm0 (by rw [← hm]; exact min_le_right _ _) 2
  have e := sin_sq_add_cos_sq (Orbit.progress ⟨h, i, l1, (f1 + f2) / 2⟩ t)
  nlinarith [sq_nonneg (sin (Orbit.progress ⟨h, i, l1, (f1 + f2) / 2⟩ t)),
    sq_nonneg (cos (Orbit.progress ⟨h, i, l1, (f1 + f2) / 2⟩ t))]

/-- **C69, when they meet**: two satellites are at the same position at a time iff one of the two half distances is 0 and the
mean phase is the corresponding one, or both are 0. -/
theorem C69_meet_iff {h i l1 l2 f1 f2 : ℝ} (hh : 0 < h) (t : Time) :
    Orbit.position ⟨h, i, l1, f1⟩ t = Orbit.position ⟨h, i, l2, f2⟩ t ↔
      (sin (Orbit.progress ⟨h, i, l1, (f1 + f2) / 2⟩ t) = 0 ∨ atTop i ((l1 - l2) / 2) ((f1 - f2) / 2) = 0) ∧
      (cos (Orbit.progress ⟨h, i, l1, (f1 + f2) / 2⟩ t) = 0 ∨ atNode i ((l1 - l2) / 2) ((f1 - f2) / 2) = 0) := by
  have hlaw := C69_distance_law (h := h) (i := i) (l1 := l1) (l2 := l2) (f1 := f1) (f2 := f2) t
  have hT : 0 ≤ atTop i ((l1 - l2) / 2) ((f1 - f2) / 2) := by unfold atTop; positivity
  have hz : Orbit.position ⟨h, i, l1, f1⟩ t = Orbit.position ⟨h, i, l2, f2⟩ t ↔
      (Orbit.position ⟨h, i, l1, f1⟩ t - Orbit.position ⟨h, i, l2, f2⟩ t).len = 0 := by
    constructor
    · intro he
      rw [he]
      exact len_eq le_rfl (by simp [dot])
    · intro h0
      have := len_eq_zero h0
      injection this with h1 h2 h3
      ext
      · exact sub_eq_zero.mp h1
      · exact sub_eq_zero.mp h2
      · exact sub_eq_zero.mp h3
  rw [hz, ← sq_eq_zero_iff, hlaw]
  generalize sin (Orbit.progress ⟨h, i, l1, (f1 + f2) / 2⟩ t) = a
  generalize cos (Orbit.progress ⟨h, i, l1, (f1 + f2) / 2⟩ t) = b
  rw [mul_eq_zero, or_iff_right (by positivity), add_eq_zero_iff_of_nonneg (by positivity) (by positivity), mul_eq_zero,
    mul_eq_zero, sq_eq_zero_iff, sq_eq_zero_iff, sq_eq_zero_iff]

/-- The difference of two slots of a ring is no multiple of the whole. -/
theorem sin_slot_ne_zero {n a b : Nat} (ha : a < n) (hb : b < n) (hab : a ≠ b) :
    sin ((2 * Real.pi * a / n - 2 * Real.pi * b / n) / 2) ≠ 0 := by
  have hn : (0 : ℝ) < n := by exact_mod_cast (by omega : 0 < n)
  rw [show (2 * Real.pi * a / n - 2 * Real.pi * b / n) / 2 = ((a - b : ℝ) / n) * Real.pi by field_simp]
  intro h
  rw [Real.sin_eq_zero_iff] at h
  obtain ⟨k, hk⟩ := h
  have h1 : (k : ℝ) = (a - b : ℝ) / n := mul_right_cancel₀ Real.pi_ne_zero hk
  rw [eq_div_iff hn.ne'] at h1
  have h2 : k * (n : ℤ) = (a : ℤ) - b := by exact_mod_cast h1
  have h3 : (n : ℤ) ∣ (a : ℤ) - b := ⟨k, by rw [← h2]; ring⟩
  have h4 := Int.eq_zero_of_abs_lt_dvd h3 (by rw [abs_lt]; omega)
  omega

/-- Different slots of an inclined constellation are apart at the tops. -/
theorem atTop_slot_pos {i : ℝ} (hi : sin i ≠ 0) {O S o1 o2 s1 s2 : Nat} (ho1 : o1 < O) (ho2 : o2 < O) (hs1 : s1 < S)
    (hs2 : s2 < S) (hne : ¬ (o1 = o2 ∧ s1 = s2)) :
    0 < atTop i ((2 * Real.pi * o1 / O - 2 * Real.pi * o2 / O) / 2) ((2 * Real.pi * s1 / S - 2 * Real.pi * s2 / S) / 2) := by
  refine lt_of_le_of_ne (by unfold atTop; positivity) fun h0 => ?_
  unfold atTop at h0
  have h1 := (add_eq_zero_iff_of_nonneg (by positivity) (by positivity)).mp h0.symm
  rw [sq_eq_zero_iff, sq_eq_zero_iff, mul_eq_zero, or_iff_right hi] at h1
  have hs : s1 = s2 := by
    by_contra hc
    exact sin_slot_ne_zero hs1 hs2 hc h1.2
  subst hs
  have h2 := h1.1
  simp only [sub_self, zero_div, sin_zero, cos_zero, mul_zero, zero_mul, zero_add, one_mul] at h2
  exact sin_slot_ne_zero ho1 ho2 (fun h => hne ⟨h, rfl⟩) h2

/-- **C69 for whole constellations**: if no two slots are at the same place at their nodes, all satellites keep a fixed
distance from each other for ever. -/
theorem C69_constellation_apart_partial {h i : ℝ} (hh : 0 < h) (hi : sin i ≠ 0) {O S : Nat}
    (hn : ∀ o1 o2 s1 s2 : Nat, o1 < O → o2 < O → s1 < S → s2 < S → ¬ (o1 = o2 ∧ s1 = s2) →
      atNode i ((2 * Real.pi * o1 / O - 2 * Real.pi * o2 / O) / 2) ((2 * Real.pi * s1 / S - 2 * Real.pi * s2 / S) / 2) ≠ 0) :
    ∃ ε > 0, ∀ (o1 o2 s1 s2 : Nat) (t : Time), o1 < O → o2 < O → s1 < S → s2 < S → ¬ (o1 = o2 ∧ s1 = s2) →
      ε ≤ (Orbit.position ⟨h, i, 2 * Real.pi * o1 / O, 2 * Real.pi * s1 / S⟩ t -
        Orbit.position ⟨h, i, 2 * Real.pi * o2 / O, 2 * Real.pi * s2 / S⟩ t).len := by
  let ι := {x : Fin O × Fin O × Fin S × Fin S // ¬ (x.1 = x.2.1 ∧ x.2.2.1 = x.2.2.2)}
  let f : ι → ℝ := fun x => 2 * (h * 1000) *
    min (√(atTop i ((2 * Real.pi * (x.1.1 : Nat) / O - 2 * Real.pi * (x.1.2.1 : Nat) / O) / 2)
        ((2 * Real.pi * (x.1.2.2.1 : Nat) / S - 2 * Real.pi * (x.1.2.2.2 : Nat) / S) / 2)))
      |atNode i ((2 * Real.pi * (x.1.1 : Nat) / O - 2 * Real.pi * (x.1.2.1 : Nat) / O) / 2)
        ((2 * Real.pi * (x.1.2.2.1 : Nat) / S - 2 * Real.pi * (x.1.2.2.2 : Nat) / S) / 2)|
  have hpos : ∀ x, 0 < f x := by
    rintro ⟨⟨a, b, c, d⟩, hx⟩
    have hx' : ¬ ((a : Nat) = b ∧ (c : Nat) = d) := fun hc => hx ⟨Fin.ext hc.1, Fin.ext hc.2⟩
    have h1 := atTop_slot_pos hi a.2 b.2 c.2 d.2 hx'
    have h2 := hn a b c d a.2 b.2 c.2 d.2 hx'
    exact mul_pos (by positivity) (lt_min (Real.sqrt_pos.mpr h1) (abs_pos.mpr h2))
  have hle : ∀ (o1 o2 s1 s2 : Nat) (t : Time) (ho1 : o1 < O) (ho2 : o2 < O) (hs1 : s1 < S) (hs2 : s2 < S)
      (hne : ¬ (o1 = o2 ∧ s1 = s2)),
      f ⟨(⟨o1, ho1⟩, ⟨o2, ho2⟩, ⟨s1, hs1⟩, ⟨s2, hs2⟩), fun hc => hne ⟨congrArg Fin.val hc.1, congrArg Fin.val hc.2⟩⟩ ≤
        (Orbit.position ⟨h, i, 2 * Real.pi * o1 / O, 2 * Real.pi * s1 / S⟩ t -
        Orbit.position ⟨h, i, 2 * Real.pi * o2 / O, 2 * Real.pi * s2 / S⟩ t).len := by
    intro o1 o2 s1 s2 t ho1 ho2 hs1 hs2 hne
    exact C69_apart_partial t
  by_cases hemp : Nonempty ι
  · obtain ⟨x0, hx0⟩ := Finite.exists_min f
    refine ⟨f x0, hpos x0, ?_⟩
    intro o1 o2 s1 s2 t ho1 ho2 hs1 hs2 hne
    exact le_trans (hx0 _) (hle o1 o2 s1 s2 t ho1 ho2 hs1 hs2 hne)
  · refine ⟨1, one_pos, ?_⟩
    intro o1 o2 s1 s2 t ho1 ho2 hs1 hs2 hne
    exact absurd ⟨⟨(⟨o1, ho1⟩, ⟨o2, ho2⟩, ⟨s1, hs1⟩, ⟨s2, hs2⟩),
      fun hc => hne ⟨congrArg Fin.val hc.1, congrArg Fin.val hc.2⟩⟩⟩ hemp

/-- Two planes of three satellites at 60 degrees meet the condition. -/
example : sin (Real.pi / 3) ≠ 0 ∧ ∀ o1 o2 s1 s2 : Nat, o1 < 2 → o2 < 2 → s1 < 3 → s2 < 3 → ¬ (o1 = o2 ∧ s1 = s2) →
    atNode (Real.pi / 3) ((2 * Real.pi * o1 / (2 : Nat) - 2 * Real.pi * o2 / (2 : Nat)) / 2)
      ((2 * Real.pi * s1 / (3 : Nat) - 2 * Real.pi * s2 / (3 : Nat)) / 2) ≠ 0 := by
  refine ⟨by rw [sin_pi_div_three]; positivity, ?_⟩
  intro o1 o2 s1 s2 h1 h2 h3 h4 hne
  by_cases ho : o1 = o2
  · subst ho
    unfold atNode
    rw [sub_self, zero_div, sin_zero, cos_zero, mul_zero, zero_add, mul_one]
    exact sin_slot_ne_zero h3 h4 fun h => hne ⟨rfl, h⟩
  · have hcos : cos ((2 * Real.pi * s1 / (3 : Nat) - 2 * Real.pi * s2 / (3 : Nat)) / 2) ≠ 0 := by
      intro h
      rw [Real.cos_eq_zero_iff] at h
      obtain ⟨k, hk⟩ := h
      have hp := Real.pi_pos
      have : Real.pi * (2 * ((s1 : ℝ) - s2)) = Real.pi * (3 * (2 * k + 1)) := by push_cast at hk; linarith
      have h5 : 2 * ((s1 : ℤ) - s2) = 3 * (2 * k + 1) := by exact_mod_cast mul_left_cancel₀ hp.ne' this
      omega
    have hL : cos ((2 * Real.pi * o1 / (2 : Nat) - 2 * Real.pi * o2 / (2 : Nat)) / 2) = 0 := by
      rw [Real.cos_eq_zero_iff]
      have : o1 = 0 ∧ o2 = 1 ∨ o1 = 1 ∧ o2 = 0 := by omega
      rcases this with ⟨rfl, rfl⟩ | ⟨rfl, rfl⟩
      · exact ⟨-1, by push_cast; ring⟩
      · exact ⟨0, by push_cast; ring⟩
    unfold atNode
    rw [hL, mul_zero, add_zero, cos_pi_div_three]
    exact mul_ne_zero (mul_ne_zero (by norm_num) hcos) (sin_slot_ne_zero h1 h2 ho)

/-- **C69, the criterion is sharp**: if two satellites are at the same place at their nodes, they come about as close as
they move in a nanosecond, again and again. -/
theorem C69_nodes_meet {h i l1 l2 f1 f2 : ℝ} (hh : 0 < h) (hn : atNode i ((l1 - l2) / 2) ((f1 - f2) / 2) = 0) (t0 : Time) :
    ∃ t ≥ t0, (Orbit.position ⟨h, i, l1, f1⟩ t - Orbit.position ⟨h, i, l2, f2⟩ t).len ≤
      2 * (h / 6371.009) * (Orbit.speed ⟨h, i, l1, f1⟩ / 1000000000) := by
  have hsp : 0 < Orbit.speed ⟨h, i, l1, f1⟩ := by
    unfold Orbit.speed earthGm
    have : 0 < √(39.8600436 / h) := Real.sqrt_pos.mpr (by positivity)
    positivity
  have hpi := Real.pi_pos
  obtain ⟨σ, hσ, hg⟩ : ∃ σ : ℝ, (σ = 1 ∨ σ = -1) ∧ ∀ t : Time, σ * Orbit.progress ⟨h, i, l1, (f1 + f2) / 2⟩ t =
      σ * ((f1 + f2) / 2) + t * (Orbit.speed ⟨h, i, l1, f1⟩ / 1000000000 / 6371009) := by
    have e : Orbit.speed ⟨h, i, l1, (f1 + f2) / 2⟩ = Orbit.speed ⟨h, i, l1, f1⟩ := rfl
    unfold Orbit.progress seconds earthRadKm
    simp only [e]
    by_cases hc : i > Real.pi / 2
    · refine ⟨-1, Or.inr rfl, fun t => ?_⟩
      rw [if_pos hc]; ring
    · refine ⟨1, Or.inl rfl, fun t => ?_⟩
      rw [if_neg hc]; ring
  generalize hd : Orbit.speed ⟨h, i, l1, f1⟩ / 1000000000 / 6371009 = δ at hg
  have hδ : 0 < δ := by rw [← hd]; positivity
  obtain ⟨k, hk⟩ := exists_nat_ge ((σ * ((f1 + f2) / 2) + t0 * δ) / Real.pi)
  rw [div_le_iff₀ hpi] at hk
  generalize hx : (k * Real.pi - (σ * ((f1 + f2) / 2) + t0 * δ)) / δ = x
  have hx0 : 0 ≤ x := by rw [← hx]; apply div_nonneg _ hδ.le; linarith
  refine ⟨t0 + ⌈x⌉₊, Nat.le_add_right _ _, ?_⟩
  have hlaw := C69_distance_law (h := h) (i := i) (l1 := l1) (l2 := l2) (f1 := f1) (f2 := f2) (t0 + ⌈x⌉₊)
  rw [hn] at hlaw
  have hgt := hg (t0 + ⌈x⌉₊)
  generalize Orbit.progress ⟨h, i, l1, (f1 + f2) / 2⟩ (t0 + ⌈x⌉₊) = q at hlaw hgt
  push_cast at hgt
  have hxk : x * δ = k * Real.pi - (σ * ((f1 + f2) / 2) + t0 * δ) := by rw [← hx]; field_simp
  have hc1 := Nat.le_ceil x
  have hc2 := Nat.ceil_lt_add_one hx0
  have hb1 : 0 ≤ σ * q - k * Real.pi := by rw [hgt]; nlinarith
  have hb2 : σ * q - k * Real.pi ≤ δ := by rw [hgt]; nlinarith
  have hsin : sin q ^ 2 ≤ δ ^ 2 := by
    have h1 : sin q ^ 2 = sin (σ * q - k * Real.pi) ^ 2 := by
      rw [Real.sin_sub_nat_mul_pi, mul_pow]
      have : ((-1 : ℝ) ^ k) ^ 2 = 1 := by rw [← pow_mul, mul_comm, pow_mul]; norm_num
      rw [this, one_mul]
      rcases hσ with rfl | rfl
      · rw [one_mul]
      · rw [neg_one_mul, sin_neg, neg_sq]
    rw [h1, ← sq_abs]
    apply pow_le_pow_left₀ (abs_nonneg _)
    exact (Real.abs_sin_le_abs).trans (by rw [abs_of_nonneg hb1]; exact hb2)
  have hT := atTop_le_one i ((l1 - l2) / 2) ((f1 - f2) / 2)
  have hT0 : 0 ≤ atTop i ((l1 - l2) / 2) ((f1 - f2) / 2) := by unfold atTop; positivity
  have hrhs : 2 * (h / 6371.009) * (Orbit.speed ⟨h, i, l1, f1⟩ / 1000000000) = 2 * (h * 1000) * δ := by rw [← hd]; ring
  rw [hrhs]
  apply abs_le_of_sq_le_sq' _ (by positivity) |>.2
  rw [hlaw, mul_pow (2 * (h * 1000)) δ]
  apply mul_le_mul_of_nonneg_left _ (by positivity)
  nlinarith [sq_nonneg (sin q)]

/-- **C69 is false for every constellation with even numbers** of planes and of satellites per plane, whatever its height and
inclination: the first satellite of the first plane and the one on the opposite side of the opposite plane come about as
close as they move in a nanosecond, again and again. -/
theorem C69_even_constellations_meet {h i : ℝ} (hh : 0 < h) {m n : Nat} (hm : 0 < m) (hn : 0 < n) (t0 : Time) :
    ∃ t ≥ t0, (Orbit.position ⟨h, i, 2 * Real.pi * (0 : Nat) / (2 * m : Nat), 2 * Real.pi * (0 : Nat) / (2 * n : Nat)⟩ t -
      Orbit.position ⟨h, i, 2 * Real.pi * m / (2 * m : Nat), 2 * Real.pi * n / (2 * n : Nat)⟩ t).len ≤
        2 * (h / 6371.009) * (Orbit.speed ⟨h, i, 0, 0⟩ / 1000000000) := by
  have hm' : (0 : ℝ) < m := by exact_mod_cast hm
  have hn' : (0 : ℝ) < n := by exact_mod_cast hn
  refine C69_nodes_meet (l1 := 2 * Real.pi * (0 : Nat) / (2 * m : Nat)) (f1 := 2 * Real.pi * (0 : Nat) / (2 * n : Nat)) hh ?_ t0
  have e1 : (2 * Real.pi * (0 : Nat) / (2 * m : Nat) - 2 * Real.pi * m / (2 * m : Nat)) / 2 = -(Real.pi / 2) := by
    push_cast; field_simp; ring
  have e2 : (2 * Real.pi * (0 : Nat) / (2 * n : Nat) - 2 * Real.pi * n / (2 * n : Nat)) / 2 = -(Real.pi / 2) := by
    push_cast; field_simp; ring
  unfold atNode
  rw [e1, e2, cos_neg, cos_pi_div_two]
  ring

end Verif
