import Verif.Lemmas.Propagation
/-!
# Propagation loss: C44-C49
-/

namespace Verif
open Real

/-! ## Vocabulary of the statements -/

/-- Sine of the elevation of `sat` above the horizon of `g`: the component of the direction to `sat` along the
local vertical. -/
noncomputable def Spec.sinElevation (g sat : Vec) : ℝ := dot g (sat - g) / (g.len * (sat - g).len)

/-- Elevation in degrees. -/
noncomputable def Spec.elevation (g sat : Vec) : ℝ := arcsin (Spec.sinElevation g sat) * (180 / Real.pi)

/-- The segment from `a` to `b` meets the closed ball of radius `R` around the origin. -/
def Spec.Obstructed (R : ℝ) (a b : Vec) : Prop :=
  ∃ t : ℝ, 0 ≤ t ∧ t ≤ 1 ∧ dot (a + smul t (b - a)) (a + smul t (b - a)) ≤ R ^ 2

/-- Degrees to radians. -/
noncomputable def Spec.rad (x : ℝ) : ℝ := x * (Real.pi / 180)

theorem rad_range {e : ℝ} (h1 : -90 < e) (h2 : e < 90) : -(Real.pi / 2) < Spec.rad e ∧ Spec.rad e < Real.pi / 2 := by
  unfold Spec.rad
  have := Real.pi_pos
  constructor <;> nlinarith

theorem cos_rad_pos {e : ℝ} (h1 : -90 < e) (h2 : e < 90) : 0 < cos (Spec.rad e) :=
  cos_pos_of_mem_Ioo ⟨by have := (rad_range h1 h2).1; linarith, (rad_range h1 h2).2⟩

theorem dist_comm' (a b : Vec) : (b - a).len = (a - b).len := by
  unfold Vec.len
  simp only [sub_x, sub_y, sub_z]
  congr 1
  ring

/-- The cut-off distance depends on the radius only. -/
theorem cutoff_len {m : LeoLoss} {v w : Vec} (h : v.len = w.len) : m.cutoff v = m.cutoff w := by
  simp only [LeoLoss.cutoff, h]

/-- A point at distance `r` from the origin, for examples. -/
def onAxis (r : ℝ) : Vec := ⟨r, 0, 0⟩

theorem len_onAxis {r : ℝ} (h : 0 ≤ r) : (onAxis r).len = r := len_eq h (by simp [onAxis, dot])

theorem len_sub_onAxis {r q : ℝ} (h : r ≤ q) : (onAxis q - onAxis r).len = q - r :=
  len_eq (by linarith) (by simp [onAxis, dot])

/-! ## C44 -/

/-- C44: the received power is the link budget within the cut-off distance of the node farther from the centre of
the Earth, and -1000 dBm beyond. -/
theorem C44_link_budget (m : LeoLoss) (tx : ℝ) (a b far : Vec) (hf : far = a ∨ far = b) (h1 : a.len ≤ far.len)
    (h2 : b.len ≤ far.len) :
    ((b - a).len ≤ m.cutoff far → m.rxPower tx a b = tx - m.atm - m.fspl - m.margin) ∧
    (m.cutoff far < (b - a).len → m.rxPower tx a b = -1000) := by
  have hsat : (if a.len > b.len then a else b).len = far.len := by
    split
    · rename_i h
      rcases hf with rfl | rfl
      · rfl
      · linarith
    · rename_i h
      rcases hf with rfl | rfl
      · push Not at h; exact le_antisymm h2 h
      · rfl
  have hcut := cutoff_len (m := m) hsat
  constructor
  · intro h
    simp only [LeoLoss.rxPower]
    rw [hcut, if_neg (not_lt.mpr h)]
  · intro h
    simp only [LeoLoss.rxPower]
    rw [hcut, if_pos h]

/-- C44: the order of the nodes does not matter. -/
theorem C44_symmetric (m : LeoLoss) (tx : ℝ) (a b : Vec) : m.rxPower tx a b = m.rxPower tx b a := by
  have key : ∀ a b : Vec, a.len ≤ b.len → m.rxPower tx a b = m.rxPower tx b a := by
    intro a b h
    have h1 := C44_link_budget m tx a b b (Or.inr rfl) h le_rfl
    have h2 := C44_link_budget m tx b a b (Or.inl rfl) le_rfl h
    rw [dist_comm' b a] at h2
    rcases le_or_gt (b - a).len (m.cutoff b) with hd | hd
    · rw [h1.1 hd, h2.1 hd]
    · rw [h1.2 hd, h2.2 hd]
  rcases le_total a.len b.len with h | h
  · exact key a b h
  · exact (key b a h).symm

/-- C44 and C45 together, free of the model's own notion of cut-off: for a satellite not below the radius `R` and a
mask within (-90, 90) degrees the link is accepted iff `d^2 + 2 hs d |sin mask| <= hs^2 - R^2`. -/
theorem C44_accepted_iff {e atm fspl mg tx : ℝ} {a b : Vec} (h1 : -90 < e) (h2 : e < 90) (hab : a.len ≤ b.len)
    (hR : propEarthRad ≤ b.len) :
    ((b - a).len ^ 2 + 2 * b.len * (b - a).len * |sin (Spec.rad e)| ≤ b.len ^ 2 - propEarthRad ^ 2 →
      (LeoLoss.create e atm fspl mg).rxPower tx a b = tx - atm - fspl - mg) ∧
    (b.len ^ 2 - propEarthRad ^ 2 < (b - a).len ^ 2 + 2 * b.len * (b - a).len * |sin (Spec.rad e)| →
      (LeoLoss.create e atm fspl mg).rxPower tx a b = -1000) := by
  have hc : 0 < cos (LeoLoss.create e atm fspl mg).angle := cos_rad_pos h1 h2
  have hcut := cutoff_eq (sat := b) hc
  have hroot := cutoff_root (s := |sin (Spec.rad e)|) hR propEarthRad_pos
  have hs0 : 0 ≤ |sin (Spec.rad e)| := abs_nonneg _
  have hb : 0 < b.len := lt_of_lt_of_le propEarthRad_pos hR
  rw [show (LeoLoss.create e atm fspl mg).angle = Spec.rad e from rfl, ← sq_abs (sin (Spec.rad e)), if_neg hroot.1,
    abs_of_nonneg hroot.2.1] at hcut
  have hbudget := C44_link_budget (LeoLoss.create e atm fspl mg) tx a b b (Or.inr rfl) hab le_rfl
  have hle := quad_le_iff hb hs0 (len_nonneg (b - a)) hroot.2.1
  rw [hroot.2.2, ← hcut] at hle
  constructor
  · intro h
    exact hbudget.1 (hle.mpr h)
  · intro h
    exact hbudget.2 (not_le.mp fun h' => absurd (hle.mp h') (not_le.mpr h))

theorem rad_thirty : sin (Spec.rad 30) = 1 / 2 := by
  rw [show Spec.rad 30 = Real.pi / 6 by unfold Spec.rad; ring, sin_pi_div_six]

/-- Both branches occur: with a mask of 30 degrees a satellite 1150 km above a node is heard, a node at the opposite
side of the Earth is not. -/
example : (LeoLoss.create 30 0 180 1).rxPower 98 (onAxis 6371010) (onAxis 7521010) = 98 - 0 - 180 - 1 ∧
    (LeoLoss.create 30 0 180 1).rxPower 98 (onAxis (-6371010)) (onAxis 7521010) = -1000 := by
  have hneg : (onAxis (-6371010)).len = 6371010 := len_eq (by norm_num) (by simp [onAxis, dot])
  constructor
  · apply (C44_accepted_iff (by norm_num) (by norm_num) ?_ ?_).1
    · rw [rad_thirty, len_sub_onAxis (by norm_num), len_onAxis (by norm_num), propEarthRad]
      rw [abs_of_nonneg] <;> norm_num
    · rw [len_onAxis (by norm_num), len_onAxis (by norm_num)]; norm_num
    · rw [len_onAxis (by norm_num), propEarthRad]; norm_num
  · apply (C44_accepted_iff (by norm_num) (by norm_num) ?_ ?_).2
    · rw [rad_thirty, len_sub_onAxis (by norm_num), len_onAxis (by norm_num), propEarthRad]
      rw [abs_of_nonneg] <;> norm_num
    · rw [hneg, len_onAxis (by norm_num)]; norm_num
    · rw [len_onAxis (by norm_num), propEarthRad]; norm_num

/-- The elevation attribute reads back what was set. -/
theorem C44_elevation_round_trip (m : LeoLoss) (x : ℝ) :
    (m.setElevationAngle x).getElevationAngle = x ∧ (m.setElevationAngle x).atm = m.atm ∧
    (m.setElevationAngle x).fspl = m.fspl ∧ (m.setElevationAngle x).margin = m.margin := by
  have := Real.pi_ne_zero
  refine ⟨?_, rfl, rfl, rfl⟩
  simp only [LeoLoss.setElevationAngle, LeoLoss.getElevationAngle]
  field_simp

/-! ## C45 -/

/-- C45: the cut-off distance is the unique non-negative solution of the slant range equation. -/
theorem C45_slant_range {e atm fspl mg : ℝ} {sat : Vec} (h1 : -90 < e) (h2 : e < 90) (hR : propEarthRad ≤ sat.len) (d : ℝ) :
    (LeoLoss.create e atm fspl mg).cutoff sat = d ↔
      0 ≤ d ∧ d ^ 2 + 2 * sat.len * d * |sin (Spec.rad e)| = sat.len ^ 2 - propEarthRad ^ 2 := by
  have hc : 0 < cos (LeoLoss.create e atm fspl mg).angle := cos_rad_pos h1 h2
  have hcut := cutoff_eq (sat := sat) hc
  have hs0 : 0 ≤ |sin (Spec.rad e)| := abs_nonneg _
  have hroot := cutoff_root (s := |sin (Spec.rad e)|) hR propEarthRad_pos
  have hb : 0 < sat.len := lt_of_lt_of_le propEarthRad_pos hR
  rw [show (LeoLoss.create e atm fspl mg).angle = Spec.rad e from rfl, ← sq_abs (sin (Spec.rad e)), if_neg hroot.1,
    abs_of_nonneg hroot.2.1] at hcut
  rw [hcut]
  constructor
  · intro h
    rw [← h]
    exact hroot.2
  · rintro ⟨hd, heq⟩
    have e1 := quad_le_iff hb hs0 hroot.2.1 hd
    have e2 := quad_le_iff hb hs0 hd hroot.2.1
    rw [hroot.2.2, heq] at e1 e2
    exact le_antisymm (e1.mpr le_rfl) (e2.mpr le_rfl)

theorem abs_sin_rad_lt {e1 e2 : ℝ} (h : |e1| < |e2|) (h2 : |e2| < 90) : |sin (Spec.rad e1)| < |sin (Spec.rad e2)| := by
  have key : ∀ e : ℝ, |e| < 90 → |sin (Spec.rad e)| = sin (Spec.rad |e|) := by
    intro e he
    rcases abs_cases e with ⟨h, h'⟩ | ⟨h, h'⟩ <;> rw [h] at he ⊢
    · exact abs_of_nonneg (sin_nonneg_of_nonneg_of_le_pi (by unfold Spec.rad; have := pi_pos; positivity)
        (by have := (rad_range (by linarith) he).2; have := pi_pos; linarith))
    · have : Spec.rad (-e) = - Spec.rad e := by unfold Spec.rad; ring
      rw [this, sin_neg, abs_of_nonpos]
      have h3 : 0 ≤ sin (Spec.rad (-e)) := sin_nonneg_of_nonneg_of_le_pi
        (by unfold Spec.rad; have := pi_pos; exact mul_nonneg (by linarith) (by positivity))
        (by have := (rad_range (by linarith) he).2; have := pi_pos; linarith)
      rw [this, sin_neg] at h3
      linarith
  rw [key e1 (h.trans h2), key e2 h2]
  have a1 := rad_range (e := |e1|) (by have := abs_nonneg e1; linarith) (h.trans h2)
  have a2 := rad_range (e := |e2|) (by have := abs_nonneg e2; linarith) h2
  apply sin_lt_sin_of_lt_of_le_pi_div_two a1.1.le a2.2.le
  unfold Spec.rad
  exact mul_lt_mul_of_pos_right h (by have := pi_pos; positivity)

/-- C45: a steeper mask has a shorter range. -/
theorem C45_decreases_with_mask {e1 e2 atm fspl mg : ℝ} {sat : Vec} (h : |e1| < |e2|) (h2 : |e2| < 90)
    (hR : propEarthRad < sat.len) :
    (LeoLoss.create e2 atm fspl mg).cutoff sat < (LeoLoss.create e1 atm fspl mg).cutoff sat := by
  obtain ⟨p1, q1⟩ := (C45_slant_range (e := e1) (atm := atm) (fspl := fspl) (mg := mg) (by have := abs_lt.mp (h.trans h2); linarith)
    (by have := abs_lt.mp (h.trans h2); linarith) hR.le _).mp rfl
  obtain ⟨p2, q2⟩ := (C45_slant_range (e := e2) (atm := atm) (fspl := fspl) (mg := mg) (by have := abs_lt.mp h2; linarith)
    (by have := abs_lt.mp h2; linarith) hR.le _).mp rfl
  have hs := abs_sin_rad_lt h h2
  set d1 := (LeoLoss.create e1 atm fspl mg).cutoff sat
  set d2 := (LeoLoss.create e2 atm fspl mg).cutoff sat
  by_contra hlt
  push Not at hlt
  have hRp := propEarthRad_pos
  have hb : 0 < sat.len := hRp.trans hR
  have hd2 : 0 < d2 := by
    rcases p2.lt_or_eq with h | h
    · exact h
    · rw [← h] at q2; nlinarith
  have hs1 : 0 ≤ |sin (Spec.rad e1)| := abs_nonneg _
  have c1 : d1 * |sin (Spec.rad e1)| < d2 * |sin (Spec.rad e2)| :=
    lt_of_le_of_lt (mul_le_mul_of_nonneg_right hlt hs1) (mul_lt_mul_of_pos_left hs hd2)
  have c2 := mul_lt_mul_of_pos_left c1 hb
  nlinarith

/-- C45: a higher satellite has a longer range. -/
theorem C45_increases_with_radius {e atm fspl mg : ℝ} {s1 s2 : Vec} (h1 : -90 < e) (h2 : e < 90)
    (hR : propEarthRad ≤ s1.len) (h : s1.len < s2.len) :
    (LeoLoss.create e atm fspl mg).cutoff s1 < (LeoLoss.create e atm fspl mg).cutoff s2 := by
  obtain ⟨p1, q1⟩ := (C45_slant_range (atm := atm) (fspl := fspl) (mg := mg) h1 h2 hR _).mp rfl
  obtain ⟨p2, q2⟩ := (C45_slant_range (atm := atm) (fspl := fspl) (mg := mg) h1 h2 (hR.trans h.le) _).mp rfl
  set d1 := (LeoLoss.create e atm fspl mg).cutoff s1
  set d2 := (LeoLoss.create e atm fspl mg).cutoff s2
  have hRp := propEarthRad_pos
  have hs : 0 ≤ |sin (Spec.rad e)| := abs_nonneg _
  have hs' : |sin (Spec.rad e)| ≤ 1 := abs_sin_le_one _
  set s := |sin (Spec.rad e)|
  have hb : 0 < s1.len := hRp.trans_le hR
  by_contra hlt
  push Not at hlt
  have hd1 : d1 < s1.len := by
    have : 0 ≤ s1.len * d1 * s := by positivity
    nlinarith
  have hds : d1 * s ≤ d1 := by nlinarith
  have c1 : s2.len * (d2 * s) ≤ s2.len * (d1 * s) :=
    mul_le_mul_of_nonneg_left (mul_le_mul_of_nonneg_right hlt hs) (by linarith)
  have c2 : 0 < (s2.len - s1.len) * (s1.len + s2.len - 2 * (d1 * s)) := mul_pos (by linarith) (by linarith)
  nlinarith

example : propEarthRad ≤ (onAxis 7521010).len ∧ (onAxis 7521010).len < (onAxis 7921010).len := by
  rw [len_onAxis (by norm_num), len_onAxis (by norm_num)]
  unfold propEarthRad
  norm_num

/-! ## C46, C47 -/

theorem sinElevation_eq {g sat : Vec} :
    Spec.sinElevation g sat = (sat.len ^ 2 - g.len ^ 2 - (sat - g).len ^ 2) / 2 / (g.len * (sat - g).len) := by
  unfold Spec.sinElevation
  rw [dot_sub_self]

theorem elevation_ge {g sat : Vec} {e : ℝ} (h1 : -90 < e) (h2 : e < 90) (h : sin (Spec.rad e) ≤ Spec.sinElevation g sat) :
    e ≤ Spec.elevation g sat := by
  have hr := rad_range h1 h2
  have := Real.monotone_arcsin h
  rw [Real.arcsin_sin hr.1.le hr.2.le] at this
  unfold Spec.elevation
  have hpi := Real.pi_pos
  have e1 : Spec.rad e * (180 / Real.pi) = e := by unfold Spec.rad; field_simp
  calc e = Spec.rad e * (180 / Real.pi) := e1.symm
    _ ≤ _ := mul_le_mul_of_nonneg_right this (by positivity)

theorem sin_rad_nonneg {e : ℝ} (h0 : 0 ≤ e) (h2 : e < 90) : 0 ≤ sin (Spec.rad e) := by
  have := rad_range (by linarith) h2
  have := Real.pi_pos
  exact sin_nonneg_of_nonneg_of_le_pi (by unfold Spec.rad; positivity) (by linarith)

/-- C46: a link that is accepted has the satellite at or above the elevation mask. -/
theorem C46_accepted_above_mask {e atm fspl mg tx : ℝ} {g sat : Vec} (h0 : 0 ≤ e) (h2 : e < 90) (hg : 0 < g.len)
    (hgR : g.len ≤ propEarthRad) (hs : propEarthRad ≤ sat.len) (hne : sat ≠ g)
    (hacc : (LeoLoss.create e atm fspl mg).rxPower tx g sat ≠ -1000 ∨ (LeoLoss.create e atm fspl mg).rxPower tx sat g ≠ -1000) :
    e ≤ Spec.elevation g sat := by
  have hacc : (LeoLoss.create e atm fspl mg).rxPower tx g sat ≠ -1000 := by
    rcases hacc with h | h
    · exact h
    · rw [C44_symmetric]; exact h
  have hd : 0 < (sat - g).len := len_sub_pos hne
  have hrange : (sat - g).len ^ 2 + 2 * sat.len * (sat - g).len * |sin (Spec.rad e)| ≤ sat.len ^ 2 - propEarthRad ^ 2 := by
    by_contra h
    push Not at h
    exact hacc ((C44_accepted_iff (by linarith) h2 (hgR.trans hs) hs).2 h)
  have hsin := sin_rad_nonneg h0 h2
  rw [abs_of_nonneg hsin] at hrange
  apply elevation_ge (by linarith) h2
  rw [sinElevation_eq, le_div_iff₀ (mul_pos hg hd), le_div_iff₀ (by norm_num)]
  have c1 : g.len * ((sat - g).len * sin (Spec.rad e)) ≤ sat.len * ((sat - g).len * sin (Spec.rad e)) :=
    mul_le_mul_of_nonneg_right (hgR.trans hs) (mul_nonneg hd.le hsin)
  nlinarith

/-- The exact rule for a node on the sphere of radius `R`: the link is accepted iff
`sin (elevation) >= (hs / R) sin (mask)`, that is against a mask that is steeper the higher the satellite. -/
theorem C47_exact_rule {e atm fspl mg tx : ℝ} {g sat : Vec} (h0 : 0 ≤ e) (h2 : e < 90) (hg : g.len = propEarthRad)
    (hs : propEarthRad ≤ sat.len) (hne : sat ≠ g) :
    (sat.len / propEarthRad * sin (Spec.rad e) ≤ Spec.sinElevation g sat →
      (LeoLoss.create e atm fspl mg).rxPower tx g sat = tx - atm - fspl - mg) ∧
    (Spec.sinElevation g sat < sat.len / propEarthRad * sin (Spec.rad e) →
      (LeoLoss.create e atm fspl mg).rxPower tx g sat = -1000) := by
  have hR := propEarthRad_pos
  have hd : 0 < (sat - g).len := len_sub_pos hne
  have hiff := C44_accepted_iff (tx := tx) (atm := atm) (fspl := fspl) (mg := mg) (by linarith) h2 (hg.le.trans hs) hs
  rw [abs_of_nonneg (sin_rad_nonneg h0 h2)] at hiff
  have hkey : sat.len / propEarthRad * sin (Spec.rad e) ≤ Spec.sinElevation g sat ↔
      (sat - g).len ^ 2 + 2 * sat.len * (sat - g).len * sin (Spec.rad e) ≤ sat.len ^ 2 - propEarthRad ^ 2 := by
    rw [sinElevation_eq, hg, le_div_iff₀ (mul_pos hR hd), le_div_iff₀ (by norm_num)]
    have : sat.len / propEarthRad * sin (Spec.rad e) * (propEarthRad * (sat - g).len) * 2 =
        2 * sat.len * (sat - g).len * sin (Spec.rad e) := by field_simp
    rw [this]
    constructor <;> intro h <;> linarith
  exact ⟨fun h => hiff.1 (hkey.mp h), fun h => hiff.2 (not_le.mp fun h' => absurd (hkey.mpr h') (not_le.mpr h))⟩

/-- C47 is false: with a mask of 60 degrees a satellite in the zenith at radius `2 R` is rejected. -/
theorem C47_zenith_rejected :
    ¬ ∀ (e atm fspl mg tx : ℝ) (g sat : Vec), 0 ≤ e → e < 90 → g.len = propEarthRad → propEarthRad ≤ sat.len → sat ≠ g →
      e ≤ Spec.elevation g sat → (LeoLoss.create e atm fspl mg).rxPower tx g sat = tx - atm - fspl - mg := by
  intro hall
  have hR := propEarthRad_pos
  have hg : (onAxis propEarthRad).len = propEarthRad := len_onAxis hR.le
  have hs : (onAxis (2 * propEarthRad)).len = 2 * propEarthRad := len_onAxis (by linarith)
  have hne : onAxis (2 * propEarthRad) ≠ onAxis propEarthRad := by
    intro h
    injection h with h
    linarith
  have hd : (onAxis (2 * propEarthRad) - onAxis propEarthRad).len = propEarthRad := by
    rw [len_sub_onAxis (by linarith)]; ring
  have hsin : Spec.sinElevation (onAxis propEarthRad) (onAxis (2 * propEarthRad)) = 1 := by
    rw [sinElevation_eq, hg, hs, hd]; field_simp; norm_num
  have h60 : 1 / 2 < sin (Spec.rad 60) := by
    rw [show Spec.rad 60 = Real.pi / 3 by unfold Spec.rad; ring, sin_pi_div_three]
    have : (1 : ℝ) < √3 := by rw [Real.lt_sqrt] <;> norm_num
    linarith
  have h1 := hall 60 0 0 0 0 _ _ (by norm_num) (by norm_num) hg (by rw [hs]; linarith) hne
    (elevation_ge (by norm_num) (by norm_num) (by rw [hsin]; exact sin_le_one _))
  have h2 := (C47_exact_rule (e := 60) (atm := 0) (fspl := 0) (mg := 0) (tx := 0) (by norm_num) (by norm_num) hg
    (by rw [hs]; linarith) hne).2 (by
      rw [hsin, hs, mul_div_assoc, div_self hR.ne']; linarith)
  rw [h2] at h1
  norm_num at h1

/-- What holds of C47: the property for the mask 0, and for other masks when `sin (elevation) >= (hs / R) sin (mask)`.
Missing: elevations between the mask and that steeper mask, for which it is false. -/
theorem C47_zero_mask_partial {atm fspl mg tx : ℝ} {g sat : Vec} (hg : g.len = propEarthRad)
    (hs : propEarthRad ≤ sat.len) (hne : sat ≠ g) (hel : 0 ≤ Spec.elevation g sat) :
    (LeoLoss.create 0 atm fspl mg).rxPower tx g sat = tx - atm - fspl - mg := by
  apply (C47_exact_rule le_rfl (by norm_num) hg hs hne).1
  have : Spec.rad 0 = 0 := by simp [Spec.rad]
  rw [this, sin_zero, mul_zero]
  unfold Spec.elevation at hel
  have hpi := Real.pi_pos
  have h1 : 0 ≤ arcsin (Spec.sinElevation g sat) := nonneg_of_mul_nonneg_left hel (by positivity)
  exact Real.arcsin_nonneg.mp h1

/-- A satellite 1150 km above a node is accepted with a mask of 30 degrees. -/
example : 30 ≤ Spec.elevation (onAxis 6371010) (onAxis 7521010) :=
  C46_accepted_above_mask (atm := 0) (fspl := 0) (mg := 0) (tx := 0) (by norm_num) (by norm_num)
    (by rw [len_onAxis (by norm_num)]; norm_num) (by rw [len_onAxis (by norm_num), propEarthRad]; norm_num)
    (by rw [len_onAxis (by norm_num), propEarthRad]; norm_num) (by intro h; injection h with h; norm_num at h)
    (Or.inl (by
      rw [(C44_accepted_iff (by norm_num) (by norm_num) ?_ ?_).1]
      · norm_num
      · rw [rad_thirty, len_sub_onAxis (by norm_num), len_onAxis (by norm_num), propEarthRad]
        rw [abs_of_nonneg] <;> norm_num
      · rw [len_onAxis (by norm_num), len_onAxis (by norm_num)]; norm_num
      · rw [len_onAxis (by norm_num), propEarthRad]; norm_num))

/-! ## C48, C49 -/

theorem obstructed_symm {R : ℝ} {a b : Vec} (h : Spec.Obstructed R a b) : Spec.Obstructed R b a := by
  obtain ⟨t, h1, h2, h3⟩ := h
  refine ⟨1 - t, by linarith, by linarith, ?_⟩
  have : b + smul (1 - t) (a - b) = a + smul t (b - a) := by
    ext <;> simp only [smul, add_x, add_y, add_z, sub_x, sub_y, sub_z] <;> ring
  rw [this]
  exact h3

theorem los_from {a b oc bp : Vec} (h : a.len > b.len ∧ oc = a ∧ bp = b ∨ ¬ a.len > b.len ∧ oc = b ∧ bp = a)
    (hne : bp ≠ oc) (hle : bp.len ≤ oc.len) (hR : islEarthRad ≤ oc.len) :
    islLos a b = true ↔ ¬ Spec.Obstructed islEarthRad oc bp := by
  have hs := len_sub_pos hne
  have hRp := islEarthRad_pos
  rw [los_form h, if_neg hs.ne', losOf_iff hs]
  · apply not_congr
    unfold Spec.Obstructed
    refine exists_congr fun t => and_congr_right fun _ => and_congr_right fun _ => ?_
    have h1 := len_sq oc
    have h2 := len_sq (bp - oc)
    have e1 : dot (oc + smul t (bp - oc)) (oc + smul t (bp - oc)) =
        dot oc oc + 2 * t * dot oc (bp - oc) + t ^ 2 * dot (bp - oc) (bp - oc) := by
      simp only [dot, smul, add_x, add_y, add_z]; ring
    have e2 : (t * (bp - oc).len) ^ 2 - 2 * -(dot oc (bp - oc) / (bp - oc).len) * (t * (bp - oc).len) +
        (oc.len ^ 2 - islEarthRad ^ 2) =
        t ^ 2 * ((bp - oc).len * (bp - oc).len) + 2 * t * dot oc (bp - oc) + oc.len * oc.len - islEarthRad ^ 2 := by
      field_simp; ring
    rw [e2, e1, h1, h2]
    constructor <;> intro h <;> linarith
  · have h1 : dot oc (bp - oc) ≤ 0 := by
      rw [dot_sub_self]
      have := len_nonneg bp
      nlinarith
    have := div_nonpos_of_nonpos_of_nonneg h1 hs.le
    linarith
  · nlinarith

/-- C48: for two distinct satellites, at least one of them not inside the Earth, line of sight is reported exactly
if the segment between them misses the closed Earth ball. -/
theorem C48_line_of_sight {a b : Vec} (hne : a ≠ b) (hR : islEarthRad ≤ a.len ∨ islEarthRad ≤ b.len) :
    islLos a b = true ↔ ¬ Spec.Obstructed islEarthRad a b := by
  by_cases h : a.len > b.len
  · refine los_from (Or.inl ⟨h, rfl, rfl⟩) hne.symm h.le ?_
    rcases hR with h' | h' <;> linarith
  · rw [los_from (Or.inr ⟨h, rfl, rfl⟩) hne (not_lt.mp h) ?_]
    · exact not_congr ⟨obstructed_symm, obstructed_symm⟩
    · push Not at h
      rcases hR with h' | h' <;> linarith

/-- C48: the received power. -/
theorem C48_power {a b : Vec} (tx : ℝ) (hne : a ≠ b) (hR : islEarthRad ≤ a.len ∨ islEarthRad ≤ b.len) :
    (¬ Spec.Obstructed islEarthRad a b → islRxPower tx a b = tx) ∧
    (Spec.Obstructed islEarthRad a b → islRxPower tx a b = -1000) := by
  have h := C48_line_of_sight hne hR
  constructor
  · intro ho
    unfold islRxPower
    rw [h.mpr ho, if_neg (by simp)]
  · intro ho
    unfold islRxPower
    have : islLos a b = false := by
      rcases hl : islLos a b
      · rfl
      · exact absurd ho (h.mp hl)
    rw [if_pos this]

/-- A satellite does not see a node at its own position. -/
theorem C48_coincident (a : Vec) (tx : ℝ) : islLos a a = false ∧ islRxPower tx a a = -1000 := by
  have : islLos a a = false := by
    rw [los_form (Or.inr ⟨lt_irrefl _, rfl, rfl⟩), if_pos]
    exact len_eq le_rfl (by simp [dot])
  exact ⟨this, by unfold islRxPower; rw [if_pos this]⟩

/-- The condition that one satellite is not inside the Earth is needed: two points deep inside the Earth see
each other. -/
theorem C48_inside_sees_through : ∃ a b : Vec, a ≠ b ∧ islLos a b = true ∧ Spec.Obstructed islEarthRad a b := by
  refine ⟨onAxis 2, onAxis 1, by intro h; injection h with h; norm_num at h, ?_, 0, le_rfl, by norm_num, ?_⟩
  · have h1 : (onAxis 1).len = 1 := len_onAxis (by norm_num)
    have h2 : (onAxis 2).len = 2 := len_onAxis (by norm_num)
    have h3 : (onAxis 1 - onAxis 2).len = 1 := len_eq (by norm_num) (by simp [onAxis, dot]; norm_num)
    rw [los_form (Or.inl ⟨by rw [h1, h2]; norm_num, rfl, rfl⟩), h3, if_neg one_ne_zero, h2, dot_sub_self, h1, h2, h3]
    unfold losOf islEarthRad
    have hq : (100 : ℝ) ≤ √((-((1 ^ 2 - 2 ^ 2 - 1 ^ 2) / 2 / 1)) ^ 2 - (2 ^ 2 - (6.371009e6) ^ 2)) := by
      apply Real.le_sqrt_of_sq_le; norm_num
    rw [if_neg (by norm_num), Bool.and_eq_true, decide_eq_true_eq, decide_eq_true_eq]
    constructor
    · rw [abs_of_nonpos (by linarith)]; linarith
    · rw [abs_of_nonneg (by linarith)]; linarith
  · simp only [onAxis, dot, smul, add_x, add_y, add_z, sub_x, sub_y, sub_z, islEarthRad]
    norm_num

/-- C49: line of sight is symmetric, for all positions. -/
theorem C49_symmetric (a b : Vec) (tx : ℝ) : islLos a b = islLos b a ∧ islRxPower tx a b = islRxPower tx b a := by
  have key : islLos a b = islLos b a := by
    rcases lt_trichotomy a.len b.len with h | h | h
    · rw [los_form (a := a) (Or.inr ⟨not_lt.mpr h.le, rfl, rfl⟩), los_form (a := b) (Or.inl ⟨h, rfl, rfl⟩)]
    · rw [los_form (a := a) (Or.inr ⟨not_lt.mpr h.le, rfl, rfl⟩), los_form (a := b) (Or.inr ⟨not_lt.mpr h.ge, rfl, rfl⟩),
        dot_sub_self, dot_sub_self, dist_comm' b a, h]
    · rw [los_form (a := a) (Or.inl ⟨h, rfl, rfl⟩), los_form (a := b) (Or.inr ⟨not_lt.mpr h.le, rfl, rfl⟩)]
  exact ⟨key, by unfold islRxPower; rw [key]⟩

/-- Two satellites at the same side of the Earth see each other, at opposite sides they do not. -/
example : islLos (onAxis 7000000) (onAxis 8000000) = true ∧ islLos (onAxis (-7000000)) (onAxis 8000000) = false := by
  have h8 : (onAxis 8000000).len = 8000000 := len_onAxis (by norm_num)
  constructor
  · refine (C48_line_of_sight (by intro h; injection h with h; norm_num at h) (Or.inr (by rw [h8, islEarthRad]; norm_num))).mpr ?_
    rintro ⟨t, h1, h2, h3⟩
    simp only [onAxis, dot, smul, add_x, add_y, add_z, sub_x, sub_y, sub_z, islEarthRad] at h3
    nlinarith
  · rcases hl : islLos (onAxis (-7000000)) (onAxis 8000000)
    · rfl
    · exfalso
      refine (C48_line_of_sight (by intro h; injection h with h; norm_num at h) (Or.inr (by rw [h8, islEarthRad]; norm_num))).mp hl ?_
      refine ⟨7 / 15, by norm_num, by norm_num, ?_⟩
      simp only [onAxis, dot, smul, add_x, add_y, add_z, sub_x, sub_y, sub_z, islEarthRad]
      norm_num

end Verif
