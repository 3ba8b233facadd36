import Verif.Spec.FreeSpace
import Verif.Model.LinkTable
import Verif.Demo
import Verif.Props.Presets
import Verif.Props.Visibility
import Mathlib.Analysis.Real.Pi.Bounds
/-! # C123: the fixed loss of the presets and the loss in free space -/

namespace Verif
open Spec Real

theorem logb_le_frac {x : ℝ} (hx : 0 < x) {a b : Nat} (hb : 0 < b) (h : x ^ b ≤ 10 ^ a) : logb 10 x ≤ a / b := by
  have hb' : (0 : ℝ) < b := by exact_mod_cast hb
  rw [le_div_iff₀ hb', mul_comm, ← logb_pow, logb_le_iff_le_rpow (by norm_num) (by positivity), rpow_natCast]
  exact h

theorem frac_le_logb {x : ℝ} (hx : 0 < x) {a b : Nat} (hb : 0 < b) (h : 10 ^ a ≤ x ^ b) : (a : ℝ) / b ≤ logb 10 x := by
  have hb' : (0 : ℝ) < b := by exact_mod_cast hb
  rw [div_le_iff₀ hb', mul_comm, ← logb_pow, le_logb_iff_rpow_le (by norm_num) (by positivity), rpow_natCast]
  exact h

/-- Bounds of the loss from bounds of powers. -/
theorem loss_bounds {k : ℝ} (hk : 0 < k) (n : Nat) {a b c d : Nat} (hb : 0 < b) (hd : 0 < d) {l u : ℝ} (h1 : 10 ^ c ≤ (3.14159 * k) ^ d)
    (h2 : (3.1416 * k) ^ b ≤ 10 ^ a) (hl : l ≤ 20 * (n + (c : ℝ) / d)) (hu : 20 * (n + (a : ℝ) / b) ≤ u) :
    l ≤ 20 * logb 10 (10 ^ n * (π * k)) ∧ 20 * logb 10 (10 ^ n * (π * k)) ≤ u := by
  have p1 := Real.pi_gt_d6
  have p2 := Real.pi_lt_d4
  have hp := Real.pi_pos
  have e : logb 10 (10 ^ n * (π * k)) = n + logb 10 (π * k) := by
    rw [logb_mul (by positivity) (by positivity), logb_pow, logb_self_eq_one (by norm_num), mul_one]
  rw [e]
  constructor
  · refine hl.trans ?_
    have := frac_le_logb (x := π * k) (by positivity) hd (h1.trans (pow_le_pow_left₀ (by positivity) (by nlinarith) d))
    linarith
  · refine le_trans ?_ hu
    have := logb_le_frac (x := π * k) (by positivity) hb ((pow_le_pow_left₀ (by positivity) (by nlinarith) b).trans h2)
    linarith

theorem loss_eq {g d : ℝ} (hg : 0 < g) (n : Nat) :
    freeSpaceLoss (g * 10 ^ 9) (d * 1000) = 20 * logb 10 (10 ^ n * (π * (4 * d * 1000 * (g * 10 ^ 9) / 299792458 / 10 ^ n))) := by
  unfold freeSpaceLoss
  congr 2
  field_simp

theorem loss_starlink_gateway : 186.05 ≤ freeSpaceLoss (28.5 * 10 ^ 9) (1684 * 1000) ∧ freeSpaceLoss (28.5 * 10 ^ 9) (1684 * 1000) ≤ 186.1 := by
  rw [loss_eq (by norm_num) 9]
  exact loss_bounds (by norm_num) 9 (a := 7) (b := 23) (c := 10) (d := 33) (by norm_num) (by norm_num) (by norm_num) (by norm_num) (by norm_num)
    (by norm_num)

theorem loss_starlink_user : 179.55 ≤ freeSpaceLoss (13.5 * 10 ^ 9) (1684 * 1000) ∧ freeSpaceLoss (13.5 * 10 ^ 9) (1684 * 1000) ≤ 179.6 := by
  rw [loss_eq (by norm_num) 8]
  exact loss_bounds (by norm_num) 8 (a := 47) (b := 48) (c := 44) (d := 45) (by norm_num) (by norm_num) (by norm_num) (by norm_num) (by norm_num)
    (by norm_num)

theorem loss_telesat_gateway : 189.25 ≤ freeSpaceLoss (28.5 * 10 ^ 9) (2439 * 1000) ∧ freeSpaceLoss (28.5 * 10 ^ 9) (2439 * 1000) ≤ 189.3 := by
  rw [loss_eq (by norm_num) 9]
  exact loss_bounds (by norm_num) 9 (a := 33) (b := 71) (c := 13) (d := 28) (by norm_num) (by norm_num) (by norm_num) (by norm_num) (by norm_num)
    (by norm_num)

theorem loss_telesat_user : 178.55 ≤ freeSpaceLoss (13.5 * 10 ^ 9) (1504 * 1000) ∧ freeSpaceLoss (13.5 * 10 ^ 9) (1504 * 1000) ≤ 178.6 := by
  rw [loss_eq (by norm_num) 8]
  exact loss_bounds (by norm_num) 8 (a := 93) (b := 100) (c := 13) (d := 14) (by norm_num) (by norm_num) (by norm_num) (by norm_num) (by norm_num)
    (by norm_num)

theorem loss_oneweb_gateway : 185.05 ≤ freeSpaceLoss (28.5 * 10 ^ 9) (1504 * 1000) ∧ freeSpaceLoss (28.5 * 10 ^ 9) (1504 * 1000) ≤ 185.1 := by
  rw [loss_eq (by norm_num) 9]
  exact loss_bounds (by norm_num) 9 (a := 13) (b := 51) (c := 15) (d := 59) (by norm_num) (by norm_num) (by norm_num) (by norm_num) (by norm_num)
    (by norm_num)

theorem loss_oneweb_user : 185.5 ≤ freeSpaceLoss (18.5 * 10 ^ 9) (2439 * 1000) ∧ freeSpaceLoss (18.5 * 10 ^ 9) (2439 * 1000) ≤ 185.55 := by
  rw [loss_eq (by norm_num) 9]
  exact loss_bounds (by norm_num) 9 (a := 18) (b := 65) (c := 8) (d := 29) (by norm_num) (by norm_num) (by norm_num) (by norm_num) (by norm_num)
    (by norm_num)

/-- **C123**: in the tables of link constants the free-space loss is the loss in free space at the frequency and distance of the table, rounded
to tenths of a decibel. -/
theorem C123_table {c : LinkConstants} (hc : c ∈ linkConstants) :
    |freeSpaceLoss (c.ghz * 10 ^ 9) (c.km * 1000) - c.fspl| ≤ 0.05 := by
  simp only [linkConstants, List.mem_cons, List.not_mem_nil, or_false] at hc
  rw [abs_le]
  rcases hc with rfl | rfl | rfl | rfl | rfl | rfl
  · have h := loss_starlink_gateway
    push_cast
    constructor <;> linarith [h.1, h.2]
  · have h := loss_starlink_user
    push_cast
    constructor <;> linarith [h.1, h.2]
  · have h := loss_telesat_gateway
    push_cast
    constructor <;> linarith [h.1, h.2]
  · have h := loss_telesat_user
    push_cast
    constructor <;> linarith [h.1, h.2]
  · have h := loss_oneweb_gateway
    push_cast
    constructor <;> linarith [h.1, h.2]
  · have h := loss_oneweb_user
    push_cast
    constructor <;> linarith [h.1, h.2]

/-- The sines of the masks of the presets. -/
theorem sin_masks : 0.34 ≤ |sin (rad 20)| ∧ 0.62 ≤ |sin (rad 40)| ∧ 0.75 ≤ |sin (rad 55)| := by
  have p1 := Real.pi_gt_d4
  have p2 := Real.pi_lt_d4
  have key : ∀ x l u : ℝ, 0 ≤ l → l ≤ x → x ≤ u → u ≤ 1 → l - u ^ 3 / 6 - u ^ 5 / 100 ≤ |sin x| := by
    intro x l u h0 h1 h2 h3
    have hb := (abs_le.mp (Real.sin_bound (x := x) (by rw [abs_of_nonneg (h0.trans h1)]; exact h2.trans h3))).1
    rw [abs_of_nonneg (h0.trans h1)] at hb
    have e3 : x ^ 3 ≤ u ^ 3 := pow_le_pow_left₀ (h0.trans h1) h2 3
    have e5 : x ^ 5 ≤ u ^ 5 := pow_le_pow_left₀ (h0.trans h1) h2 5
    have := le_abs_self (sin x)
    linarith
  refine ⟨?_, ?_, ?_⟩
  · refine le_trans ?_ (key (rad 20) 0.34905 0.3491 (by norm_num) ?_ ?_ (by norm_num)) <;> (try unfold rad) <;> norm_num <;> linarith
  · refine le_trans ?_ (key (rad 40) 0.6981 0.6982 (by norm_num) ?_ ?_ (by norm_num)) <;> (try unfold rad) <;> norm_num <;> linarith
  · refine le_trans ?_ (key (rad 55) 0.9599 0.96 (by norm_num) ?_ ?_ (by norm_num)) <;> (try unfold rad) <;> norm_num <;> linarith

theorem within_of_mask {R r M D s s0 d : ℝ} (hr0 : 0 ≤ r) (hrM : r ≤ M) (hD : 0 ≤ D) (hs : s0 ≤ s) (hs0 : 0 ≤ s0)
    (hM : M * (M - 2 * D * s0) ≤ R ^ 2 + D ^ 2) (hM0 : 0 ≤ M - 2 * D * s0) (h : d ^ 2 + 2 * r * d * s ≤ r ^ 2 - R ^ 2) : d ≤ D := by
  by_contra hd
  rw [not_le] at hd
  have h1 : D ^ 2 < d ^ 2 := by nlinarith
  have h2 : 2 * r * D * s0 ≤ 2 * r * d * s := by
    have : D * s0 ≤ d * s := mul_le_mul hd.le hs hs0 (hD.trans hd.le)
    nlinarith
  have h3 : r * (r - 2 * D * s0) ≤ M * (M - 2 * D * s0) := by
    rcases le_or_gt 0 (r - 2 * D * s0) with h | h
    · exact mul_le_mul hrM (by linarith) h (hr0.trans hrM)
    · have : r * (r - 2 * D * s0) ≤ 0 := mul_nonpos_of_nonneg_of_nonpos hr0 h.le
      have : 0 ≤ M * (M - 2 * D * s0) := mul_nonneg (hr0.trans hrM) hM0
      linarith
  nlinarith

/-- The row of the tables that a preset is named after. -/
theorem preset_row {p : Preset} (hp : p ∈ presets) {c : LinkConstants} (hc : c ∈ linkConstants) (hn : c.name = p.name) :
    c.elev = p.elev ∧ c.fspl = p.fspl ∧ freeSpaceLoss (c.ghz * 10 ^ 9) (c.km * 1000) ≤ p.fspl ∧
      (p.fspl : ℝ) - 0.05 ≤ freeSpaceLoss (c.ghz * 10 ^ 9) (c.km * 1000) ∧ 0 < c.ghz ∧ 0 < c.km ∧ c.km ≤ 2439 ∧
      ∀ r d : ℝ, 0 ≤ r → r ≤ 7696009 → d ^ 2 + 2 * r * d * |sin (rad p.elev)| ≤ r ^ 2 - propEarthRad ^ 2 → d ≤ c.km * 1000 := by
  obtain ⟨s1, s2, s3⟩ := sin_masks
  simp only [presets, List.mem_cons, List.not_mem_nil, or_false] at hp
  simp only [linkConstants, List.mem_cons, List.not_mem_nil, or_false] at hc
  rcases hp with rfl | rfl | rfl | rfl <;> rcases hc with rfl | rfl | rfl | rfl | rfl | rfl <;> first | (exfalso; revert hn; decide) | skip
  · have h := loss_starlink_gateway
    push_cast
    refine ⟨by norm_num, by norm_num, h.2, by linarith [h.1], by norm_num, by norm_num, by norm_num, fun r d h0 h1 h2 => ?_⟩
    exact within_of_mask h0 h1 (by norm_num) s2 (by norm_num) (by rw [propEarthRad]; norm_num) (by norm_num) h2
  · have h := loss_starlink_user
    push_cast
    refine ⟨by norm_num, by norm_num, h.2, by linarith [h.1], by norm_num, by norm_num, by norm_num, fun r d h0 h1 h2 => ?_⟩
    exact within_of_mask h0 h1 (by norm_num) s2 (by norm_num) (by rw [propEarthRad]; norm_num) (by norm_num) h2
  · have h := loss_telesat_gateway
    push_cast
    refine ⟨by norm_num, by norm_num, h.2, by linarith [h.1], by norm_num, by norm_num, by norm_num, fun r d h0 h1 h2 => ?_⟩
    exact within_of_mask h0 h1 (by norm_num) s1 (by norm_num) (by rw [propEarthRad]; norm_num) (by norm_num) h2
  · have h := loss_telesat_user
    push_cast
    refine ⟨by norm_num, by norm_num, h.2, by linarith [h.1], by norm_num, by norm_num, by norm_num, fun r d h0 h1 h2 => ?_⟩
    exact within_of_mask h0 h1 (by norm_num) s3 (by norm_num) (by rw [propEarthRad]; norm_num) (by norm_num) h2

/-- **C123**: the presets use the mask and the free-space loss of the row of the tables they are named after, and there the loss is rounded up. -/
theorem C123_rows {p : Preset} (hp : p ∈ presets) :
    ∃ c ∈ linkConstants, c.name = p.name ∧ c.elev = p.elev ∧ c.fspl = p.fspl ∧ freeSpaceLoss (c.ghz * 10 ^ 9) (c.km * 1000) ≤ p.fspl := by
  have : ∃ c ∈ linkConstants, c.name = p.name := by
    simp only [presets, List.mem_cons, List.not_mem_nil, or_false] at hp
    rcases hp with rfl | rfl | rfl | rfl <;> simp [linkConstants]
  obtain ⟨c, hc, hn⟩ := this
  obtain ⟨a1, a2, a3, _⟩ := preset_row hp hc hn
  exact ⟨c, hc, hn, a1, a2, a3⟩

theorem loss_mono {f d D : ℝ} (hf : 0 < f) (hd : 0 < d) (h : d ≤ D) : freeSpaceLoss f d ≤ freeSpaceLoss f D := by
  have hp := Real.pi_pos
  unfold freeSpaceLoss
  have := (logb_le_logb (b := 10) (x := 4 * π * d / (299792458 / f)) (y := 4 * π * D / (299792458 / f)) (by norm_num) (by positivity)
    (by have := hd.trans_le h; positivity)).mpr (by gcongr)
  linarith

theorem loss_ratio {f d D : ℝ} (hf : 0 < f) (hd : 0 < d) (hD : 0 < D) : freeSpaceLoss f D = freeSpaceLoss f d + 20 * logb 10 (D / d) := by
  have hp := Real.pi_pos
  unfold freeSpaceLoss
  rw [← mul_add, ← logb_mul (by positivity) (by positivity)]
  congr 2
  field_simp

/-- **C123**: a channel installed with a preset never gives a signal more power than free space leaves of it: for all positions of two nodes
of which the higher one is not below the Earth's surface and not higher than the highest of the shipped orbits (1325 km), the power computed for a
link that is accepted is at most the transmit power less the loss in free space over the actual distance, less the other losses of
the preset.  For stations on the ground and satellites from 1000 km on it is at most 8 dB less than that. -/
theorem C123_no_better_than_free_space {p : Preset} (hp : p ∈ presets) {c : LinkConstants} (hc : c ∈ linkConstants) (hn : c.name = p.name)
    {h : LeoChannelHelper} (e : LeoChannelHelper.createNamed p.name = .ok h) {sats gnds : List NodeId} {b b' : Build} {ds : List DevId}
    (hi : h.install sats gnds b = .ok (b', ds)) (hm : b.lastMac + sats.length + gnds.length < 2 ^ 48) :
    ∃ ch conf, (b'.sys.chan ch).link = ds ∧ b'.lossOf ch = some (.leo conf) ∧ ∀ (tx : ℝ) (x y : Vec), x.len ≤ y.len → propEarthRad ≤ y.len →
      y.len ≤ 7696009 → x ≠ y → (LeoLoss.create conf.elev conf.atm conf.fspl conf.margin).rxPower tx x y ≠ -1000 →
        (LeoLoss.create conf.elev conf.atm conf.fspl conf.margin).rxPower tx x y ≤
            tx - freeSpaceLoss (c.ghz * 10 ^ 9) (y - x).len - p.atm - p.margin ∧
        (1000000 ≤ y.len - x.len → tx - freeSpaceLoss (c.ghz * 10 ^ 9) (y - x).len - p.atm - p.margin - 8 ≤
            (LeoLoss.create conf.elev conf.atm conf.fspl conf.margin).rxPower tx x y) := by
  obtain ⟨h1, e1, hins⟩ := C59_preset_installed hp
  rw [e] at e1
  injection e1 with e1
  subst e1
  obtain ⟨b2, ds2, ch, e2, _, hlink, hloss, _⟩ := hins sats gnds b hm
  rw [hi] at e2
  injection e2 with e2
  injection e2 with e2 e3
  subst e2 e3
  obtain ⟨_, _, q1, q2, q3, q4, q5, q6⟩ := preset_row hp hc hn
  refine ⟨ch, _, hlink, hloss, fun tx x y hxy hR hM hne hacc => ?_⟩
  have hel : (-90 : ℝ) < p.elev ∧ (p.elev : ℝ) < 90 := by
    simp only [presets, List.mem_cons, List.not_mem_nil, or_false] at hp
    rcases hp with rfl | rfl | rfl | rfl <;> norm_num
  obtain ⟨a1, a2⟩ := C44_accepted_iff (atm := p.atm) (fspl := p.fspl) (mg := p.margin) (tx := tx) hel.1 hel.2 hxy hR
  have hin : (y - x).len ^ 2 + 2 * y.len * (y - x).len * |sin (rad p.elev)| ≤ y.len ^ 2 - propEarthRad ^ 2 := by
    by_contra hc
    exact hacc (a2 (not_le.mp hc))
  have hd : 0 < (y - x).len := len_sub_pos hne.symm
  have q3' : (0 : ℝ) < c.ghz := by exact_mod_cast q3
  have q4' : (0 : ℝ) < c.km := by exact_mod_cast q4
  have hf : (0 : ℝ) < c.ghz * 10 ^ 9 := by positivity
  have hk : (0 : ℝ) < c.km * 1000 := by positivity
  have hD := q6 y.len (y - x).len (len_nonneg _) hM hin
  rw [a1 hin]
  have hl := loss_mono hf hd hD
  refine ⟨by linarith, fun hal => ?_⟩
  have hge : 1000000 ≤ (y - x).len := by
    have := len_add_le (y - x) x
    rw [show y - x + x = y by ext <;> simp] at this
    linarith
  have hr := loss_ratio hf hd hk
  have hq : logb 10 (c.km * 1000 / (y - x).len) ≤ (39 : Nat) / (100 : Nat) := by
    refine logb_le_frac (by positivity) (by norm_num) ?_
    have : (c.km : ℝ) * 1000 / (y - x).len ≤ 2.439 := by
      rw [div_le_iff₀ hd]
      have : (c.km : ℝ) ≤ 2439 := by exact_mod_cast q5
      nlinarith
    refine (pow_le_pow_left₀ (by positivity) this 100).trans ?_
    norm_num
  have hq' : logb 10 (c.km * 1000 / (y - x).len) ≤ 0.39 := hq.trans (by norm_num)
  generalize logb 10 (c.km * 1000 / (y - x).len) = q at hq' hr
  have h20 : 20 * q ≤ 7.8 := by linarith
  rw [hr] at q2
  clear hl hr
  generalize freeSpaceLoss (c.ghz * 10 ^ 9) (y - x).len = w at q2 ⊢
  have h8 : (p.fspl : ℝ) ≤ w + 8 := by norm_num at q2 h20 ⊢; linarith
  linarith

/-- The hypotheses are met: a gateway of Telesat and a satellite of the programs above it. -/
example : ∃ h b' ds, LeoChannelHelper.createNamed "TelesatGateway" = .ok h ∧ h.install [0] [1] (Build.start Demo.sys) = .ok (b', ds) ∧
    (⟨6371000, 0, 0⟩ : Vec).len = 6371000 ∧ (⟨7571009, 0, 0⟩ : Vec).len = 7571009 ∧
    (LeoLoss.create 20 4.8 189.3 0.36).rxPower 105.9 ⟨6371000, 0, 0⟩ ⟨7571009, 0, 0⟩ ≠ -1000 := by
  have hp : (⟨"TelesatGateway", 105.9, 20, 189.3, 4.8, 0.36, 9857.1, 31.8⟩ : Preset) ∈ presets := by simp [presets]
  obtain ⟨h, e, hi⟩ := C59_preset_installed hp
  obtain ⟨b', ds, _, hb, _⟩ := hi [0] [1] (Build.start Demo.sys) (by decide)
  have hl : ∀ a : ℝ, 0 ≤ a → (⟨a, 0, 0⟩ : Vec).len = a := by
    intro a ha
    simp [Vec.len, Real.sqrt_mul_self ha]
  have l1 := hl 6371000 (by norm_num)
  have l2 := hl 7571009 (by norm_num)
  have l3 : ((⟨7571009, 0, 0⟩ : Vec) - ⟨6371000, 0, 0⟩).len = 1200009 := by
    have : ((⟨7571009, 0, 0⟩ : Vec) - ⟨6371000, 0, 0⟩) = ⟨1200009, 0, 0⟩ := by
      ext
      · show (7571009 : ℝ) - 6371000 = 1200009
        norm_num
      · show (0 : ℝ) - 0 = 0
        norm_num
      · show (0 : ℝ) - 0 = 0
        norm_num
    rw [this, hl _ (by norm_num)]
  refine ⟨h, b', ds, e, hb, l1, l2, ?_⟩
  have := (C44_accepted_iff (e := 20) (atm := 4.8) (fspl := 189.3) (mg := 0.36) (tx := 105.9) (a := ⟨6371000, 0, 0⟩) (b := ⟨7571009, 0, 0⟩)
    (by norm_num) (by norm_num) (by rw [l1, l2]; norm_num) (by rw [l2, propEarthRad]; norm_num)).1
  rw [l2, l3] at this
  rw [this ?_]
  · norm_num
  · have := Real.abs_sin_le_one (rad 20)
    have h2 : |sin (rad 20)| ≤ 0.5 := by
      have h1 := Real.pi_lt_d2
      have h0 := Real.pi_pos
      have := Real.abs_sin_lt_abs (x := rad 20) (by unfold rad; positivity)
      rw [abs_of_pos (a := rad 20) (by unfold rad; positivity)] at this
      unfold rad at *
      linarith
    rw [propEarthRad]
    norm_num
    linarith

end Verif
