import Verif.Spec.RoundedLink
import Verif.Props.Rounded
/-!
# Rounding of powers: C101

Link budgets are sums of a few decimal fractions.  None of these is a `double`, every sum is rounded, and the result
is compared with two thresholds.  Here: this makes a difference only within a billionth of a decibel of the thresholds.
-/

namespace Verif
open Real Verif.Spec

/-! ## Lemmas -/

theorem Spec.Accurate.dev_near {F : Arith} (h : Accurate F) {rx p loss gain : ℝ} (hp : |p| ≤ 4e4) (h1 : |loss| ≤ 1e4) (h2 : |gain| ≤ 1e4)
    (hx : |rx - p| ≤ 2e-10) : |F.devRxPower true loss gain rx - (p - loss + gain)| ≤ 5e-10 := by
  obtain ⟨p1, p2⟩ := abs_le.mp hp
  obtain ⟨q1, q2⟩ := abs_le.mp h1
  obtain ⟨r1, r2⟩ := abs_le.mp h2
  refine h.add_near (e := 3e-10) (f := 0) (M := 6e4) ?_ (by simp) (abs_le.mpr ⟨by linarith, by linarith⟩) (by norm_num) (by norm_num)
  exact h.sub_near (e := 2e-10) (f := 0) (M := 5e4) hx (by simp) (abs_le.mpr ⟨by linarith, by linarith⟩) (by norm_num) (by norm_num)

theorem Spec.Accurate.rnd_near {F : Arith} (h : Accurate F) {x : ℝ} (hx : |x| ≤ 1e3) : |F.rnd x - x| ≤ 2e-12 :=
  (h.rnd x (hx.trans (by norm_num))).trans (by linarith)

theorem Demo.nearest_eq {x : ℝ} {k n : ℤ} (h1 : (2 : ℝ) ^ k ≤ x) (h2 : x < 2 ^ (k + 1)) (h3 : |x * 2 ^ (52 - k) - n| < 1 / 2) :
    Demo.nearest x = n / 2 ^ (52 - k) := by
  have hx : 0 < x := lt_of_lt_of_le (by positivity) h1
  have hl : Int.log 2 |x| = k := by
    rw [abs_of_pos hx]
    refine le_antisymm ?_ ?_
    · rw [← Int.lt_add_one_iff, ← Int.lt_zpow_iff_log_lt (by norm_num) hx]
      exact_mod_cast h2
    · rw [← Int.zpow_le_iff_le_log (by norm_num) hx]
      exact_mod_cast h1
  unfold Demo.nearest
  rw [hl]
  have hr : round (x * 2 ^ (52 - k)) = n := by
    rw [round_eq, Int.floor_eq_iff]
    obtain ⟨a, b⟩ := abs_lt.mp h3
    exact ⟨by linarith, by linarith⟩
  rw [hr]

/-! ## C101 -/

/-- C101: a device with loss and gain decides about a frame as exact arithmetic does, given the power on arrival up to 2e-10 dB,
unless the frame is within 1e-9 dB of a threshold. -/
theorem C101_decided {F : Arith} (h : Accurate F) {rx p loss gain thr : ℝ} (hp : |p| ≤ 4e4) (h1 : |loss| ≤ 1e4) (h2 : |gain| ≤ 1e4)
    (hx : |rx - p| ≤ 2e-10) :
    (Clearly 1e-9 p loss gain thr → F.reception true loss gain thr rx = .heard) ∧
    (ClearlyNot 1e-9 p loss gain thr → F.reception true loss gain thr rx ≠ .heard) := by
  obtain ⟨d1, d2⟩ := abs_le.mp (h.dev_near hp h1 h2 hx)
  obtain ⟨x1, x2⟩ := abs_le.mp hx
  unfold Arith.reception
  constructor
  · rintro ⟨c1, c2⟩
    rw [if_neg (by linarith), if_neg (by linarith)]
  · rintro (c | c)
    · rw [if_pos (by linarith)]; decide
    · split
      · decide
      · rw [if_pos (by linarith)]; decide

/-- C101: a device without loss and gain decides exactly, whatever the arithmetic. -/
theorem C101_isl_device (F : Arith) (loss gain thr rx : ℝ) :
    (F.reception false loss gain thr rx = .heard ↔ -900 ≤ rx ∧ thr ≤ rx) ∧
    (F.reception false loss gain thr rx = .unreachable ↔ rx < -900) := by
  unfold Arith.reception Arith.devRxPower
  by_cases h1 : rx < -900
  · simp [h1]
  · by_cases h2 : rx < thr
    · simp [h1, h2]
    · simp only [h1, h2, Bool.false_eq_true, if_false, true_iff]
      exact ⟨⟨not_lt.mp h1, not_lt.mp h2⟩, by decide⟩

/-- C101: a frame between a station and a satellite is heard if the exact positions and the exact budget say so, and is lost if they
say so, apart from 1 cm of distance and 1e-9 dB of power. -/
theorem C101_ground_space {F : Arith} (h : Accurate F) {e atm fspl mg tx loss gain thr : ℝ} (he : |e| ≤ 60) {a b far : Vec}
    (hf : far = a ∨ far = b) (ha : a.len ≤ far.len) (hb : b.len ≤ far.len) (h1 : 6.471e6 ≤ far.len) (h2 : far.len ≤ 2e7)
    (t1 : |tx| ≤ 1e4) (t2 : |atm| ≤ 1e4) (t3 : |fspl| ≤ 1e4) (t4 : |mg| ≤ 1e4) (t5 : |loss| ≤ 1e4) (t6 : |gain| ≤ 1e4) :
    ((b - a).len ≤ slantRange propEarthRad far.len |sin (rad e)| - 0.01 → Clearly 1e-9 (tx - atm - fspl - mg) loss gain thr →
      F.reception true loss gain thr (F.leoRxPower e atm fspl mg tx a b) = .heard) ∧
    ((b - a).len ≤ slantRange propEarthRad far.len |sin (rad e)| - 0.01 → ClearlyNot 1e-9 (tx - atm - fspl - mg) loss gain thr →
      F.reception true loss gain thr (F.leoRxPower e atm fspl mg tx a b) ≠ .heard) ∧
    (slantRange propEarthRad far.len |sin (rad e)| + 0.01 ≤ (b - a).len →
      F.reception true loss gain thr (F.leoRxPower e atm fspl mg tx a b) = .unreachable) := by
  have hg := C94_ground_space h (atm := atm) (fspl := fspl) (mg := mg) (tx := tx) he hf ha hb h1 h2
  have hp : |tx - atm - fspl - mg| ≤ 4e4 := by
    obtain ⟨p1, p2⟩ := abs_le.mp t1
    obtain ⟨q1, q2⟩ := abs_le.mp t2
    obtain ⟨r1, r2⟩ := abs_le.mp t3
    obtain ⟨s1, s2⟩ := abs_le.mp t4
    exact abs_le.mpr ⟨by linarith, by linarith⟩
  refine ⟨fun k => (C101_decided h hp t5 t6 ((hg.1 k t1 t2 t3 t4).trans (by norm_num))).1,
    fun k => (C101_decided h hp t5 t6 ((hg.1 k t1 t2 t3 t4).trans (by norm_num))).2, fun k => ?_⟩
  rw [hg.2 k]
  unfold Arith.reception
  rw [if_pos (by norm_num)]

/-- C101: the same for a station and a satellite of a constellation at any time, with the satellite's position itself
computed with rounding, apart from 10 cm of distance. -/
theorem C101_constellation {F : Arith} (h : Accurate F) {e atm fspl mg tx loss gain thr : ℝ} (he : |e| ≤ 60) {o : OrbitRec} (ho : Usual F o)
    {p k : Nat} (hp : p < o.planes) (hk : k < o.sats) {t : Time} (ht : t ≤ 1000000000000000) {g g' : Vec} (hg : g.len = 6371000)
    (hg' : Within 2e-6 g' g)
    (t1 : |tx| ≤ 1e4) (t2 : |atm| ≤ 1e4) (t3 : |fspl| ≤ 1e4) (t4 : |mg| ≤ 1e4) (t5 : |loss| ≤ 1e4) (t6 : |gain| ≤ 1e4) :
    ((track o p k (t / 1000000000) - g).len ≤ slantRange propEarthRad (radius o) |sin (rad e)| - 0.1 →
      Clearly 1e-9 (tx - atm - fspl - mg) loss gain thr →
      F.reception true loss gain thr (F.leoRxPower e atm fspl mg tx g' (roundedTrack F o p k t)) = .heard ∧
      F.reception true loss gain thr (F.leoRxPower e atm fspl mg tx (roundedTrack F o p k t) g') = .heard) ∧
    ((track o p k (t / 1000000000) - g).len ≤ slantRange propEarthRad (radius o) |sin (rad e)| - 0.1 →
      ClearlyNot 1e-9 (tx - atm - fspl - mg) loss gain thr →
      F.reception true loss gain thr (F.leoRxPower e atm fspl mg tx g' (roundedTrack F o p k t)) ≠ .heard ∧
      F.reception true loss gain thr (F.leoRxPower e atm fspl mg tx (roundedTrack F o p k t) g') ≠ .heard) ∧
    (slantRange propEarthRad (radius o) |sin (rad e)| + 0.1 ≤ (track o p k (t / 1000000000) - g).len →
      F.reception true loss gain thr (F.leoRxPower e atm fspl mg tx g' (roundedTrack F o p k t)) = .unreachable ∧
      F.reception true loss gain thr (F.leoRxPower e atm fspl mg tx (roundedTrack F o p k t) g') = .unreachable) := by
  have hc := C95_ground_space h (atm := atm) (fspl := fspl) (mg := mg) (tx := tx) he ho hp hk ht hg hg'
  have hb : |tx - atm - fspl - mg| ≤ 4e4 := by
    obtain ⟨p1, p2⟩ := abs_le.mp t1
    obtain ⟨q1, q2⟩ := abs_le.mp t2
    obtain ⟨r1, r2⟩ := abs_le.mp t3
    obtain ⟨s1, s2⟩ := abs_le.mp t4
    exact abs_le.mpr ⟨by linarith, by linarith⟩
  have near : ∀ {x : ℝ}, |x - (tx - atm - fspl - mg)| ≤ 1e-10 → |x - (tx - atm - fspl - mg)| ≤ 2e-10 := fun hx => hx.trans (by norm_num)
  refine ⟨fun hd hm => ?_, fun hd hm => ?_, fun hd => ?_⟩
  · obtain ⟨a1, a2⟩ := hc.1 hd t1 t2 t3 t4
    exact ⟨(C101_decided h hb t5 t6 (near a1)).1 hm, (C101_decided h hb t5 t6 (near a2)).1 hm⟩
  · obtain ⟨a1, a2⟩ := hc.1 hd t1 t2 t3 t4
    exact ⟨(C101_decided h hb t5 t6 (near a1)).2 hm, (C101_decided h hb t5 t6 (near a2)).2 hm⟩
  · obtain ⟨a1, a2⟩ := hc.2 hd
    rw [a1, a2]
    unfold Arith.reception
    rw [if_pos (by norm_num)]
    exact ⟨rfl, rfl⟩

/-- C101: with the table of a preset written in `double`, every frame between a station and a satellite in range (up to 10 cm) is
heard, with the devices' default receive loss of nought and threshold of -1000 dBm; every frame out of range is stopped by the channel. -/
theorem C101_presets {F : Arith} (h : Accurate F) {c : Preset} (hc : c ∈ presets) {o : OrbitRec} (ho : Usual F o)
    {p k : Nat} (hp : p < o.planes) (hk : k < o.sats) {t : Time} (ht : t ≤ 1000000000000000) {g g' : Vec} (hg : g.len = 6371000)
    (hg' : Within 2e-6 g' g) :
    ((track o p k (t / 1000000000) - g).len ≤ slantRange propEarthRad (radius o) |sin (rad c.elev)| - 0.1 →
      F.reception true 0 (F.rnd c.rxGain) (-1000)
        (F.leoRxPower c.elev (F.rnd c.atm) (F.rnd c.fspl) (F.rnd c.margin) (F.rnd c.eirp) g' (roundedTrack F o p k t)) = .heard ∧
      F.reception true 0 (F.rnd c.rxGain) (-1000)
        (F.leoRxPower c.elev (F.rnd c.atm) (F.rnd c.fspl) (F.rnd c.margin) (F.rnd c.eirp) (roundedTrack F o p k t) g') = .heard) ∧
    (slantRange propEarthRad (radius o) |sin (rad c.elev)| + 0.1 ≤ (track o p k (t / 1000000000) - g).len →
      F.reception true 0 (F.rnd c.rxGain) (-1000)
        (F.leoRxPower c.elev (F.rnd c.atm) (F.rnd c.fspl) (F.rnd c.margin) (F.rnd c.eirp) g' (roundedTrack F o p k t)) = .unreachable ∧
      F.reception true 0 (F.rnd c.rxGain) (-1000)
        (F.leoRxPower c.elev (F.rnd c.atm) (F.rnd c.fspl) (F.rnd c.margin) (F.rnd c.eirp) (roundedTrack F o p k t) g') = .unreachable) := by
  have hb : |(c.elev : ℝ)| ≤ 60 ∧ |(c.atm : ℝ)| ≤ 200 ∧ |(c.fspl : ℝ)| ≤ 200 ∧ |(c.margin : ℝ)| ≤ 200 ∧ |(c.eirp : ℝ)| ≤ 200 ∧
      |(c.rxGain : ℝ)| ≤ 200 ∧ (0 : ℝ) ≤ c.rxGain := by
    simp only [presets, List.mem_cons, List.not_mem_nil, or_false] at hc
    rcases hc with rfl | rfl | rfl | rfl <;> norm_num [abs_le]
  obtain ⟨b0, b1, b2, b3, b4, b5, b6⟩ := hb
  have big : ∀ {x : ℝ}, |x| ≤ 200 → -200.1 ≤ F.rnd x ∧ F.rnd x ≤ 200.1 := fun {x} hx => by
    obtain ⟨x1, x2⟩ := abs_le.mp hx
    obtain ⟨y1, y2⟩ := abs_le.mp (h.rnd_near (hx.trans (by norm_num)))
    exact ⟨by linarith, by linarith⟩
  have bnd : ∀ {x : ℝ}, |x| ≤ 200 → |F.rnd x| ≤ 1e4 := fun {x} hx => by
    obtain ⟨x1, x2⟩ := big hx
    exact abs_le.mpr ⟨by linarith, by linarith⟩
  have hc := C101_constellation h (thr := -1000) (loss := 0) b0 ho hp hk ht hg hg' (bnd b4) (bnd b1) (bnd b2) (bnd b3) (by norm_num) (bnd b5)
  obtain ⟨c1, d1⟩ := big b1
  obtain ⟨c2, d2⟩ := big b2
  obtain ⟨c3, d3⟩ := big b3
  obtain ⟨c4, d4⟩ := big b4
  have c5 := h.nonneg _ b6
  exact ⟨fun hd => hc.1 hd ⟨by linarith, by linarith⟩, hc.2.2⟩

/-- C101: two satellites that see each other, by 2 cm at least, hear each other exactly if the transmit power reaches the
threshold; if the Earth is in the way, the channel stops the frame. -/
theorem C101_line_of_sight {F : Arith} (h : Accurate F) (loss gain thr tx : ℝ) {o o' : OrbitRec} (ho : Usual F o) (ho' : Usual F o')
    {p k p' k' : Nat} (hp : p < o.planes) (hk : k < o.sats) (hp' : p' < o'.planes) (hk' : k' < o'.sats) {t t' : Time}
    (ht : t ≤ 1000000000000000) (ht' : t' ≤ 1000000000000000) (h0 : 101 ≤ o.alt) (h0' : 101 ≤ o'.alt)
    (hd : 2 ≤ (track o' p' k' (t' / 1000000000) - track o p k (t / 1000000000)).len) :
    (¬ Obstructed (islEarthRad + 0.02) (track o p k (t / 1000000000)) (track o' p' k' (t' / 1000000000)) →
      (F.reception false loss gain thr (F.islRxPower tx (roundedTrack F o p k t) (roundedTrack F o' p' k' t')) = .heard ↔
        -900 ≤ tx ∧ thr ≤ tx)) ∧
    (Obstructed (islEarthRad - 0.02) (track o p k (t / 1000000000)) (track o' p' k' (t' / 1000000000)) →
      F.reception false loss gain thr (F.islRxPower tx (roundedTrack F o p k t) (roundedTrack F o' p' k' t')) = .unreachable) := by
  have hc := C95_line_of_sight h tx ho ho' hp hk hp' hk' ht ht' h0 h0' hd
  refine ⟨fun hn => ?_, fun hn => ?_⟩
  · rw [hc.1 hn]
    exact (C101_isl_device F loss gain thr tx).1
  · rw [hc.2 hn]
    exact (C101_isl_device F loss gain thr _).2.mpr (by norm_num)

/-- C101: the device of the network model, which computes with fractions, decides as the rounded one does, unless the power is
within 1e-9 dB of the threshold. -/
theorem C101_network {F : Arith} (h : Accurate F) (v : Dev) (rx : Power) (hv : v.leo = true → |rx| ≤ 40000 ∧ |v.rxLoss| ≤ 10000 ∧ |v.rxGain| ≤ 10000)
    (hfar : v.leo = true → 1e-9 ≤ |calcRxPower v rx - v.rxThreshold|) :
    F.devRxPower v.leo v.rxLoss v.rxGain rx < v.rxThreshold ↔ calcRxPower v rx < v.rxThreshold := by
  unfold calcRxPower at *
  cases hl : v.leo with
  | false => simp [Arith.devRxPower]
  | true =>
    simp only [hl, if_true, true_implies] at hv hfar ⊢
    obtain ⟨h1, h2, h3⟩ := hv
    have g1 : |(rx : ℝ)| ≤ 4e4 := by
      have : ((|rx| : ℚ) : ℝ) ≤ ((40000 : ℚ) : ℝ) := by exact_mod_cast h1
      push_cast at this; linarith
    have g2 : |(v.rxLoss : ℝ)| ≤ 1e4 := by
      have : ((|v.rxLoss| : ℚ) : ℝ) ≤ ((10000 : ℚ) : ℝ) := by exact_mod_cast h2
      push_cast at this; linarith
    have g3 : |(v.rxGain : ℝ)| ≤ 1e4 := by
      have : ((|v.rxGain| : ℚ) : ℝ) ≤ ((10000 : ℚ) : ℝ) := by exact_mod_cast h3
      push_cast at this; linarith
    obtain ⟨d1, d2⟩ := abs_le.mp (h.dev_near (rx := rx) g1 g2 g3 (by simp; norm_num))
    have hfar' : (1e-9 : ℝ) ≤ |(rx : ℝ) - v.rxLoss + v.rxGain - v.rxThreshold| := by
      have : (((1e-9 : ℚ)) : ℝ) ≤ ((|rx - v.rxLoss + v.rxGain - v.rxThreshold| : ℚ) : ℝ) := by exact_mod_cast hfar
      push_cast at this
      norm_num at this ⊢
      exact this
    have cast : rx - v.rxLoss + v.rxGain < v.rxThreshold ↔ (rx : ℝ) - v.rxLoss + v.rxGain < v.rxThreshold := by
      rw [← Rat.cast_lt (K := ℝ)]; push_cast; rfl
    rw [cast]
    rcases le_abs.mp hfar' with k | k
    · exact ⟨fun _ => by linarith, fun _ => by linarith⟩
    · exact ⟨fun _ => by linarith, fun _ => by linarith⟩

/-- C101 (the margin is needed): configured with 0.3 dBm on arrival, 0.1 dB receive loss and a threshold of 0.2 dBm, a frame meets the
threshold, but is dropped. -/
theorem C101_at_the_threshold :
    (0.2 : ℝ) ≤ 0.3 - 0.1 + 0 ∧
    Demo.binary53.reception true (Demo.binary53.rnd 0.1) 0 (Demo.binary53.rnd 0.2) (Demo.binary53.rnd 0.3) = .tooWeak := by
  refine ⟨by norm_num, ?_⟩
  have e1 : Demo.binary53.rnd 0.1 = ((7205759403792794 : ℤ) : ℝ) / 2 ^ (52 - (-4) : ℤ) :=
    Demo.nearest_eq (by norm_num) (by norm_num) (by norm_num [abs_lt])
  have e2 : Demo.binary53.rnd 0.2 = ((7205759403792794 : ℤ) : ℝ) / 2 ^ (52 - (-3) : ℤ) :=
    Demo.nearest_eq (by norm_num) (by norm_num) (by norm_num [abs_lt])
  have e3 : Demo.binary53.rnd 0.3 = ((5404319552844595 : ℤ) : ℝ) / 2 ^ (52 - (-2) : ℤ) :=
    Demo.nearest_eq (by norm_num) (by norm_num) (by norm_num [abs_lt])
  have e4 : Demo.binary53.sub (Demo.binary53.rnd 0.3) (Demo.binary53.rnd 0.1) = ((7205759403792793 : ℤ) : ℝ) / 2 ^ (52 - (-3) : ℤ) := by
    rw [e1, e3]
    exact Demo.nearest_eq (by norm_num) (by norm_num) (by norm_num [abs_lt])
  have e5 : Demo.binary53.devRxPower true (Demo.binary53.rnd 0.1) 0 (Demo.binary53.rnd 0.3) = ((7205759403792793 : ℤ) : ℝ) / 2 ^ (52 - (-3) : ℤ) := by
    unfold Arith.devRxPower
    rw [if_pos rfl, e4]
    exact Demo.nearest_eq (by norm_num) (by norm_num) (by norm_num [abs_lt])
  unfold Arith.reception
  rw [e5, e2, e3, if_neg (by norm_num), if_pos (by norm_num)]

/-! ## Examples -/

example : Demo.binary53.reception true 0 (Demo.binary53.rnd 37.7) (-1000)
    (Demo.binary53.leoRxPower 30 0 (Demo.binary53.rnd 179.6) 1 (Demo.binary53.rnd 66.7) (onAxis 6371010) (onAxis 7521010)) = .heard ∧
    Demo.binary53.reception true 0 (Demo.binary53.rnd 37.7) (-100)
    (Demo.binary53.leoRxPower 30 0 (Demo.binary53.rnd 179.6) 1 (Demo.binary53.rnd 66.7) (onAxis 6371010) (onAxis 7521010)) = .heard ∧
    Demo.binary53.reception true 0 (Demo.binary53.rnd 37.7) (-50)
    (Demo.binary53.leoRxPower 30 0 (Demo.binary53.rnd 179.6) 1 (Demo.binary53.rnd 66.7) (onAxis 6371010) (onAxis 7521010)) ≠ .heard := by
  have l1 : (onAxis 7521010).len = 7521010 := len_onAxis (by norm_num)
  have l2 : (onAxis 6371010).len = 6371010 := len_onAxis (by norm_num)
  have hs := slant_thirty
  have near : ∀ {x : ℝ}, |x| ≤ 1e3 → |Demo.binary53.rnd x - x| ≤ 2e-12 := C94_binary53.rnd_near
  obtain ⟨a1, a2⟩ := abs_le.mp (near (x := 37.7) (by norm_num [abs_le]))
  obtain ⟨b1, b2⟩ := abs_le.mp (near (x := 179.6) (by norm_num [abs_le]))
  obtain ⟨c1, c2⟩ := abs_le.mp (near (x := 66.7) (by norm_num [abs_le]))
  have key : ∀ thr : ℝ, _ := fun thr => C101_ground_space C94_binary53 (e := 30) (atm := 0) (fspl := Demo.binary53.rnd 179.6) (mg := 1)
    (tx := Demo.binary53.rnd 66.7) (loss := 0) (gain := Demo.binary53.rnd 37.7) (thr := thr) (by norm_num [abs_le])
    (a := onAxis 6371010) (b := onAxis 7521010) (far := onAxis 7521010) (Or.inr rfl) (by rw [l1, l2]; norm_num) le_rfl
    (by rw [l1]; norm_num) (by rw [l1]; norm_num) (abs_le.mpr ⟨by linarith, by linarith⟩) (by norm_num) (abs_le.mpr ⟨by linarith, by linarith⟩)
    (by norm_num) (by norm_num) (abs_le.mpr ⟨by linarith, by linarith⟩)
  have hd : (onAxis 7521010 - onAxis 6371010).len ≤ slantRange propEarthRad (onAxis 7521010).len |sin (rad 30)| - 0.01 := by
    rw [l1, len_sub_onAxis (by norm_num)]; linarith
  exact ⟨(key (-1000)).1 hd ⟨by linarith, by linarith⟩, (key (-100)).1 hd ⟨by linarith, by linarith⟩,
    (key (-50)).2.1 hd (Or.inr (by linarith))⟩

example (t : Time) (ht : t ≤ 1000000000000000) :
    let F := Demo.binary53
    F.reception true 0 (F.rnd (31.8 : ℚ)) (-1000) (F.leoRxPower ((20 : ℚ) : ℝ) (F.rnd (4.8 : ℚ)) (F.rnd (189.3 : ℚ)) (F.rnd (0.36 : ℚ)) (F.rnd (105.9 : ℚ))
      (smul (6371000 / 7521009) (track Demo.shell 3 7 (t / 1000000000))) (roundedTrack F Demo.shell 3 7 t)) = .heard := by
  intro F
  have hr : radius Demo.shell = 7521009 := by unfold radius Demo.shell; norm_num
  have hl : (track Demo.shell 3 7 (t / 1000000000)).len = 7521009 := by
    rw [← hr]; exact track_len (by norm_num [Demo.shell]) _
  have hg : (smul (6371000 / 7521009) (track Demo.shell 3 7 (t / 1000000000))).len = 6371000 := by
    rw [len_smul', hl, abs_of_pos (by norm_num)]; norm_num
  have d1 : (track Demo.shell 3 7 (t / 1000000000) - smul (6371000 / 7521009) (track Demo.shell 3 7 (t / 1000000000))).len = 1150009 := by
    rw [show track Demo.shell 3 7 (t / 1000000000) - smul (6371000 / 7521009) (track Demo.shell 3 7 (t / 1000000000)) =
        smul (1150009 / 7521009) (track Demo.shell 3 7 (t / 1000000000)) by
      ext <;> simp only [smul, sub_x, sub_y, sub_z] <;> ring, len_smul', hl, abs_of_pos (by norm_num)]
    norm_num
  have hs : |sin (rad ((20 : ℚ) : ℝ))| ≤ 1 / 2 := by
    have hp := Real.pi_pos
    have e : rad ((20 : ℚ) : ℝ) = π / 9 := by unfold rad; push_cast; ring
    rw [e, abs_of_nonneg (sin_nonneg_of_nonneg_of_le_pi (by linarith) (by linarith)), ← sin_pi_div_six]
    exact sin_le_sin_of_le_of_le_pi_div_two (by linarith) (by linarith) (by linarith)
  have hs0 := abs_nonneg (sin (rad ((20 : ℚ) : ℝ)))
  have h := C101_presets C94_binary53 (c := ⟨"TelesatGateway", 105.9, 20, 189.3, 4.8, 0.36, 9857.1, 31.8⟩) (by simp [presets])
    Demo.shell_usual (p := 3) (k := 7) (by decide) (by decide) ht hg
    (g' := smul (6371000 / 7521009) (track Demo.shell 3 7 (t / 1000000000))) ⟨by norm_num, by norm_num, by norm_num⟩
  refine (h.1 ?_).1
  rw [d1, hr]
  dsimp only
  generalize |sin (rad ((20 : ℚ) : ℝ))| = s at *
  unfold slantRange propEarthRad
  have : 7521009 * s + 1200000 ≤ √((7521009 * s) ^ 2 + (7521009 ^ 2 - 6.37101e6 ^ 2)) := Real.le_sqrt_of_sq_le (by nlinarith)
  linarith

example : (Demo.binary53.devRxPower true (1 / 10 : ℚ) (37 : ℚ) (-114 : ℚ) < ((-80 : ℚ) : ℝ) ↔
    calcRxPower { Dev.blank true with rxLoss := 1 / 10, rxGain := 37, rxThreshold := -80 } (-114) < -80) := by
  refine C101_network C94_binary53 { Dev.blank true with rxLoss := 1 / 10, rxGain := 37, rxThreshold := -80 } (-114) (fun _ => ?_) (fun _ => ?_)
  · norm_num [abs_le]
  · norm_num [calcRxPower, show (Dev.blank true).leo = true from rfl, abs_of_pos]

end Verif
