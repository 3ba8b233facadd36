import Verif.Demo
import Verif.Props.Orbit
import Verif.Props.Propagation
import Verif.Props.Waypoint
import Verif.Model.Parse
import Mathlib.Analysis.Real.Pi.Bounds
/-!
# The repository's unit tests in the model

Not part of the proofs: the unit tests of /repo/test are repeated on the model, which supports that the model is faithful.
Left out are the tests that only run a whole simulation without checking anything (`leo`, `leo-isl`, `leo-trace`,
`leo-anim`), `leo-mobility` and the count of notifications in `leo-orbit` (which C38 covers).
-/

namespace Verif.Tests
open Real

/-- The result of `TransmitStart` after some operations. -/
def result (ops : List Op) (c : ChanId) (slot : Nat) (dest : Addr) : Option Bool :=
  match exec Demo.env Demo.sys ops with
  | .ok s => match chanTransmit Demo.env s c [] slot dest 0 with
    | .ok r => some r.2
    | .fail _ => none
  | .fail _ => none

/-! ## test/isl-mock-channel-test-suite.cc -/

/-- `IslMockChannelTransmitUnknownTestCase`, lines 42-62 (here with a node; the test's device has none). -/
example : result [.attach 1 1] 1 0 (.mac ⟨0xff, 0xff, 0xff, 0xff, 0xff, 0xff⟩) = some true := by decide +kernel

/-- The device of the test has no node: nothing is delivered to it, so this does not matter. -/
example : (match exec Demo.env { Demo.sys with dev := fun d => { Demo.sys.dev d with node := none } } [.attach 1 1] with
    | .ok s => match chanTransmit Demo.env s 1 [] 0 (.mac ⟨0xff, 0xff, 0xff, 0xff, 0xff, 0xff⟩) 0 with
      | .ok r => some r.2
      | .fail _ => none
    | .fail _ => none) = some true := by decide +kernel

/-- `IslMockChannelTransmitKnownTestCase`, lines 70-101. -/
example : result [.attach 1 1, .attach 3 1] 1 0 (.mac (Demo.sys.dev 3).addr) = some true := by decide +kernel

/-! ## test/leo-mock-channel-test-suite.cc -/

/-- `LeoMockChannelTransmitUnknownTestCase`, lines 42-62. -/
example : result [] 0 10000 .other = some false := by decide +kernel

/-- `LeoMockChannelTransmitKnownTestCase`, lines 70-105. -/
example : result [.attach 0 0, .attach 1 0] 0 0 (.mac (Demo.sys.dev 1).addr) = some true := by decide +kernel

/-- `LeoMockChannelTransmitSpaceGroundTestCase`, lines 113-148. -/
example : result [.attach 1 0, .attach 0 0] 0 0 (.mac (Demo.sys.dev 0).addr) = some true := by decide +kernel

/-- `LeoMockChannelTransmitSpaceSpaceTestCase`, lines 156-191. -/
example : result [.attach 1 0, .attach 3 0] 0 0 (.mac (Demo.sys.dev 3).addr) = some false := by decide +kernel

/-- `LeoMockChannelTransmitGroundGroundTestCase`, lines 199-234. -/
example : result [.attach 0 0, .attach 2 0] 0 0 (.mac (Demo.sys.dev 2).addr) = some false := by decide +kernel

/-! ## test/isl-propagation-test-suite.cc -/

/-- `IslPropagationAngleTestCase1`, lines 40-55. -/
example : islLos ⟨6.3781e6 + 1.0e6, 10, 0⟩ ⟨6.3781e6 + 1.0e6, 0, 0⟩ = true := by
  have hne : (⟨6.3781e6 + 1.0e6, 10, 0⟩ : Vec) ≠ ⟨6.3781e6 + 1.0e6, 0, 0⟩ := by intro h; injection h with _ h _; norm_num at h
  have hl : (⟨6.3781e6 + 1.0e6, 0, 0⟩ : Vec).len = 7378100 := len_eq (by norm_num) (by simp [dot]; norm_num)
  rw [C48_line_of_sight hne (Or.inr (by rw [hl, islEarthRad]; norm_num))]
  rintro ⟨s, h0, h1, h2⟩
  simp only [smul, dot, add_x, add_y, add_z, sub_x, sub_y, sub_z, islEarthRad] at h2
  norm_num at h2
  nlinarith [mul_self_nonneg (10 + -(s * 10))]

/-- `IslPropagationAngleTestCase2`, lines 63-78. -/
example : islLos ⟨6.3781e6 + 1.0e6, 0, 0⟩ ⟨-(6.3781e6 + 1.0e6), 0, 0⟩ = false := by
  have hne : (⟨6.3781e6 + 1.0e6, 0, 0⟩ : Vec) ≠ ⟨-(6.3781e6 + 1.0e6), 0, 0⟩ := by intro h; injection h with h _ _; norm_num at h
  have hl : (⟨6.3781e6 + 1.0e6, 0, 0⟩ : Vec).len = 7378100 := len_eq (by norm_num) (by simp [dot]; norm_num)
  have h := C48_line_of_sight hne (Or.inl (by rw [hl, islEarthRad]; norm_num))
  rw [Bool.eq_false_iff, ne_eq, h, not_not]
  refine ⟨1 / 2, by norm_num, by norm_num, ?_⟩
  simp only [smul, dot, add_x, add_y, add_z, sub_x, sub_y, sub_z, islEarthRad]
  norm_num

/-! ## test/leo-propagation-test-suite.cc -/

/-- `LeoPropagationRxNoLosTestCase`, lines 39-57; the other attributes have their defaults. -/
example : (LeoLoss.create 10 0 0 0).rxPower 1 ⟨6.7e6, 0, 0⟩ ⟨-7.0e6, 0, 0⟩ < -500 := by
  have h1 : (⟨6.7e6, 0, 0⟩ : Vec).len = 6700000 := len_eq (by norm_num) (by simp [dot]; norm_num)
  have h2 : (⟨-7.0e6, 0, 0⟩ : Vec).len = 7000000 := len_eq (by norm_num) (by simp [dot]; norm_num)
  have h3 : ((⟨-7.0e6, 0, 0⟩ : Vec) - ⟨6.7e6, 0, 0⟩).len = 13700000 :=
    len_eq (by norm_num) (by simp [dot, sub_x, sub_y, sub_z]; norm_num)
  rw [(C44_accepted_iff (by norm_num) (by norm_num) (by rw [h1, h2]; norm_num) (by rw [h2, propEarthRad]; norm_num)).2]
  · norm_num
  · rw [h2, h3, propEarthRad]
    have := abs_nonneg (sin (Spec.rad 10))
    nlinarith

/-- `LeoPropagationRxLosTestCase`, lines 65-86. -/
example : (LeoLoss.create 10 0 0 0).rxPower 1 ⟨7e6, 0, 0⟩ ⟨7.1e6, 0, 0⟩ = 1 := by
  have h1 : (⟨7e6, 0, 0⟩ : Vec).len = 7000000 := len_eq (by norm_num) (by simp [dot]; norm_num)
  have h2 : (⟨7.1e6, 0, 0⟩ : Vec).len = 7100000 := len_eq (by norm_num) (by simp [dot]; norm_num)
  have h3 : ((⟨7.1e6, 0, 0⟩ : Vec) - ⟨7e6, 0, 0⟩).len = 100000 :=
    len_eq (by norm_num) (by simp [dot, sub_x, sub_y, sub_z]; norm_num)
  rw [(C44_accepted_iff (by norm_num) (by norm_num) (by rw [h1, h2]; norm_num) (by rw [h2, propEarthRad]; norm_num)).1]
  · norm_num
  · rw [h2, h3, propEarthRad]
    have := abs_sin_le_one (Spec.rad 10)
    nlinarith

/-- `LeoPropagationBadAngleTestCase`, lines 94-112.  The idealised tangent of 90 degrees is 0 and not huge; in both cases
the discriminant is negative. -/
example : (LeoLoss.create 90 0 0 0).rxPower 1 ⟨1000000, 0, 0⟩ ⟨1000000, sin (Real.pi / 9) * 1000000, 0⟩ < -500 := by
  have h1 : (⟨1000000, 0, 0⟩ : Vec).len = 1000000 := len_eq (by norm_num) (by simp [dot])
  have hl : ∀ v : Vec, v.len ≤ 2000000 → ∀ d : ℝ, 0 ≤ d → (LeoLoss.create 90 0 0 0).cutoff v < d := by
    intro v hv d hd
    have ha : (LeoLoss.create 90 0 0 0).angle = Real.pi / 2 := by simp only [LeoLoss.create]; ring
    have hn := len_nonneg v
    unfold LeoLoss.cutoff
    simp only [ha, tan_pi_div_two]
    rw [if_pos]
    · linarith
    · simp only [propEarthRad]; nlinarith
  have h2 : (⟨1000000, sin (Real.pi / 9) * 1000000, 0⟩ : Vec).len ≤ 2000000 := by
    unfold Vec.len
    rw [Real.sqrt_le_left (by norm_num)]
    nlinarith [sin_sq_le_one (Real.pi / 9)]
  unfold LeoLoss.rxPower
  simp only
  rw [if_pos]
  · norm_num
  · apply hl _ _ _ (len_nonneg _)
    split
    · rw [h1]; norm_num
    · exact h2

/-- `LeoPropagationLossTestCase`, lines 120-140; the elevation angle has its default. -/
example : (LeoLoss.create 40 0.1 0.1 0.3).rxPower 1 ⟨7e6, 0, 0⟩ ⟨7.1e6, 0, 0⟩ = 0.5 := by
  have h1 : (⟨7e6, 0, 0⟩ : Vec).len = 7000000 := len_eq (by norm_num) (by simp [dot]; norm_num)
  have h2 : (⟨7.1e6, 0, 0⟩ : Vec).len = 7100000 := len_eq (by norm_num) (by simp [dot]; norm_num)
  have h3 : ((⟨7.1e6, 0, 0⟩ : Vec) - ⟨7e6, 0, 0⟩).len = 100000 :=
    len_eq (by norm_num) (by simp [dot, sub_x, sub_y, sub_z]; norm_num)
  rw [(C44_accepted_iff (by norm_num) (by norm_num) (by rw [h1, h2]; norm_num) (by rw [h2, propEarthRad]; norm_num)).1]
  · norm_num
  · rw [h2, h3, propEarthRad]
    have := abs_sin_le_one (Spec.rad 40)
    nlinarith

/-! ## test/leo-orbit-test-suite.cc -/

/-- The model with the attributes the tests set one after the other, at time 0, defaults being 1000 km, 10 degrees, 1 s. -/
noncomputable def sat (junk alt incl : ℝ) : Outcome Sat :=
  Sat.create junk 0 1000 10 1000000000 >>= fun s => (s.setAltitude alt).setInclination incl

/-- `LeoOrbitSpeedTestCase`, lines 42-55. -/
example (junk : ℝ) : ∃ s, sat junk 0 10 = .ok s ∧ ⌊s.orbit.speed⌋ = 7909 := by
  refine ⟨_, by simp [sat, Sat.create, Sat.setInclination]; rfl, ?_⟩
  rw [Int.floor_eq_iff]
  simp only [Sat.update, Sat.setAltitude, Orbit.speed, earthGm, earthRadKm]
  have h1 : (0.0790931 : ℝ) ≤ √(39.8600436 / (6371.0090 + 0)) := Real.le_sqrt_of_sq_le (by norm_num)
  have h2 : √(39.8600436 / (6371.0090 + 0)) ≤ 0.0790999 := Real.sqrt_le_iff.mpr (by norm_num)
  push_cast
  constructor <;> linarith

theorem sat_reachable {junk alt incl : ℝ} {s : Sat} (h : sat junk alt incl = .ok s) (ops : List SatOp) {s' : Sat}
    (h' : s.exec ops = .ok s') : SatReachable s' := by
  unfold sat at h
  rw [Outcome.bind_eq_ok] at h
  obtain ⟨s0, h0, h⟩ := h
  refine ⟨junk, 0, 1000, 10, 1000000000, s0, .setAltitude alt :: .setInclination incl :: ops, h0, ?_⟩
  simp only [Sat.exec, Sat.step, Outcome.bind_eq_ok]
  exact ⟨_, rfl, s, h, h'⟩

/-- `LeoOrbitPositionTestCase`, lines 63-77. -/
example {junk : ℝ} {s : Sat} (h : sat junk 0 1 = .ok s) : s.getPosition.len / 1000 = 6371.0090 := by
  have hr := sat_reachable h [] rfl
  have ha : s.getAltitude = 0 := by
    simp [sat, Sat.create, Sat.setInclination] at h
    subst h
    simp [Sat.getAltitude, Sat.update, Sat.setAltitude]
  rw [C31_on_sphere hr (by rw [ha]; norm_num), ha]
  norm_num

/-- `LeoOrbitProgressTestCase`, lines 85-110: at any time of the first 100 s the distance from the centre is the same, and
the position computed for it has another x coordinate than the first. -/
example (o : Orbit) (hh : o.height = 6371.009) (hi : o.incl = 20 / 180 * Real.pi) (hl : o.lon = 0) (hf : o.off = 0) (u : Time)
    (h0 : 0 < u) (h1 : u ≤ 100000000000) : (o.position u).len / 1000 = 6371.009 ∧ (o.position u).x < (o.position 0).x := by
  have hpi := Real.pi_gt_three
  have hpi4 := Real.pi_lt_four
  have hu0 : (0 : ℝ) < u := by exact_mod_cast h0
  have hu1 : (u : ℝ) ≤ 100000000000 := by exact_mod_cast h1
  have hsp0 : 7909 ≤ o.speed ∧ o.speed ≤ 7910 := by
    unfold Orbit.speed earthGm
    rw [hh]
    have h1 : (0.0790931 : ℝ) ≤ √(39.8600436 / 6371.009) := Real.le_sqrt_of_sq_le (by norm_num)
    have h2 : √(39.8600436 / 6371.009) ≤ 0.0790999 := Real.sqrt_le_iff.mpr (by norm_num)
    constructor <;> linarith
  have hp : ∀ t, o.progress t = o.speed * seconds t / 6371009 := by
    intro t
    unfold Orbit.progress earthRadKm
    rw [if_neg (by rw [hi]; linarith), hf]
    norm_num
  have hsec : 0 < seconds u ∧ seconds u ≤ 100 := by
    unfold seconds
    constructor
    · positivity
    · rw [div_le_iff₀ (by norm_num)]; linarith
  have hpp : 0 < o.progress u ∧ o.progress u < 1 := by
    rw [hp]
    constructor
    · apply div_pos (mul_pos (by linarith [hsp0.1]) hsec.1) (by norm_num)
    · rw [div_lt_one (by norm_num)]; nlinarith
  have hp0 : o.progress 0 = 0 := by rw [hp]; simp [seconds]
  have hlat : 0 < o.latitude u ∧ o.latitude u < 1 := by
    unfold Orbit.latitude
    rw [hl]
    constructor
    · positivity
    · have : (u : ℝ) / 86400000000000 ≤ 1 / 864 := by rw [div_le_iff₀ (by norm_num)]; linarith
      nlinarith
  have hlat0 : o.latitude 0 = 0 := by simp [Orbit.latitude, hl]
  constructor
  · rw [len_eq (r := 6371009) (by norm_num)]
    · norm_num
    · rw [position_eq, hh]
      simp only [dot, smul, axisU, axisW, add_x, add_y, add_z]
      have e1 := sin_sq_add_cos_sq (o.progress u)
      have e2 := sin_sq_add_cos_sq (o.latitude u)
      have e3 := sin_sq_add_cos_sq o.incl
      generalize sin (o.progress u) = a at *
      generalize cos (o.progress u) = b at *
      generalize sin (o.latitude u) = c at *
      generalize cos (o.latitude u) = d at *
      generalize sin o.incl = e at *
      generalize cos o.incl = f at *
      have hc : c ^ 2 = 1 - d ^ 2 := by linarith
      have hb : b ^ 2 = 1 - a ^ 2 := by linarith
      have he : e ^ 2 = 1 - f ^ 2 := by linarith
      ring_nf
      simp only [hb, hc, he]
      ring
  · rw [position_eq, position_eq, hp0, hlat0, hh]
    simp only [smul, axisU, axisW, add_x, cos_zero, sin_zero]
    have hci : 0 < cos o.incl := cos_pos_of_mem_Ioo ⟨by rw [hi]; linarith, by rw [hi]; linarith⟩
    have h1 : cos (o.progress u) < 1 := by
      rw [← cos_zero]; exact cos_lt_cos_of_nonneg_of_le_pi le_rfl (by linarith) hpp.1
    have h2 : 0 < cos (o.progress u) := cos_pos_of_mem_Ioo ⟨by linarith, by linarith⟩
    have h3 := cos_le_one (o.latitude u)
    have h4 : 0 < sin (o.progress u) := sin_pos_of_pos_of_lt_pi hpp.1 (by linarith)
    have h5 : 0 < sin (o.latitude u) := sin_pos_of_pos_of_lt_pi hlat.1 (by linarith)
    have h6 : cos (o.progress u) * (cos o.incl * cos (o.latitude u)) ≤ cos (o.progress u) * cos o.incl := by
      apply mul_le_mul_of_nonneg_left _ h2.le
      nlinarith
    nlinarith [mul_pos h4 h5, mul_lt_mul_of_pos_right h1 hci]

/-- `LeoOrbitLatitudeTestCase`, lines 118-137, and `LeoOrbitOffsetTestCase`, lines 145-164. -/
example {junk : ℝ} {s : Sat} (h : sat junk 1000 20 = .ok s) :
    (s.setPosition ⟨20, 0, 0⟩).getPosition.x ≠ s.getPosition.x ∧ (s.setPosition ⟨0, 20, 0⟩).getPosition.x ≠ s.getPosition.x := by
  have hpi := Real.pi_gt_d2
  have hpi4 := Real.pi_lt_d2
  have hcos : cos 20 < 1 := by
    refine lt_of_le_of_ne (cos_le_one _) fun h => ?_
    rw [Real.cos_eq_one_iff] at h
    obtain ⟨n, hn⟩ := h
    have h1 : (3 : ℝ) < n := by nlinarith
    have h2 : (n : ℝ) < 4 := by nlinarith
    have h1' : 3 < n := by exact_mod_cast h1
    have h2' : n < 4 := by exact_mod_cast h2
    omega
  have hci : 0 < cos (20 / 180 * Real.pi) := cos_pos_of_mem_Ioo ⟨by linarith, by linarith⟩
  simp [sat, Sat.create, Sat.setInclination] at h
  subst h
  have hin : ¬ (20 / 180 * Real.pi > Real.pi / 2) := by linarith
  simp only [Sat.getPosition, Sat.setPosition, Sat.setAltitude, Sat.update, position_eq, Orbit.progress, Orbit.latitude,
    seconds, smul, axisU, axisW, add_x, if_neg hin, earthRadKm]
  norm_num
  constructor <;> nlinarith

/-! ## test/leo-input-fstream-container-test-suite.cc -/

/-- `LeoWaypointFileEmptyTestCase`, lines 55-70. -/
example (fs : Files) (junk : Nat → Int) (n : Nat) (h : fs "empty" = some []) :
    ∃ r, ((WReader.create "empty" 1).drain fs junk (n + 1)) = .ok ([], r) := by
  simp [WReader.drain, WReader.getNext, WReader.create, WReader.openFile, h, WReader.scan]

/-- `LeoWaypointSomeEntriesTestCase`, lines 97-112: any file that is not empty yields a sample. -/
example (fs : Files) (junk : Int) (w : WSample) (c : List WSample) (h : fs "waypoints.txt" = some (w :: c)) :
    ∃ r s, (WReader.create "waypoints.txt" 1).getNext fs junk = .ok (r, some s) := by
  have key : ∀ (l : List WSample) (s : WSample), (WReader.scan 1 junk l s true).1 = true := by
    intro l
    induction l with
    | nil => intro s; unfold WReader.scan; split <;> rfl
    | cons a l ih => intro s; unfold WReader.scan; split; exacts [ih a, rfl]
  have h1 : (WReader.scan 1 junk (w :: c) ⟨0, 0, 0, 0⟩ false).1 = true := by
    rw [WReader.scan, if_pos (by decide)]; exact key c w
  simp only [WReader.getNext, WReader.create, WReader.openFile, h, Option.map_some, Option.isNone_none, if_true]
  split
  · exact ⟨_, _, rfl⟩
  · rename_i h2; rw [h2] at h1; cases h1

/-! ## test/satellite-node-helper-test-suite.cc, test/ground-node-helper-test-suite.cc -/

/-- `EmptySatNodeHelperTestCase`, lines 62-71. -/
example (fs : Files) (junk : Nat → Nat → Int) (r : WReader) : satInstall fs junk r [] = .ok (r, []) := rfl

/-- `SingleSatNodeHelperTestCase`, lines 100-115. -/
example (fs : Files) (junk : Nat → Nat → Int) (r r' : WReader) (l : List (List WSample))
    (h : satInstall fs junk r ["waypoints.txt"] = .ok (r', l)) : l.length = 1 := by
  simp only [satInstall, Outcome.bind_eq_ok] at h
  obtain ⟨a, _, b, hb, h⟩ := h
  injection hb with hb
  injection h with h
  subst hb
  rw [← (Prod.mk.inj h).2]
  rfl

/-- `EmptyGndNodeHelperTestCase`, lines 62-71: the file does not exist. -/
example (junk : Nat → Char) : gndInstallFile junk none = [] := by
  simp [gndInstallFile, readLocations, readLatLong, Stream.open, Stream.getDouble, Stream.sentry, Stream.getChar, Stream.good]

/-- `SomeGndNodeHelperTestCase`, lines 100-111. -/
example : (gndInstallPair ⟨50.1, 10.0⟩ ⟨-70.1, -21.0⟩).length = 2 := rfl

end Verif.Tests
