import Verif.Props.Example
import Verif.Lemmas.Coverage
/-!
# Dense constellations serve their stations at every moment (C107)
-/

namespace Verif
open Real Spec

theorem cos_hypotenuse (a b : ℝ) : cos (hypotenuse a b) = cos a * cos b := by
  have h : |cos a * cos b| ≤ 1 := by
    rw [abs_mul]
    exact mul_le_one₀ (Real.abs_cos_le_one _) (abs_nonneg _) (Real.abs_cos_le_one _)
  exact Real.cos_arccos (abs_le.mp h).1 (abs_le.mp h).2

/-- **C107**: at every moment every station up to `δ` beyond the turning points of a constellation of `P` planes with `S`
satellites each has a satellite as near as the hypotenuse of the triangle made of the way to the nearest plane and half the
spacing in the plane. -/
theorem C107_always_near {h i : ℝ} (hh : 0 ≤ h) {P S : Nat} (hP : 0 < P) (hS : 2 ≤ S) {g : Vec} {δ : ℝ} (hδ : 0 ≤ δ)
    (hφ : |latOf g| ≤ tilt i + δ) (t : Time) :
    ∃ p < P, ∃ k < S, (g - Orbit.position ⟨h, i, 2 * Real.pi * p / P, 2 * Real.pi * k / S⟩ t).len ≤
      chord (h * 1000) g.len (hypotenuse (offTrack i P δ) (Real.pi / S)) := by
  obtain ⟨lam, hg⟩ := polar g
  obtain ⟨x, hx⟩ := plane_near hδ (latOf_mem g).1 (latOf_mem g).2 hφ
  obtain ⟨p, hp, m, hm⟩ := nearest_angle hP ((t : ℝ) / 86400000000000 * 2 * Real.pi) (lam + x)
  have hq0 := len_nonneg g
  set lat := Orbit.latitude ⟨h, i, 2 * Real.pi * p / P, 0⟩ t with hlat
  have hε : |lat - lam - (x + m * (2 * Real.pi))| ≤ Real.pi / P := by
    refine le_of_eq_of_le ?_ hm
    congr 1
    rw [hlat]
    simp only [Orbit.latitude]
    ring
  have hν : |dot (axisN i lat) g| ≤ g.len * (δ + |sin i| * (Real.pi / P)) := by
    rw [dot_axisN hg, abs_mul, abs_of_nonneg hq0]
    apply mul_le_mul_of_nonneg_left _ hq0
    have e : cos i * sin (latOf g) - sin i * cos (latOf g) * cos (lat - lam) =
        (cos i * sin (latOf g) - sin i * cos (latOf g) * cos x) + sin i * cos (latOf g) * (cos x - cos (lat - lam)) := by ring
    rw [e]
    refine (abs_add_le _ _).trans (add_le_add hx ?_)
    rw [abs_mul, abs_mul, mul_assoc]
    apply mul_le_mul_of_nonneg_left _ (abs_nonneg _)
    have e2 := Real.abs_cos_sub_cos_le (x + m * (2 * Real.pi)) (lat - lam)
    rw [Real.cos_add_int_mul_two_pi, abs_sub_comm (x + _)] at e2
    calc _ ≤ 1 * |cos x - cos (lat - lam)| := mul_le_mul_of_nonneg_right (Real.abs_cos_le_one _) (abs_nonneg _)
      _ ≤ _ := by rw [one_mul]; exact e2.trans hε
  obtain ⟨k, hk, hd⟩ := nearest_of_plane hh hS t hν
  refine ⟨p, hp, k, hk, ?_⟩
  have hl : (Orbit.position ⟨h, i, 2 * Real.pi * p / P, 2 * Real.pi * k / S⟩ t).len = h * 1000 :=
    len_eq (by positivity) (position_dot _ _)
  unfold chord
  apply Real.le_sqrt_of_sq_le
  rw [dist_sq, hl, cos_hypotenuse, offTrack, Real.cos_arcsin]
  linarith

/-- A station at the pole, three degrees beyond the turning points of an orbit inclined by 87 degrees. -/
example : |latOf ⟨0, 0, 6371009⟩| ≤ tilt (rad 87) + rad 3 ∧ 0 ≤ rad 3 := by
  have hpi := Real.pi_pos
  have hl : Vec.len ⟨0, 0, 6371009⟩ = 6371009 := len_eq (by norm_num) (by simp [dot])
  rw [tilt_rad (by norm_num) (by norm_num)]
  unfold latOf
  rw [hl]
  simp only [ne_eq, OfNat.ofNat_ne_zero, not_false_eq_true, div_self, Real.arcsin_one, rad]
  rw [abs_of_pos (by positivity)]
  constructor <;> [linarith; positivity]

/-- A station midway between two satellites in the plane of both is that far from every satellite of the plane: half the spacing
cannot be improved. -/
theorem C107_spacing_attained {h i l q : ℝ} (hh : 0 ≤ h) (hq : 0 ≤ q) {S : Nat} (hS : 2 ≤ S) (t : Time) :
    ∃ g : Vec, g.len = q ∧ dot (Orbit.norm ⟨h, i, l, 0⟩ t) g = 0 ∧
      ∀ k < S, chord (h * 1000) q (Real.pi / S) ≤ (g - Orbit.position ⟨h, i, l, 2 * Real.pi * k / S⟩ t).len := by
  set u := Orbit.progress ⟨h, i, l, 0⟩ t with hu
  set L := Orbit.latitude ⟨h, i, l, 0⟩ t with hL
  set θ := u + Real.pi / S with hθ
  have hgd : dot (smul q (smul (cos θ) (axisU i L) + smul (sin θ) (axisW L))) (smul q (smul (cos θ) (axisU i L) + smul (sin θ) (axisW L))) = q * q := by
    rw [dot_comb]
    have := sin_sq_add_cos_sq θ
    linear_combination (q * q) * this
  refine ⟨smul q (smul (cos θ) (axisU i L) + smul (sin θ) (axisW L)), len_eq hq hgd, ?_, ?_⟩
  · obtain ⟨_, _, _, _, h1, h2⟩ := axis_dots i L
    rw [norm_eq, ← hL]
    simp only [dot, smul, add_x, add_y, add_z] at h1 h2 ⊢
    linear_combination (q * cos θ) * h1 + (q * sin θ) * h2
  · intro k hk
    have hS' : (0 : ℝ) < S := by exact_mod_cast (by omega : 0 < S)
    have hpi := Real.pi_pos
    have hl : (Orbit.position ⟨h, i, l, 2 * Real.pi * k / S⟩ t).len = h * 1000 := len_eq (by positivity) (position_dot _ _)
    have hlat : Orbit.latitude ⟨h, i, l, 2 * Real.pi * k / S⟩ t = L := rfl
    have hpr : Orbit.progress ⟨h, i, l, 2 * Real.pi * k / S⟩ t = u + 2 * Real.pi * k / S := by
      have := progress_off h i l (2 * Real.pi * k / S) 0 t
      rw [this, sub_zero]
    unfold chord
    rw [Real.sqrt_le_left (len_nonneg _), dist_sq, hl, len_eq hq hgd, position_eq, hlat, hpr]
    have hd : dot (smul (h * 1000) (smul (cos (u + 2 * Real.pi * k / S)) (axisU i L) + smul (sin (u + 2 * Real.pi * k / S)) (axisW L)))
        (smul q (smul (cos θ) (axisU i L) + smul (sin θ) (axisW L))) = h * 1000 * q * cos (Real.pi * (2 * k - 1) / S) := by
      obtain ⟨h1, h2, h3, _⟩ := axis_dots i L
      have e : Real.pi * (2 * k - 1) / S = (u + 2 * Real.pi * k / S) - θ := by rw [hθ]; field_simp; ring
      rw [e, cos_sub]
      simp only [dot, smul, add_x, add_y, add_z] at h1 h2 h3 ⊢
      generalize u + 2 * Real.pi * k / S = w
      linear_combination (h * 1000 * q * cos w * cos θ) * h1 + (h * 1000 * q * sin w * sin θ) * h2 +
        (h * 1000 * q * (cos w * sin θ + sin w * cos θ)) * h3
    rw [hd]
    have hc : cos (Real.pi * (2 * k - 1) / S) ≤ cos (Real.pi / S) := by
      rcases Nat.eq_zero_or_pos k with rfl | hk0
      · refine le_of_eq ?_
        rw [show Real.pi * (2 * ((0 : Nat) : ℝ) - 1) / S = -(Real.pi / S) by push_cast; ring, cos_neg]
      · have k1 : (1 : ℝ) ≤ k := by exact_mod_cast hk0
        have k2 : (k : ℝ) + 1 ≤ S := by exact_mod_cast hk
        by_cases hle : 2 * (k : ℝ) - 1 ≤ S
        · refine Real.cos_le_cos_of_nonneg_of_le_pi (by positivity) ?_ ?_
          · rw [div_le_iff₀ hS']; nlinarith
          · apply div_le_div_of_nonneg_right _ hS'.le; nlinarith
        · rw [← Real.cos_two_pi_sub]
          refine Real.cos_le_cos_of_nonneg_of_le_pi (by positivity) ?_ ?_
          · rw [sub_le_iff_le_add, ← sub_le_iff_le_add', le_div_iff₀ hS']; nlinarith
          · rw [le_sub_iff_add_le, ← add_div, div_le_iff₀ hS']; nlinarith
    nlinarith [mul_nonneg (mul_nonneg hh (by norm_num : (0:ℝ) ≤ 1000)) hq, mul_le_mul_of_nonneg_left hc (mul_nonneg (mul_nonneg hh (by norm_num : (0:ℝ) ≤ 1000)) hq)]

/-- **C107**, for an installed constellation as it runs, with the positions the satellites report: if the slant range covers that
distance, every station in the band has a satellite in range after every update. -/
theorem C107_installed {junk : ℝ} {now : Time} {o : OrbitRec} (hp : 0 < o.planes) (hs : 2 ≤ o.sats)
    (hn : o.planes * o.sats ≤ 2147483647) (hi : o.inc ≠ 0) (ha : 0.0011 ≤ o.alt) {g : Vec} (hg : g.len ≤ radius o)
    {δ : ℝ} (hδ : 0 ≤ δ) (hφ : |latOf g| ≤ tilt (rad o.inc) + δ) {e : ℝ}
    (hr : chord (radius o) g.len (hypotenuse (offTrack (rad o.inc) o.planes δ) (Real.pi / o.sats)) ≤
      slantRange propEarthRad (radius o) |sin (rad e)|) :
    ∃ l, orbitInstall junk now o = .ok l ∧ ∀ n : Nat,
      ∃ s ∈ l, ∃ s', s.exec (List.replicate n .run) = .ok s' ∧ s'.now = now + n * 1000000000 ∧ InSlantRange e g s'.getPosition := by
  obtain ⟨l, h1, _, h2, h3⟩ := C53_one_satellite_per_slot (junk := junk) (now := now) hp (by omega) hn hi
  have h4 : ∀ s ∈ l, s.prec = (1000000000 : Nat) ∧ s.pos = s.orbit.position s.now ∧ s.pending = [s.now + 1000000000] := by
    rw [orbitInstall_eq hp (by omega) (by rw [Nat.mul_comm]; exact hn) (create_eq _ _ _ _ _ hi)] at h1
    injection h1 with h1
    subst h1
    intro s hs
    obtain ⟨i, _, rfl⟩ := List.mem_map.mp hs
    exact ⟨rfl, rfl, rfl⟩
  refine ⟨l, h1, fun n => ?_⟩
  obtain ⟨p, a3, k, a4, a5⟩ := C107_always_near (h := 6371.009 + o.alt) (by linarith) hp hs hδ hφ (now + n * 1000000000)
  obtain ⟨j, ⟨s, hs1, hs2, hs3⟩, _⟩ := h3 p k a3 a4
  have hm := List.mem_of_getElem? hs1
  obtain ⟨q1, q2, q3⟩ := h4 s hm
  obtain ⟨s', r1, r2, r3, _⟩ := sat_runs (by norm_num) q1 q2 q3 n
  have hpi := Real.pi_ne_zero
  obtain ⟨b1, b2, b3, _⟩ := h2 s hm
  rw [b3] at r2
  refine ⟨s, hm, s', r1, r2, ?_⟩
  have e1 : s.orbit = ⟨6371.009 + o.alt, rad o.inc, 2 * Real.pi * p / o.planes, 2 * Real.pi * k / o.sats⟩ := by
    unfold Sat.getAltitude earthRadKm at b1
    unfold Sat.getInclination at b2
    have c1 : s.orbit.height = 6371.009 + o.alt := by linarith
    have c2 : s.orbit.incl = rad o.inc := by unfold rad; rw [← b2]; field_simp
    rw [← c1, ← c2, ← hs2, ← hs3]
  rw [r3, r2, e1]
  set v := Orbit.position ⟨6371.009 + o.alt, rad o.inc, 2 * Real.pi * p / o.planes, 2 * Real.pi * k / o.sats⟩ (now + n * 1000000000)
  have hrad : radius o = (6371.009 + o.alt) * 1000 := rfl
  have hl : v.len = radius o := by rw [hrad]; exact len_eq (by linarith) (position_dot _ _)
  have hmax : max g.len v.len = radius o := by rw [hl]; exact max_eq_right hg
  rw [slant_range_iff (by rw [hmax, hrad, propEarthRad]; linarith), hmax]
  first | exact a5.trans hr | (rw [dist_comm']; exact a5.trans hr)

theorem chord_le {r q γ x : ℝ} (hx : 0 ≤ x) (h : r ^ 2 + q ^ 2 - 2 * r * q * cos γ ≤ x ^ 2) : chord r q γ ≤ x := by
  unfold chord
  rw [Real.sqrt_le_left hx]
  exact h

theorem cos_coverage {ν b c : ℝ} (h0 : -1 ≤ ν) (h1 : ν ≤ 1) (hb : 0 ≤ cos b) (hc : c ≤ (1 - ν ^ 2 / 2 - ν ^ 4 / 2) * cos b) :
    c ≤ cos (hypotenuse (arcsin ν) b) := by
  rw [cos_hypotenuse, Real.cos_arcsin]
  refine hc.trans (mul_le_mul_of_nonneg_right ?_ hb)
  have h2 : 0 ≤ 1 - ν ^ 2 := by nlinarith
  have h3 := sq_nonneg ν
  apply Real.le_sqrt_of_sq_le
  have e : ν ^ 4 = (ν ^ 2) ^ 2 := by ring
  rw [e]
  generalize ν ^ 2 = y at h2 h3 ⊢
  nlinarith [mul_nonneg h3 h2, mul_nonneg h3 (mul_nonneg h3 h2), mul_nonneg h3 (mul_nonneg h3 (mul_nonneg h3 h2)), mul_nonneg h3 h3]

/-- **C107** for the first orbit of data/orbits/starlink.csv and the elevation mask the channel helper sets by default: every
station between 53 degrees north and south, up to 19 km above and 21 km below the mean radius, always has a satellite in range. -/
theorem C107_starlink {junk : ℝ} {now : Time} {g : Vec} (h1 : 6350000 ≤ g.len) (h2 : g.len ≤ 6390000) (hφ : |latOf g| ≤ rad 53) :
    ∃ l, orbitInstall junk now ⟨1150, 53, 32, 50⟩ = .ok l ∧ ∀ n : Nat,
      ∃ s ∈ l, ∃ s', s.exec (List.replicate n .run) = .ok s' ∧ s'.now = now + n * 1000000000 ∧ InSlantRange 40 g s'.getPosition := by
  have hpi0 := Real.pi_pos
  have hpi := Real.pi_lt_d2
  refine C107_installed (δ := 0) (by norm_num) (by norm_num) (by norm_num) (by norm_num) (by norm_num) (by rw [radius]; norm_num; linarith)
    le_rfl (by rw [tilt_rad (by norm_num) (by norm_num), add_zero]; exact hφ) ?_
  refine (chord_le (x := 1410000) (by norm_num) ?_).trans ?_
  · have hs : |sin (rad 53)| ≤ 0.86603 := by
      have h53 : rad 53 ≤ Real.pi / 3 := by unfold rad; linarith
      have h53' : 0 ≤ rad 53 := by unfold rad; positivity
      rw [abs_of_nonneg (sin_nonneg_of_nonneg_of_le_pi h53' (by linarith))]
      have := sin_le_sin_of_le_of_le_pi_div_two (by linarith) (by linarith) h53
      rw [Real.sin_pi_div_three] at this
      have h2 : √3 ≤ 1.73206 := by rw [Real.sqrt_le_left] <;> norm_num
      linarith
    have hs0 := abs_nonneg (sin (rad 53))
    have hc := Real.one_sub_sq_div_two_le_cos (x := Real.pi / (50 : Nat))
    have hb : (Real.pi / (50 : Nat)) ^ 2 ≤ 0.00397 := by
      push_cast
      have : Real.pi / 50 ≤ 0.063 := by linarith
      have h0 : 0 ≤ Real.pi / 50 := by positivity
      nlinarith
    have hn0 : 0 ≤ |sin (rad 53)| * (Real.pi / (32 : Nat)) := by positivity
    have hn1 : |sin (rad 53)| * (Real.pi / (32 : Nat)) ≤ 0.0853 := by
      have h3 : Real.pi / (32 : Nat) ≤ 0.0985 := by push_cast; linarith
      have h4 : 0 ≤ Real.pi / (32 : Nat) := by positivity
      nlinarith
    have hcov : (0.9942 : ℝ) ≤ cos (hypotenuse (offTrack (rad 53) 32 0) (Real.pi / (50 : Nat))) := by
      unfold offTrack
      rw [zero_add]
      refine cos_coverage (by linarith) (by linarith) (by linarith) ?_
      generalize |sin (rad 53)| * (Real.pi / (32 : Nat)) = ν at hn0 hn1 ⊢
      have h5 : ν ^ 2 ≤ 0.00728 := by nlinarith
      have h7 : ν ^ 4 ≤ 0.000054 := by nlinarith [sq_nonneg ν]
      have h6 := Real.cos_le_one (Real.pi / (50 : Nat))
      nlinarith
    simp only
    generalize cos (hypotenuse (offTrack (rad 53) 32 0) (Real.pi / (50 : Nat))) = c at hcov ⊢
    rw [radius]
    have : 2 * ((6371.009 + 1150) * 1000) * g.len * 0.9942 ≤ 2 * ((6371.009 + 1150) * 1000) * g.len * c :=
      mul_le_mul_of_nonneg_left hcov (by linarith)
    simp only at this ⊢
    nlinarith
  · have hs : |sin (rad 40)| ≤ 0.656 := by
      have hpi' := Real.pi_gt_d2
      have hpi'' := Real.pi_lt_d4
      have e : rad 40 = 2 * Real.pi / 9 := by unfold rad; ring
      have u0 : 0.69777 ≤ rad 40 := by rw [e]; linarith
      have u1 : rad 40 ≤ 0.69815 := by rw [e]; linarith
      rw [abs_of_nonneg (sin_nonneg_of_nonneg_of_le_pi (by linarith) (by linarith))]
      have hb := Real.sin_bound (x := rad 40) (by rw [abs_of_nonneg (by linarith)]; linarith)
      rw [abs_of_nonneg (a := rad 40) (by linarith)] at hb
      have hb := (abs_le.mp hb).2
      have p3 : 0.69777 ^ 3 ≤ rad 40 ^ 3 := pow_le_pow_left₀ (by norm_num) u0 3
      have p4 : rad 40 ^ 5 ≤ 0.69815 ^ 5 := pow_le_pow_left₀ (by linarith) u1 5
      norm_num at p3 p4 u1 ⊢
      linarith
    rw [radius, ← slant_dist (by norm_num) (abs_nonneg _) (by norm_num) (by rw [propEarthRad]; norm_num), propEarthRad]
    norm_num at hs ⊢
    linarith

/-- A station at the equator meets the hypotheses. -/
example : ∃ g : Vec, 6350000 ≤ g.len ∧ g.len ≤ 6390000 ∧ |latOf g| ≤ rad 53 := by
  have hl : Vec.len ⟨6371009, 0, 0⟩ = 6371009 := len_eq (by norm_num) (by simp [dot])
  refine ⟨⟨6371009, 0, 0⟩, by rw [hl]; norm_num, by rw [hl]; norm_num, ?_⟩
  unfold latOf rad
  have := Real.pi_pos
  simp
  positivity

/-- **C107** for the networks of the example programs: whenever it is, the positions reported at that time put some satellite within
range of the station, if the slant range leaves room for how far a satellite moves between two updates. -/
theorem C107_example {a : ExampleArgs} {X : ExampleNet} {K : Sky} (hK : SkyOf a X K) (ho : ∀ o ∈ a.orbits, Installable o)
    {o : OrbitRec} (hmem : o ∈ a.orbits) (hs : 2 ≤ o.sats) (halt : 0.001 ≤ o.alt)
    {j : Nat} {g : Vec} (hg : X.ground[j]? = some (some g)) (hgl : g.len ≤ radius o) {δ : ℝ} (hδ : 0 ≤ δ)
    (hlat : |latOf g| ≤ tilt (rad o.inc) + δ) {e : ℝ}
    (hr : chord (radius o) g.len (hypotenuse (offTrack (rad o.inc) o.planes δ) (Real.pi / o.sats)) +
        radius o * (orbitSpeed o / 6371009 + 2 * Real.pi / 86400) * (a.prec.toNat / 1000000000) ≤
      slantRange propEarthRad (radius o) |sin (rad e)|) (t : Time) :
    ∃ i : Nat, ∃ f f', i < (places a.orbits).length ∧ K.pos i = some f ∧ K.pos ((places a.orbits).length + j) = some f' ∧
      InSlantRange e (f' t) (f t) := by
  obtain ⟨i1, i2, i3, i4, i5⟩ := ho o hmem
  have hpi := Real.pi_pos
  obtain ⟨p, a3, k, a4, a5⟩ := C107_always_near (h := 6371.009 + o.alt) (by linarith) i1 hs hδ hlat t
  have hpl : (o, p, k) ∈ places a.orbits := by
    simp only [places, List.mem_flatMap, List.mem_map, List.mem_range]
    exact ⟨o, hmem, p, a3, k, a4, rfl⟩
  obtain ⟨i, hi, he⟩ := List.mem_iff_getElem.mp hpl
  obtain ⟨f, hf, hrep⟩ := hK.sat i o p k (by rw [List.getElem?_eq_getElem hi, he])
  obtain ⟨u, hu, hfu⟩ := hrep t
  refine ⟨i, f, _, hi, hf, hK.gnd j g hg, ?_⟩
  set b : Orbit := ⟨6371.009 + o.alt, rad o.inc, 2 * Real.pi * p / o.planes, 2 * Real.pi * k / o.sats⟩ with hb
  have hob : orbitOf (o, p, k) = b := by
    have : o.inc / 180 * Real.pi = rad o.inc := by unfold rad; ring
    simp only [orbitOf, earthRadKm, this, hb]
    norm_num
  have hpos : f t = b.position u := by
    rw [hfu, ← track_eq (x := (o, p, k)) i5, hob]
  have hrad : radius o = (6371.009 + o.alt) * 1000 := rfl
  have hl : (f t).len = radius o := by rw [hfu]; exact track_len i5.le _
  have hmax : max g.len (f t).len = radius o := by rw [hl]; exact max_eq_right hgl
  rw [slant_range_iff (by rw [hmax, hrad, propEarthRad]; linarith), hmax]
  refine le_trans ?_ hr
  have hmove := C86_rate (o := b) (by rw [hb]; linarith) t u
  have hsp : b.speed = orbitSpeed o := by rw [← hob]; exact orbitOf_speed (x := (o, p, k)) i5
  have hgap : |seconds t - seconds u| ≤ (a.prec.toNat : ℝ) / 1000000000 := by
    have e1 : seconds t - seconds u = ((t : ℝ) - u) / 1000000000 := by unfold seconds; ring
    rw [e1, abs_div, abs_of_nonneg (a := (1000000000 : ℝ)) (by norm_num)]
    apply div_le_div_of_nonneg_right _ (by norm_num)
    unfold Reported at hu
    split at hu
    · subst hu; simp
    · obtain ⟨_, h1, h2⟩ := hu
      have h1' : (u : ℝ) ≤ t := by exact_mod_cast h1
      have h2' : (t : ℝ) ≤ u + a.prec.toNat := by exact_mod_cast h2
      rw [abs_of_nonneg (by linarith)]
      linarith
  rw [hsp] at hmove
  have hos : 0 ≤ orbitSpeed o := by unfold orbitSpeed; positivity
  have hmove' : (b.position t - b.position u).len ≤ radius o * (orbitSpeed o / 6371009 + 2 * Real.pi / 86400) * (a.prec.toNat / 1000000000) :=
    hmove.trans (mul_le_mul_of_nonneg_left hgap (mul_nonneg (by rw [hb]; linarith) (by positivity)))
  have htri : (g - f t).len ≤ (g - b.position t).len + (b.position t - b.position u).len := by
    rw [hpos]
    refine le_of_eq_of_le ?_ (len_add_le _ _)
    congr 1
    ext <;> simp
  first | exact htri.trans (add_le_add a5 hmove') | (rw [dist_comm']; exact htri.trans (add_le_add a5 hmove'))

theorem default_chord_le : chord (radius ⟨1200, 20, 32, 16⟩) 6371000 (hypotenuse (offTrack (rad 20) 32 0) (Real.pi / (16 : Nat))) ≤ 1980000 := by
  have hpi0 := Real.pi_pos
  have hpi := Real.pi_lt_d2
  obtain ⟨h1, h2⟩ := sin_twenty
  have hc := Real.one_sub_sq_div_two_le_cos (x := Real.pi / (16 : Nat))
  have hb : (Real.pi / (16 : Nat)) ^ 2 ≤ 0.03877 := by
    push_cast
    have : Real.pi / 16 ≤ 0.1969 := by linarith
    have h0 : 0 ≤ Real.pi / 16 := by positivity
    nlinarith
  have hs : |sin (rad 20)| ≤ 0.35 := by rw [abs_of_nonneg (by linarith)]; exact h2
  have hs0 := abs_nonneg (sin (rad 20))
  have hn0 : 0 ≤ |sin (rad 20)| * (Real.pi / (32 : Nat)) := by positivity
  have hn1 : |sin (rad 20)| * (Real.pi / (32 : Nat)) ≤ 0.0345 := by
    have h3 : Real.pi / (32 : Nat) ≤ 0.0985 := by push_cast; linarith
    have h4 : 0 ≤ Real.pi / (32 : Nat) := by positivity
    nlinarith
  have hcov : (0.98 : ℝ) ≤ cos (hypotenuse (offTrack (rad 20) 32 0) (Real.pi / (16 : Nat))) := by
    unfold offTrack
    rw [zero_add]
    refine cos_coverage (by linarith) (by linarith) (by linarith) ?_
    generalize |sin (rad 20)| * (Real.pi / (32 : Nat)) = ν at hn0 hn1 ⊢
    have h5 : ν ^ 2 ≤ 0.0012 := by nlinarith
    have h7 : ν ^ 4 ≤ 0.0000015 := by nlinarith [sq_nonneg ν]
    have h6 := Real.cos_le_one (Real.pi / (16 : Nat))
    nlinarith
  refine chord_le (by norm_num) ?_
  generalize cos (hypotenuse (offTrack (rad 20) 32 0) (Real.pi / (16 : Nat))) = c at hcov ⊢
  rw [radius]
  norm_num at hcov ⊢
  linarith

theorem default_gap : chord (radius ⟨1200, 20, 32, 16⟩) 6371000 (hypotenuse (offTrack (rad 20) 32 0) (Real.pi / (16 : Nat))) +
    radius ⟨1200, 20, 32, 16⟩ * (orbitSpeed ⟨1200, 20, 32, 16⟩ / 6371009 + 2 * Real.pi / 86400) * (((1000000000 : Nat) : ℝ) / 1000000000) ≤ 2000000 := by
  have hpi := Real.pi_lt_d2
  have hspeed : orbitSpeed ⟨1200, 20, 32, 16⟩ ≤ 8000 := by
    unfold orbitSpeed
    rw [radius, Real.sqrt_le_left (by norm_num)]
    norm_num
  have hch := default_chord_le
  have hmv : radius ⟨1200, 20, 32, 16⟩ * (orbitSpeed ⟨1200, 20, 32, 16⟩ / 6371009 + 2 * Real.pi / 86400) * (((1000000000 : Nat) : ℝ) / 1000000000) ≤ 20000 := by
    rw [radius]
    push_cast
    norm_num
    have : orbitSpeed ⟨1200, 20, 32, 16⟩ / 6371009 ≤ 0.00126 := by rw [div_le_iff₀ (by norm_num)]; norm_num; linarith
    norm_num at this
    linarith
  linarith

/-- **C107**: without options both users always have a satellite in range. -/
theorem C107_default_users {isl : Bool} {junk : ℝ} {s : Sys} {X : ExampleNet} (h : exampleMain junk (defaultArgs isl) s = .ok X) {K : Sky}
    (hK : SkyOf (defaultArgs isl) X K) {user : Nat} (hu : user = 632 + 400 ∨ user = 632 + 401) (t : Time) :
    ∃ i : Nat, ∃ f g, i < 632 ∧ K.pos i = some f ∧ K.pos user = some g ∧ InSlantRange 20 (g t) (f t) := by
  obtain ⟨Y, e, _, _, hg1, hg2, _⟩ := C91_builds junk (a := defaultArgs isl) (p := ⟨"TelesatGateway", 105.9, 20, 189.3, 4.8, 0.36, 9857.1, 31.8⟩)
    (by simp [presets]) rfl (fun o ho => (default_installable isl o ho).1) (by rw [default_count]; simp [defaultArgs]) s
  rw [h] at e
  injection e with e
  subst e
  have hser : ∀ j lat lon, X.ground[j]? = some (some (location lat lon)) → -20 ≤ lat → lat ≤ 20 →
      ∃ i : Nat, ∃ f g, i < 632 ∧ K.pos i = some f ∧ K.pos (632 + j) = some g ∧ InSlantRange 20 (g t) (f t) := by
    intro j lat lon hj l1 l2
    have hprec : (defaultArgs isl).prec.toNat = 1000000000 := rfl
    obtain ⟨i, f, g, a3, a4, a5, a6⟩ := C107_example hK (fun o ho => (default_installable isl o ho).1) (o := ⟨1200, 20, 32, 16⟩)
      (by simp [defaultArgs]) (by norm_num) (by norm_num) hj (by rw [location_len, radius]; norm_num) le_rfl
      (by
        rw [location_lat (by linarith) (by linarith), tilt_rad (by norm_num) (by norm_num), abs_le, add_zero]
        exact rad_mem l1 l2)
      (e := 20) (by rw [location_len, hprec]; exact default_gap.trans default_range) t
    rw [default_count] at a3 a5
    exact ⟨i, f, g, a3, a4, a5, a6⟩
  have e400 : (defaultArgs isl).lonGws * (defaultArgs isl).latGws % 2 ^ 32 = 400 := rfl
  rw [e400] at hg1 hg2
  rcases hu with rfl | rfl
  · exact hser _ _ _ hg1 (by norm_num [defaultArgs]) (by norm_num [defaultArgs])
  · exact hser _ _ _ hg2 (by norm_num [defaultArgs]) (by norm_num [defaultArgs])

/-- **C107**: without options, whenever nothing is in flight, a packet broadcast by one of the users is received by at least one satellite,
whatever was sent before. -/
theorem C107_default_packet {isl : Bool} {junk : ℝ} {s : Sys} (h0 : Initial s) {X : ExampleNet}
    (h : exampleMain junk (defaultArgs isl) s = .ok X) {K : Sky} (hK : SkyOf (defaultArgs isl) X K) {E : Env} (hE : ErrorFree E)
    {ops : List Op} (ht : ∀ op ∈ ops, PlainTraffic op) {s1 : Sys} (hx : exec (K.env E) X.build.sys ops = .ok s1) (hq : s1.pending = [])
    {user : Nat} (hu : user = 632 + 400 ∨ user = 632 + 401) {q : Bytes} (hlen : q.length ≤ 1492) {proto : UInt16} :
    ∃ n s2, exec (K.env E) s1 (.send user q (.mac Mac48.broadcast) proto :: List.replicate n .run) = .ok s2 ∧ s2.pending = [] ∧
      ∃ i < 632, upcallLog i s2.log = upcallLog i s1.log ++ [(q, proto, Mac48.ofNat (user + 1))] := by
  have hp : (⟨"TelesatGateway", 105.9, 20, 189.3, 4.8, 0.36, 9857.1, 31.8⟩ : Preset) ∈ presets := by simp [presets]
  obtain ⟨Y, e, _, hgr, _⟩ := C91_builds junk (a := defaultArgs isl) hp rfl (fun o ho => (default_installable isl o ho).1)
    (by rw [default_count]; simp [defaultArgs]) s
  rw [h] at e
  injection e with e
  subst e
  have hG' : X.ground.length = 402 := hgr
  obtain ⟨i, f, g, hi, hf, hg, hr⟩ := C107_default_users h hK hu s1.now
  obtain ⟨n, s2, r1, r2, r3⟩ := C91_ground_space_packet hp rfl (fun o ho => (default_installable isl o ho).1)
    (fun o ho => (default_installable isl o ho).2) (by rw [default_count]; simp [defaultArgs]) h0 h hK hE ht hx hq
    (j := user) (by rw [default_count, hG']; omega) hlen (proto := proto) (m := Mac48.broadcast)
  refine ⟨n, s2, r1, r2, i, hi, ?_⟩
  rw [r3 i, if_pos]
  rw [default_count]
  exact ⟨by omega, Or.inr ⟨by omega, hi⟩, Or.inl rfl, g, f, hg, hf, hr⟩

/-- The network exists, and nothing is in flight at its start: the hypotheses are met, however long one waits. -/
example (dt : Time) : ∃ X K s1 s2, ∃ i : Nat, exampleMain 0 (defaultArgs true) Demo.sys = .ok X ∧ SkyOf (defaultArgs true) X K ∧
    exec (K.env Demo.env) X.build.sys [.wait dt] = .ok s1 ∧ i < 632 ∧
    (∃ m, exec (K.env Demo.env) s1 (.send (632 + 401) [1, 2, 3] (.mac Mac48.broadcast) 0x800 :: List.replicate m .run) = .ok s2) ∧
    upcallLog i s2.log = upcallLog i s1.log ++ [([1, 2, 3], 0x800, Mac48.ofNat (632 + 401 + 1))] := by
  have hp : (⟨"TelesatGateway", 105.9, 20, 189.3, 4.8, 0.36, 9857.1, 31.8⟩ : Preset) ∈ presets := by simp [presets]
  have hi := fun o ho => (default_installable true o ho).1
  have hm : 2 * (places (defaultArgs true).orbits).length + (defaultArgs true).lonGws * (defaultArgs true).latGws % 2 ^ 32 + 2 < 2 ^ 48 := by
    rw [default_count]; simp [defaultArgs]
  obtain ⟨X, hX, _⟩ := C91_builds 0 hp rfl hi hm Demo.sys
  obtain ⟨K, hK, _⟩ := sky_exists (defaultArgs true) X
  obtain ⟨is, hr⟩ := (built_of hp rfl hi (by unfold satCount; exact hm) hX).run
  obtain ⟨s0, o, h0, hat, hex, _⟩ := C62_helper_network_is_history Demo.sys_initial hr
  obtain ⟨hpe, _⟩ := attached_only h0 (fun op hop => by
    obtain ⟨d, c, e, _⟩ := hat op hop
    exact ⟨d, c, e⟩) (hex (K.env Demo.env))
  have hw : exec (K.env Demo.env) X.build.sys [.wait dt] = .ok { X.build.sys with now := X.build.sys.now + dt } := by
    simp only [exec, step, hpe]
    rfl
  obtain ⟨m, s2, r1, _, i, r2, r3⟩ := C107_default_packet Demo.sys_initial hX hK (E := Demo.env) (fun _ _ _ _ => rfl)
    (ops := [.wait dt]) (by simp [PlainTraffic]) hw hpe (Or.inr rfl) (q := [1, 2, 3]) (by decide) (proto := 0x800)
  exact ⟨X, K, _, s2, i, hX, hK, hw, r2, ⟨m, r1⟩, r3⟩

end Verif
