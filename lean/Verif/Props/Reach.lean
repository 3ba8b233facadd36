import Verif.Lemmas.Reach
import Verif.Props.Timing
import Verif.Props.Queueing
import Mathlib.Analysis.SpecialFunctions.Trigonometric.Bounds
/-!
# Bounds of distance, coverage and latency: C82, C83, C84, C85
-/

namespace Verif
open Real Spec

/-! ## C82 -/

/-- **C82**: the delay of every hand-over between nodes with positions is the time light takes for their distance at that
moment, and the distance is at least the difference of their heights; over inter-satellite links between nodes outside the
Earth it is at most the sum of their distances to the horizon, over ground/space links at most the slant range. -/
theorem C82_distance_of_links {K : Sky} {E : Env} {s0 s : Sys} {ops : List Op} (h0 : Initial s0) (hx : exec (K.env E) s0 ops = .ok s)
    {t : Time} {c : ChanId} {f : Bytes} {src dst : DevId} {tx del : Time}
    (hm : (t, Ev.txrx c f src dst tx del) ∈ s.log) {ns nd : NodeId} (hns : (s0.dev src).node = some ns)
    (hnd : (s0.dev dst).node = some nd) {p q : Time → Vec} (hp : K.pos ns = some p) (hq : K.pos nd = some q) :
    del = K.ofSeconds ((q t - p t).len / K.speed) ∧ |(q t).len - (p t).len| ≤ (q t - p t).len ∧
    (K.budget c = none → islEarthRad ≤ (p t).len → islEarthRad ≤ (q t).len →
      0 < (q t - p t).len ∧ (q t - p t).len ≤ horizon islEarthRad (p t).len + horizon islEarthRad (q t).len) ∧
    (∀ m, K.budget c = some m → -90 < m.elev → m.elev < 90 → propEarthRad ≤ max (p t).len (q t).len →
      (q t - p t).len ≤ slantRange propEarthRad (max (p t).len (q t).len) |sin (rad m.elev)|) := by
  obtain ⟨h1, tp, h2⟩ := handed_sky h0 hx hm hns hnd hp hq
  refine ⟨h1, dist_ge _ _, ?_, ?_⟩
  · intro hb ha hc
    rw [hb] at h2
    have hl := allowed_isl h2
    have hne : p t ≠ q t := by
      intro he
      rw [he, (C48_coincident (q t) 0).1] at hl
      cases hl
    exact ⟨len_sub_pos hne.symm, free_dist islEarthRad_pos.le ha hc ((C48_line_of_sight hne (Or.inl ha)).mp hl)⟩
  · intro m hb e1 e2 hR
    rw [hb] at h2
    exact (slant_range_iff hR).mp (allowed_leo e1 e2 hR h2)

/-- **C82** for the delays: for a monotone conversion of seconds to simulation time. -/
theorem C82_delay_bounds {K : Sky} {E : Env} {s0 s : Sys} {ops : List Op} (h0 : Initial s0) (hx : exec (K.env E) s0 ops = .ok s)
    (hmono : Monotone K.ofSeconds) (hv : 0 < K.speed)
    {t : Time} {c : ChanId} {f : Bytes} {src dst : DevId} {tx del : Time}
    (hm : (t, Ev.txrx c f src dst tx del) ∈ s.log) {ns nd : NodeId} (hns : (s0.dev src).node = some ns)
    (hnd : (s0.dev dst).node = some nd) {p q : Time → Vec} (hp : K.pos ns = some p) (hq : K.pos nd = some q) :
    K.ofSeconds (|(q t).len - (p t).len| / K.speed) ≤ del ∧
    (K.budget c = none → islEarthRad ≤ (p t).len → islEarthRad ≤ (q t).len →
      del ≤ K.ofSeconds ((horizon islEarthRad (p t).len + horizon islEarthRad (q t).len) / K.speed)) ∧
    (∀ m, K.budget c = some m → -90 < m.elev → m.elev < 90 → propEarthRad ≤ max (p t).len (q t).len →
      del ≤ K.ofSeconds (slantRange propEarthRad (max (p t).len (q t).len) |sin (rad m.elev)| / K.speed)) := by
  obtain ⟨h1, h2, h3, h4⟩ := C82_distance_of_links h0 hx hm hns hnd hp hq
  rw [h1]
  exact ⟨hmono (div_le_div_of_nonneg_right h2 hv.le), fun a b c => hmono (div_le_div_of_nonneg_right (h3 a b c).2 hv.le),
    fun m a b c d => hmono (div_le_div_of_nonneg_right (h4 m a b c d) hv.le)⟩

/-- Two places 1000 km apart, one for the even nodes and one for the odd ones. -/
noncomputable def pairSky : Sky :=
  ⟨fun n => some fun _ => if n % 2 = 0 then onAxis 7000000 else onAxis 8000000, fun _ => none, 100000, fun x => ⌊x⌋₊⟩

/-- The environment that comes from this, computed. -/
def pairEnv : Env :=
  { Demo.env with
    hasMob := fun _ => true
    loss := fun _ => some fun tx a b _ => if a % 2 = b % 2 then -1000 else tx
    delay := fun _ => some fun a b _ => if a % 2 = b % 2 then 0 else 10 }

theorem pairSky_env : pairSky.env Demo.env = pairEnv := by
  have hd : ∀ x y : ℝ, (onAxis x - onAxis y).len = |x - y| := by
    intro x y
    exact len_eq (abs_nonneg _) (by rw [abs_mul_abs_self]; simp [dot, onAxis])
  have hlos : islLos (onAxis 7000000) (onAxis 8000000) = true := by
    have := hd 7000000 8000000
    rw [C48_line_of_sight (by intro he; injection he with he; norm_num at he) (Or.inl (by rw [len_onAxis (by norm_num), islEarthRad]; norm_num))]
    rintro ⟨u, h0, h1, hu⟩
    simp only [dot, smul, onAxis, add_x, add_y, add_z, sub_x, sub_y, sub_z, islEarthRad] at hu
    nlinarith
  have hlos' := (C49_symmetric (onAxis 7000000) (onAxis 8000000) 0).1.symm.trans hlos
  have hc := fun v => (C48_coincident v 0).1
  unfold Sky.env pairEnv pairSky
  simp only [Option.isSome_some, Sky.loss]
  congr 1
  · funext c
    congr 1
    funext tx a b t
    rcases Nat.mod_two_eq_zero_or_one a with ha | ha <;> rcases Nat.mod_two_eq_zero_or_one b with hb | hb <;>
      simp [ha, hb, hc, hlos, hlos']
  · funext c
    congr 1
    funext a b t
    rcases Nat.mod_two_eq_zero_or_one a with ha | ha <;> rcases Nat.mod_two_eq_zero_or_one b with hb | hb <;>
      simp [ha, hb, hd] <;> norm_num

/-- A hand-over over such a link, as in the hypotheses of `C82_distance_of_links`. -/
example : ∃ s, exec (pairSky.env Demo.env) Demo.sys [.attach 0 1, .attach 1 1, .send 0 [1] (.mac (Demo.mac 2)) 1] = .ok s ∧
    ∃ f tx, (0, Ev.txrx 1 f 0 1 tx 10) ∈ s.log := by
  rw [pairSky_env]
  obtain ⟨s, hs, ht⟩ := Demo.exists_of_check (E := pairEnv) (s := Demo.sys)
    (ops := [.attach 0 1, .attach 1 1, .send 0 [1] (.mac (Demo.mac 2)) 1])
    (test := fun s => s.log.any fun e => match e with | (0, .txrx 1 _ 0 1 _ 10) => true | _ => false) (by decide +kernel)
  refine ⟨s, hs, ?_⟩
  rw [List.any_eq_true] at ht
  obtain ⟨e, he, hm⟩ := ht
  split at hm
  · exact ⟨_, _, he⟩
  · cases hm

/-- The bound for inter-satellite links cannot be improved: for every slightly larger Earth there are satellites of the given
heights that see each other at the corresponding distance. -/
theorem C82_horizon_attained {R' r q : ℝ} (hR : islEarthRad < R') (hr : R' < r) (hq : R' < q) :
    ∃ a b : Vec, a.len = r ∧ b.len = q ∧ (b - a).len = horizon R' r + horizon R' q ∧ islLos a b = true := by
  have h0 := islEarthRad_pos
  have hA : 0 ≤ r ^ 2 - R' ^ 2 := by nlinarith
  have hB : 0 ≤ q ^ 2 - R' ^ 2 := by nlinarith
  have hA' : 0 < r ^ 2 - R' ^ 2 := by nlinarith
  have sA := Real.sq_sqrt hA
  have sB := Real.sq_sqrt hB
  have pA := Real.sqrt_pos.mpr hA'
  have pB := Real.sqrt_nonneg (q ^ 2 - R' ^ 2)
  unfold horizon
  set A := √(r ^ 2 - R' ^ 2)
  set B := √(q ^ 2 - R' ^ 2)
  have la : Vec.len ⟨-A, R', 0⟩ = r := len_eq (by linarith) (by simp only [dot]; nlinarith)
  have lb : Vec.len ⟨B, R', 0⟩ = q := len_eq (by linarith) (by simp only [dot]; nlinarith)
  refine ⟨⟨-A, R', 0⟩, ⟨B, R', 0⟩, la, lb, len_eq (by positivity) (by simp only [dot, sub_x, sub_y, sub_z]; ring), ?_⟩
  rw [C48_line_of_sight (by intro he; injection he with h1; linarith) (Or.inl (by rw [la]; linarith))]
  rintro ⟨u, _, _, hu⟩
  simp only [dot, smul, add_x, add_y, add_z, sub_x, sub_y, sub_z] at hu
  nlinarith [mul_self_nonneg (-A + u * (B - -A))]

/-! ## C83 -/

theorem latOf_mem (g : Vec) : -(Real.pi / 2) ≤ latOf g ∧ latOf g ≤ Real.pi / 2 :=
  ⟨Real.neg_pi_div_two_le_arcsin _, Real.arcsin_le_pi_div_two _⟩

theorem latOf_z (g : Vec) : g.z = g.len * sin (latOf g) := by
  have hz : |g.z| ≤ g.len := by
    apply abs_le_of_sq_le_sq _ (len_nonneg _)
    rw [len_sq']
    simp only [dot]
    nlinarith [mul_self_nonneg g.x, mul_self_nonneg g.y]
  unfold latOf
  rcases (len_nonneg g).eq_or_lt with h0 | h0
  · rw [← h0] at hz ⊢
    simpa using hz
  · rw [Real.sin_arcsin, mul_div_cancel₀ _ h0.ne']
    · rw [le_div_iff₀ h0]; linarith [(abs_le.mp hz).1]
    · rw [div_le_one h0]; exact (abs_le.mp hz).2

/-- **C83**: a satellite never comes closer to a station beyond the latitude of its inclination than the chord for the
difference of the latitudes. -/
theorem C83_never_closer {o : Orbit} (hh : 0 ≤ o.height) {g : Vec} (hφ : tilt o.incl ≤ |latOf g|) (t : Time) :
    chord (o.height * 1000) g.len (|latOf g| - tilt o.incl) ≤ (g - o.position t).len := by
  have hd := band_dot hh t (len_nonneg g) (len_sq g).symm (latOf_z g) (latOf_mem g).1 (latOf_mem g).2 hφ
  have hl : (o.position t).len = o.height * 1000 := len_eq (by positivity) (position_dot o t)
  unfold chord
  rw [Real.sqrt_le_left (len_nonneg _), dist_sq, hl]
  linarith

/-- **C83**: hence, if that is beyond the slant range, the two never hear each other, whatever the program does. -/
theorem C83_never_linked {K : Sky} {E : Env} {s0 s : Sys} {ops : List Op} {c : ChanId} {m : LeoBudget} {o : Orbit} {clock : Time → Time}
    {g : Vec} {ns ng : NodeId} (h1 : -90 < m.elev) (h2 : m.elev < 90) (hb : K.budget c = some m)
    (hs : K.pos ns = some fun t => o.position (clock t)) (hg : K.pos ng = some fun _ => g) (hh : 0 ≤ o.height)
    (hR : propEarthRad ≤ max (o.height * 1000) g.len) (hφ : tilt o.incl ≤ |latOf g|)
    (hfar : slantRange propEarthRad (max (o.height * 1000) g.len) |sin (rad m.elev)| <
      chord (o.height * 1000) g.len (|latOf g| - tilt o.incl))
    (h0 : Initial s0) (hx : exec (K.env E) s0 ops = .ok s) {d x : DevId} (hd : (s0.dev d).node = some ns)
    (hxn : (s0.dev x).node = some ng) (t : Time) (f : Bytes) (tx del : Time) :
    (t, Ev.txrx c f d x tx del) ∉ s.log ∧ (t, Ev.txrx c f x d tx del) ∉ s.log := by
  have hl : ∀ t, (o.position t).len = o.height * 1000 := fun t => len_eq (by positivity) (position_dot o t)
  have hn := C83_never_closer hh hφ (clock t)
  constructor
  · intro hm
    have := (C82_distance_of_links h0 hx hm hd hxn hs hg).2.2.2 m hb h1 h2 (by rw [hl]; exact hR)
    rw [hl] at this
    linarith
  · intro hm
    have := (C82_distance_of_links h0 hx hm hxn hd hg hs).2.2.2 m hb h1 h2 (by rw [hl, max_comm]; exact hR)
    rw [hl, max_comm, dist_comm'] at this
    linarith

theorem cos_tilt (i : ℝ) : cos (tilt i) = |cos i| := by
  unfold tilt
  rw [Real.cos_arcsin, sq_abs, ← Real.sqrt_sq_eq_abs]
  congr 1
  linarith [sin_sq_add_cos_sq i]

theorem polar (g : Vec) : ∃ lam, g = ⟨g.len * (cos (latOf g) * cos lam), g.len * (cos (latOf g) * sin lam), g.len * sin (latOf g)⟩ := by
  have hz := latOf_z g
  have hc : 0 ≤ cos (latOf g) := cos_nonneg_of_neg_pi_div_two_le_of_le (latOf_mem g).1 (latOf_mem g).2
  have hn : √(g.x ^ 2 + g.y ^ 2) = g.len * cos (latOf g) := by
    rw [show g.x ^ 2 + g.y ^ 2 = (g.len * cos (latOf g)) ^ 2 from ?_]
    · exact Real.sqrt_sq (mul_nonneg (len_nonneg _) hc)
    · have h1 := len_sq g
      have e := sin_sq_add_cos_sq (latOf g)
      simp only [dot] at h1
      rw [hz] at h1
      linear_combination (-1) * h1 - g.len ^ 2 * e
  have k1 := Complex.norm_mul_cos_arg ⟨g.x, g.y⟩
  have k2 := Complex.norm_mul_sin_arg ⟨g.x, g.y⟩
  rw [Complex.norm_def, Complex.normSq_mk, ← sq, ← sq, hn] at k1 k2
  refine ⟨Complex.arg ⟨g.x, g.y⟩, ?_⟩
  ext
  · simp only at k1 ⊢; linarith
  · simp only at k2 ⊢; linarith
  · exact hz

/-- The bound cannot be improved: some satellite of the same height and inclination is that close at any given time. -/
theorem C83_bound_attained {h i : ℝ} (g : Vec) (t : Time) :
    ∃ lon off, (g - Orbit.position ⟨h, i, lon, off⟩ t).len = chord (h * 1000) g.len (|latOf g| - tilt i) := by
  obtain ⟨lam, hg⟩ := polar g
  set φ := latOf g
  set q := g.len with hq
  have hq0 : 0 ≤ q := len_nonneg _
  -- the highest or lowest point of the orbit, above the meridian of the station
  obtain ⟨σ, hσ, hσs⟩ : ∃ σ : ℝ, (σ = 1 ∨ σ = -1) ∧ σ * (sin i * sin φ) = |sin i| * |sin φ| := by
    rcases le_total 0 (sin i * sin φ) with h | h
    · exact ⟨1, Or.inl rfl, by rw [one_mul, ← abs_mul, abs_of_nonneg h]⟩
    · exact ⟨-1, Or.inr rfl, by rw [← abs_mul, abs_of_nonpos h]; ring⟩
  obtain ⟨u, hu, hus⟩ : ∃ u, cos u = σ ∧ sin u = 0 := by
    rcases hσ with rfl | rfl
    · exact ⟨0, cos_zero, sin_zero⟩
    · exact ⟨Real.pi, cos_pi, sin_pi⟩
  obtain ⟨l, hl1, hl2⟩ : ∃ l, σ * cos i * cos l = |cos i| * cos lam ∧ σ * cos i * sin l = |cos i| * sin lam := by
    have hσ2 : |σ * cos i| = |cos i| := by
      rw [abs_mul]; rcases hσ with rfl | rfl <;> simp
    rcases le_total 0 (σ * cos i) with h | h
    · exact ⟨lam, by rw [← hσ2, abs_of_nonneg h], by rw [← hσ2, abs_of_nonneg h]⟩
    · exact ⟨lam + Real.pi, by rw [← hσ2, abs_of_nonpos h, cos_add_pi]; ring, by rw [← hσ2, abs_of_nonpos h, sin_add_pi]; ring⟩
  let l0 := l - ((t : ℝ) / 86400000000000) * 2 * Real.pi
  obtain ⟨off, hprog⟩ : ∃ off, Orbit.progress ⟨h, i, l0, off⟩ t = u :=
    ⟨u - Orbit.progress ⟨h, i, l0, 0⟩ t, by
      have := progress_off h i l0 (u - Orbit.progress ⟨h, i, l0, 0⟩ t) 0 t
      linarith⟩
  refine ⟨l0, off, ?_⟩
  have hpos : Orbit.position ⟨h, i, l0, off⟩ t = smul (h * 1000) ⟨|cos i| * cos lam, |cos i| * sin lam, σ * sin i⟩ := by
    rw [position_eq, hprog]
    have hlat : Orbit.latitude ⟨h, i, l0, off⟩ t = l := by
      simp only [Orbit.latitude, l0]; ring
    rw [hlat, hu, hus, ← hl1, ← hl2]
    ext <;> simp only [smul, axisU, axisW, add_x, add_y, add_z] <;> ring
  have hp2 := position_dot ⟨h, i, l0, off⟩ t
  have hsφ : sin |φ| = |sin φ| := by
    rw [Real.abs_sin_eq_sin_abs_of_abs_le_pi]
    have := abs_le.mpr (latOf_mem g)
    have := Real.pi_pos
    linarith
  have hdot : dot (Orbit.position ⟨h, i, l0, off⟩ t) g = h * 1000 * q * cos (|φ| - tilt i) := by
    rw [hpos, cos_sub, cos_tilt, sin_tilt, Real.cos_abs, hsφ, hg]
    have e := sin_sq_add_cos_sq lam
    simp only [dot, smul]
    linear_combination (h * 1000 * q * |cos i| * cos φ) * e + (h * 1000 * q) * hσs
  unfold chord
  rw [← Real.sqrt_sq (len_nonneg (g - Orbit.position ⟨h, i, l0, off⟩ t)), dist_sq, len_sq' (Orbit.position _ t), hp2, hdot, ← hq]
  congr 1
  ring

/-- The hypotheses of `C83_never_linked` are met: an orbit of 30 degrees and a station at the pole. -/
example : propEarthRad ≤ max (7371.01 * 1000 : ℝ) (Vec.len ⟨0, 0, 6371010⟩) ∧
    tilt (Real.pi / 6) ≤ |latOf ⟨0, 0, 6371010⟩| ∧
    slantRange propEarthRad (max (7371.01 * 1000) (Vec.len ⟨0, 0, 6371010⟩)) |sin (rad 0)| <
      chord (7371.01 * 1000) (Vec.len ⟨0, 0, 6371010⟩) (|latOf ⟨0, 0, 6371010⟩| - tilt (Real.pi / 6)) := by
  have hl : Vec.len ⟨0, 0, 6371010⟩ = 6371010 := len_eq (by norm_num) (by simp [dot])
  have hφ : latOf ⟨0, 0, 6371010⟩ = Real.pi / 2 := by
    unfold latOf; rw [hl]; norm_num
  have ht : tilt (Real.pi / 6) = Real.pi / 6 := by
    unfold tilt
    rw [abs_of_nonneg (by rw [Real.sin_pi_div_six]; norm_num), Real.arcsin_sin] <;> linarith [Real.pi_pos]
  rw [hl, hφ, ht, abs_of_pos (by positivity)]
  refine ⟨by rw [propEarthRad]; norm_num, by linarith [Real.pi_pos], ?_⟩
  rw [show Real.pi / 2 - Real.pi / 6 = Real.pi / 3 by ring, rad]
  unfold slantRange chord propEarthRad
  rw [Real.cos_pi_div_three]
  norm_num

/-! ## C84 -/

/-- Length of a day in time units. -/
def Spec.day : Nat := 86400000000000

/-- **C84**: of a constellation with `P` planes of `S` satellites whose positions are determined at the instants `a`,
`a + w`, `a + 2 w`, ..., some satellite comes within the chord of half the spacing in a plane, corrected by the drift of the
planes within `w`, of every station in the band of its inclination, in every `P`-th of a day. -/
theorem C84_regular_passes {h i : ℝ} (hh : 0 ≤ h) {P S : Nat} (hP : 0 < P) (hS : 2 ≤ S) {g : Vec} (hφ : |latOf g| ≤ tilt i)
    (a : Time) {w : Nat} (hw0 : 0 < w) (hw : 7 * w ≤ day) (n0 : Nat) :
    ∃ n p k : Nat, n0 ≤ n ∧ n * w ≤ n0 * w + day / P ∧ p < P ∧ k < S ∧
      (g - Orbit.position ⟨h, i, 2 * Real.pi * p / P, 2 * Real.pi * k / S⟩ (a + n * w)).len ^ 2 ≤
        (h * 1000) ^ 2 + g.len ^ 2 - 2 * (h * 1000) * g.len * ((1 - (2 * Real.pi * w / day) ^ 2) * cos (Real.pi / S)) := by
  obtain ⟨lam, hg⟩ := polar g
  obtain ⟨x, hx⟩ := plane_through (latOf_mem g).1 (latOf_mem g).2 hφ
  have hw' : (0 : ℝ) < w := by exact_mod_cast hw0
  have hday : (0 : ℝ) < (day : ℝ) := by unfold day; norm_num
  obtain ⟨n, p, k, hp, h1, h2, h3⟩ := sweep hP (show (0 : ℝ) < day / w by positivity) (lam + x - (a : ℝ) / day * (2 * Real.pi)) n0
  have hpi0 := Real.pi_pos
  have hpi := Real.pi_lt_d2
  set lat := Orbit.latitude ⟨h, i, 2 * Real.pi * p / P, 0⟩ (a + n * w) with hlat
  have hdiv : 2 * Real.pi / (day / w) = 2 * Real.pi * w / day := by field_simp
  rw [hdiv] at h3
  have hε : |lat - lam - (x + k * (2 * Real.pi))| ≤ 2 * Real.pi * w / day := by
    refine le_of_eq_of_le ?_ h3
    congr 1
    rw [hlat]
    simp only [Orbit.latitude]
    rw [show (86400000000000 : ℝ) = (day : ℝ) by unfold day; norm_num]
    push_cast
    field_simp
    ring
  have hν : |dot (axisN i lat) g| ≤ g.len * (2 * Real.pi * w / day) := by
    have hq0 := len_nonneg g
    rw [dot_axisN hg, hx, abs_mul, abs_of_nonneg hq0]
    apply mul_le_mul_of_nonneg_left _ hq0
    rw [← mul_sub, abs_mul]
    have e1 : |sin i * cos (latOf g)| ≤ 1 := by
      rw [abs_mul]
      exact mul_le_one₀ (Real.abs_sin_le_one _) (abs_nonneg _) (Real.abs_cos_le_one _)
    have e2 := Real.abs_cos_sub_cos_le (x + k * (2 * Real.pi)) (lat - lam)
    rw [Real.cos_add_int_mul_two_pi, abs_sub_comm (x + _)] at e2
    calc _ ≤ 1 * |cos x - cos (lat - lam)| := mul_le_mul_of_nonneg_right e1 (abs_nonneg _)
      _ ≤ _ := by rw [one_mul]; exact e2.trans hε
  have hν1 : 2 * Real.pi * w / day ≤ 1 := by
    have : (7 : ℝ) * w ≤ day := by exact_mod_cast hw
    rw [div_le_one hday]; nlinarith
  obtain ⟨j, hj, hd⟩ := nearest_satellite hh hS (a + n * w) (len_nonneg g) (len_sq g).symm hν hν1
  refine ⟨n, p, j, h1, ?_, hp, hj, ?_⟩
  · have hP' : (0 : ℝ) < P := by exact_mod_cast hP
    have hle : (n : ℝ) * w * P ≤ n0 * w * P + day := by
      have := mul_le_mul_of_nonneg_right h2 (by positivity : (0 : ℝ) ≤ w * P)
      have e : ((n0 : ℝ) + day / w / P) * (w * P) = n0 * w * P + day := by field_simp
      rw [e] at this
      linarith
    have hle' : n * w * P ≤ n0 * w * P + day := by exact_mod_cast hle
    have : (n * w - n0 * w) * P ≤ day := by rw [Nat.sub_mul]; omega
    have := (Nat.le_div_iff_mul_le hP).mpr this
    omega
  · have hl : (Orbit.position ⟨h, i, 2 * Real.pi * p / P, 2 * Real.pi * j / S⟩ (a + n * w)).len = h * 1000 :=
      len_eq (by positivity) (position_dot _ _)
    rw [dist_sq, hl]
    linarith

/-- A satellite placed by the installer follows its orbit: after `n` updates it reports the position at that moment. -/
theorem sat_runs {s : Sat} {w : Nat} (hw : 0 < w) (hp : s.prec = w) (hpos : s.pos = s.orbit.position s.now)
    (hpend : s.pending = [s.now + w]) (n : Nat) :
    ∃ s', s.exec (List.replicate n .run) = .ok s' ∧ s'.now = s.now + n * w ∧ s'.getPosition = s.orbit.position s'.now ∧ s'.orbit = s.orbit := by
  induction n generalizing s with
  | zero =>
    refine ⟨s, rfl, by simp, ?_, rfl⟩
    unfold Sat.getPosition
    rw [hpos]; simp
  | succ n ih =>
    have hstep : s.step .run = .ok ({ s with now := s.now + w, pending := [] } : Sat).update := by
      simp only [Sat.step, hpend]
    obtain ⟨s', h1, h2, h3, h4⟩ := ih (s := ({ s with now := s.now + w, pending := [] } : Sat).update) hp rfl (by
      simp only [Sat.update, hp, insertTime]
      rw [if_pos (by omega)]
      simp)
    refine ⟨s', ?_, ?_, h3, h4⟩
    · rw [List.replicate_succ]
      simp only [Sat.exec, hstep, Outcome.ok_bind]
      exact h1
    · rw [h2]
      simp only [Sat.update]
      rw [Nat.add_mul]
      omega

/-- **C84**, for an installed constellation as it runs, with the positions the satellites report: if the slant range is at least
that, every station in the band has some satellite in range in every `planes`-th of a day. -/
theorem C84_installed {junk : ℝ} {now : Time} {o : OrbitRec} (hp : 0 < o.planes) (hs : 2 ≤ o.sats)
    (hn : o.planes * o.sats ≤ 2147483647) (hi : o.inc ≠ 0) (ha : 0.0011 ≤ o.alt) {g : Vec} (hg : g.len ≤ (6371.009 + o.alt) * 1000)
    (hφ : |latOf g| ≤ tilt (rad o.inc)) {e x : ℝ} (hx0 : 0 ≤ x)
    (hx : ((6371.009 + o.alt) * 1000) ^ 2 + g.len ^ 2 -
      2 * ((6371.009 + o.alt) * 1000) * g.len * ((1 - (2 * Real.pi / 86400) ^ 2) * cos (Real.pi / o.sats)) ≤ x ^ 2)
    (hr : x ≤ slantRange propEarthRad ((6371.009 + o.alt) * 1000) |sin (rad e)|) :
    ∃ l, orbitInstall junk now o = .ok l ∧ ∀ n0 : Nat, ∃ n : Nat, n0 ≤ n ∧ n * 1000000000 ≤ n0 * 1000000000 + day / o.planes ∧
      ∃ s ∈ l, ∃ s', s.exec (List.replicate n .run) = .ok s' ∧ s'.now = now + n * 1000000000 ∧ InSlantRange e g s'.getPosition := by
  obtain ⟨l, h1, _, h2, h3⟩ := C53_one_satellite_per_slot (junk := junk) (now := now) hp (by omega) hn hi
  have h4 : ∀ s ∈ l, s.prec = (1000000000 : Nat) ∧ s.pos = s.orbit.position s.now ∧ s.pending = [s.now + 1000000000] := by
    rw [orbitInstall_eq hp (by omega) (by rw [Nat.mul_comm]; exact hn) (create_eq _ _ _ _ _ hi)] at h1
    injection h1 with h1
    subst h1
    intro s hs
    obtain ⟨i, _, rfl⟩ := List.mem_map.mp hs
    exact ⟨rfl, rfl, rfl⟩
  refine ⟨l, h1, fun n0 => ?_⟩
  obtain ⟨n, p, k, a1, a2, a3, a4, a5⟩ := C84_regular_passes (h := 6371.009 + o.alt) (by linarith) hp hs hφ now (w := 1000000000)
    (by norm_num) (by decide) n0
  obtain ⟨j, ⟨s, hs1, hs2, hs3⟩, _⟩ := h3 p k a3 a4
  have hm := List.mem_of_getElem? hs1
  obtain ⟨q1, q2, q3⟩ := h4 s hm
  obtain ⟨s', r1, r2, r3, _⟩ := sat_runs (by norm_num) q1 q2 q3 n
  have hpi := Real.pi_ne_zero
  obtain ⟨b1, b2, b3, _⟩ := h2 s hm
  rw [b3] at r2
  refine ⟨n, a1, a2, s, hm, s', r1, r2, ?_⟩
  have e1 : s.orbit = ⟨6371.009 + o.alt, rad o.inc, 2 * Real.pi * p / o.planes, 2 * Real.pi * k / o.sats⟩ := by
    unfold Sat.getAltitude earthRadKm at b1
    unfold Sat.getInclination at b2
    have c1 : s.orbit.height = 6371.009 + o.alt := by linarith
    have c2 : s.orbit.incl = rad o.inc := by unfold rad; rw [← b2]; field_simp
    rw [← c1, ← c2, ← hs2, ← hs3]
  rw [r3, r2, e1]
  set v := Orbit.position ⟨6371.009 + o.alt, rad o.inc, 2 * Real.pi * p / o.planes, 2 * Real.pi * k / o.sats⟩ (now + n * 1000000000)
  have hl : v.len = (6371.009 + o.alt) * 1000 := len_eq (by linarith) (position_dot _ _)
  have hmax : max g.len v.len = (6371.009 + o.alt) * 1000 := by rw [hl]; exact max_eq_right hg
  rw [slant_range_iff (by rw [hmax, propEarthRad]; linarith), hmax, dist_comm']
  refine le_trans ?_ hr
  refine le_of_sq_le_sq (a5.trans (le_of_eq_of_le ?_ hx)) hx0
  have : (2 * Real.pi * ((1000000000 : Nat) : ℝ) / (day : ℝ)) = 2 * Real.pi / 86400 := by
    unfold day; push_cast; ring
  rw [this]

theorem tilt_rad {x : ℝ} (h0 : 0 ≤ x) (h1 : x ≤ 90) : tilt (rad x) = rad x := by
  have hpi := Real.pi_pos
  have hr0 : 0 ≤ rad x := by unfold rad; positivity
  have hr1 : rad x ≤ Real.pi / 2 := by unfold rad; nlinarith
  unfold tilt
  rw [abs_of_nonneg (sin_nonneg_of_nonneg_of_le_pi hr0 (by linarith)), Real.arcsin_sin (by linarith) hr1]

/-- **C84** for the first orbit of data/orbits/starlink.csv and the elevation mask the channel helper sets by default: every
station between 53 degrees north and south, up to 19 km above and 21 km below the mean radius, has a satellite in range in
every period of 45 minutes, for a full second. -/
theorem C84_starlink {junk : ℝ} {now : Time} {g : Vec} (h1 : 6350000 ≤ g.len) (h2 : g.len ≤ 6390000) (hφ : |latOf g| ≤ rad 53) :
    ∃ l, orbitInstall junk now ⟨1150, 53, 32, 50⟩ = .ok l ∧ ∀ n0 : Nat, ∃ n : Nat, n0 ≤ n ∧ n ≤ n0 + 45 * 60 ∧
      ∃ s ∈ l, ∃ s', s.exec (List.replicate n .run) = .ok s' ∧ s'.now = now + n * 1000000000 ∧ InSlantRange 40 g s'.getPosition := by
  have hpi0 := Real.pi_pos
  have hpi := Real.pi_lt_d2
  have key := C84_installed (junk := junk) (now := now) (o := ⟨1150, 53, 32, 50⟩) (g := g) (e := 40) (x := 1260000) (by norm_num) (by norm_num)
    (by norm_num) (by norm_num) (by norm_num) (by norm_num; linarith) (by rw [tilt_rad (by norm_num) (by norm_num)]; exact hφ)
    (by norm_num) ?_ ?_
  · obtain ⟨l, k1, k2⟩ := key
    refine ⟨l, k1, fun n0 => ?_⟩
    obtain ⟨n, a1, a2, a3⟩ := k2 n0
    refine ⟨n, a1, ?_, a3⟩
    simp only [day] at a2
    omega
  · have hc := Real.one_sub_sq_div_two_le_cos (x := Real.pi / (50 : Nat))
    have hb : (Real.pi / (50 : Nat)) ^ 2 ≤ 0.00397 := by
      push_cast
      have : Real.pi / 50 ≤ 0.063 := by linarith
      have h0 : 0 ≤ Real.pi / 50 := by positivity
      nlinarith
    have hd : (2 * Real.pi / 86400) ^ 2 ≤ 1e-7 := by
      have : 2 * Real.pi / 86400 ≤ 0.0001 := by linarith
      have h0 : 0 ≤ 2 * Real.pi / 86400 := by positivity
      nlinarith
    have hc' : 0.998 ≤ (1 - (2 * Real.pi / 86400) ^ 2) * cos (Real.pi / (50 : Nat)) := by
      have := Real.cos_le_one (Real.pi / (50 : Nat))
      nlinarith
    set c := (1 - (2 * Real.pi / 86400) ^ 2) * cos (Real.pi / (50 : Nat))
    have : 2 * ((6371.009 + 1150) * 1000) * g.len * 0.998 ≤ 2 * ((6371.009 + 1150) * 1000) * g.len * c :=
      mul_le_mul_of_nonneg_left hc' (by linarith)
    simp only at this ⊢
    nlinarith
  · have hs : |sin (rad 40)| ≤ 0.7072 := by
      have h40 : rad 40 ≤ Real.pi / 4 := by unfold rad; linarith
      have h40' : 0 ≤ rad 40 := by unfold rad; positivity
      rw [abs_of_nonneg (sin_nonneg_of_nonneg_of_le_pi h40' (by linarith))]
      have := sin_le_sin_of_le_of_le_pi_div_two (by linarith) (by linarith) h40
      rw [Real.sin_pi_div_four] at this
      have h2 : √2 ≤ 1.4143 := by rw [Real.sqrt_le_left] <;> norm_num
      linarith
    rw [← slant_dist (by norm_num) (abs_nonneg _) (by norm_num) (by rw [propEarthRad]; norm_num), propEarthRad]
    norm_num at hs ⊢
    linarith

/-- A station at the equator meets the hypotheses. -/
example : ∃ g : Vec, 6350000 ≤ g.len ∧ g.len ≤ 6390000 ∧ |latOf g| ≤ rad 53 := by
  have hl : Vec.len ⟨6371009, 0, 0⟩ = 6371009 := len_eq (by norm_num) (by simp [dot])
  refine ⟨⟨6371009, 0, 0⟩, by rw [hl]; norm_num, by rw [hl]; norm_num, ?_⟩
  unfold latOf rad
  have := Real.pi_pos
  simp
  positivity

/-! ## C85 -/

/-- **C85**: with rate and interframe gap unchanged, every reception is of a frame that was accepted at most the capacity of the
queue times the longest occupation plus the longest delay earlier. -/
theorem C85_latency {E : Env} {s0 s : Sys} {ops : List Op} (h0 : Initial s0) (h : exec E s0 ops = .ok s) {d : DevId}
    (hst : SteadyRate d ops) {W D : Time} (hW : ∀ x ∈ accepted d s.log, occupation E (s0.dev d) x ≤ W)
    (hD : ∀ t c f x tx del, (t, Ev.txrx c f d x tx del) ∈ s.log → del ≤ D) {a : Arrival} (ha : a ∈ happened s.log) (hs : a.src = d) :
    ∃ t, (t, a.frame) ∈ acceptedT d s.log ∧ t ≤ a.time ∧ a.time ≤ t + (s0.dev d).cap * W + D := by
  subst hs
  have ha' : a ∈ announced s.log := (C26_receptions_as_announced h0 h).subset (List.mem_append_left _ ha)
  obtain ⟨t1, c, tx, del, hm, htime⟩ := mem_announced.mp ha'
  obtain ⟨ns, nd, _, _, _, _, hb⟩ := C26_delay_law h0 h hm
  have hdel := hD _ _ _ _ _ _ hm
  have hbm : (t1, a.frame) ∈ begunT a.src s.log := by
    unfold begunT projT
    exact List.mem_filterMap.mpr ⟨_, hb, by simp [begunEv]⟩
  obtain ⟨i, hi⟩ := List.getElem?_of_mem hbm
  obtain ⟨Q, hQ, _⟩ := C74_fifo_schedule h0 h hst
  have hlen : i < (acceptedT a.src s.log).length := by
    have h1 := (List.getElem?_eq_some_iff.mp hi).1
    have h2 := congrArg List.length hQ
    rw [fifo_length, List.length_append] at h2
    omega
  obtain ⟨⟨t, f⟩, hacc⟩ : ∃ x, (acceptedT a.src s.log)[i]? = some x := ⟨_, List.getElem?_eq_getElem hlen⟩
  obtain ⟨rfl, h2, h3⟩ := C75_worst_case h0 h hst hW hacc hi
  exact ⟨t, List.mem_of_getElem? hacc, by omega, by omega⟩

/-- **C85**: an accepted frame is on the air when the capacity of the queue times the longest occupation has passed. -/
theorem C85_on_air_in_time {E : Env} {s0 s : Sys} {ops : List Op} (h0 : Initial s0) (h : exec E s0 ops = .ok s) {d : DevId}
    (hst : SteadyRate d ops) {W : Time} (hW : ∀ x ∈ accepted d s.log, occupation E (s0.dev d) x ≤ W)
    {i : Nat} {t : Time} {f : Bytes} (ha : (acceptedT d s.log)[i]? = some (t, f)) (hlate : t + (s0.dev d).cap * W < s.now) :
    ∃ b, (begunT d s.log)[i]? = some (b, f) ∧ t ≤ b ∧ b ≤ t + (s0.dev d).cap * W := by
  cases hb : (begunT d s.log)[i]? with
  | some x =>
    obtain ⟨b, f'⟩ := x
    obtain ⟨rfl, h2, h3⟩ := C75_worst_case h0 h hst hW ha hb
    exact ⟨b, rfl, h2, h3⟩
  | none =>
    exfalso
    obtain ⟨Q, hQ, _, hfut⟩ := C74_fifo_schedule h0 h hst
    have hp := prompt_exec (w := occupation E (s0.dev d)) (cap := (s0.dev d).cap) ops hst (fun _ => rfl) rfl (inv_initial h0)
      (onTime_initial h0) ⟨by rw [h0.log]; exact .nil, by rw [h0.log]; intro e he; cases he⟩
      (by rw [h0.log]; intro A1 x A2 hA; cases A1 <;> cases hA) h
    obtain ⟨hi, he⟩ := List.getElem?_eq_some_iff.mp ha
    set A1 := (acceptedT d s.log).take i with hA1
    have hsplit : acceptedT d s.log = A1 ++ (t, f) :: (acceptedT d s.log).drop (i + 1) := by
      rw [hA1, ← he, List.getElem_cons_drop, List.take_append_drop]
    have hl : A1.length = i := by rw [hA1, List.length_take]; omega
    have hval : (fifo (occupation E (s0.dev d)) 0 (acceptedT d s.log))[i]? =
        some (max t (freeAfter (occupation E (s0.dev d)) 0 A1), f) := by
      rw [hsplit, fifo_append, List.getElem?_append_right (by rw [fifo_length, hl]), fifo_length, hl, Nat.sub_self]
      simp [fifo]
    rw [← hQ, List.getElem?_append_right (by rw [List.getElem?_eq_none_iff] at hb; exact hb)] at hval
    have h1 := hfut _ (List.mem_of_getElem? hval)
    have h2 := hp A1 (t, f) _ hsplit
    have h3 : load (occupation E (s0.dev d)) ((A1.map Prod.snd).drop (A1.length - (s0.dev d).cap)) ≤ (s0.dev d).cap * W := by
      refine Nat.le_trans (load_bound (W := W) ?_) (Nat.mul_le_mul_right _ ?_)
      · intro x hx
        refine hW x ?_
        rw [← acceptedT_frames]
        obtain ⟨y, hy, rfl⟩ := List.mem_map.mp (List.mem_of_mem_drop hx)
        exact List.mem_map_of_mem (List.mem_of_mem_take hy)
      · rw [List.length_drop, List.length_map]; omega
    simp only at h1 h2
    omega

/-- **C85** over inter-satellite links: queueing, then at most the light time of the two ways to the horizon. -/
theorem C85_isl_latency {K : Sky} {E : Env} {s0 s : Sys} {ops : List Op} {n : NodeId} {p : Time → Vec} {r : ℝ}
    (h0 : Initial s0) (h : exec (K.env E) s0 ops = .ok s) {d : DevId}
    (hst : SteadyRate d ops) {W : Time} (hW : ∀ x ∈ accepted d s.log, occupation (K.env E) (s0.dev d) x ≤ W)
    (hmono : Monotone K.ofSeconds) (hv : 0 < K.speed) (hb : ∀ t c f x tx del, (t, Ev.txrx c f d x tx del) ∈ s.log → K.budget c = none)
    (hn : (s0.dev d).node = some n) (hp : K.pos n = some p) (hpr : ∀ t, islEarthRad ≤ (p t).len ∧ (p t).len ≤ r)
    (hq : ∀ x n', (s0.dev x).node = some n' → ∃ q, K.pos n' = some q ∧ ∀ t, islEarthRad ≤ (q t).len ∧ (q t).len ≤ r)
    {a : Arrival} (ha : a ∈ happened s.log) (hs : a.src = d) :
    ∃ t, (t, a.frame) ∈ acceptedT d s.log ∧ t ≤ a.time ∧
      a.time ≤ t + (s0.dev d).cap * W + K.ofSeconds (2 * horizon islEarthRad r / K.speed) := by
  refine C85_latency h0 h hst hW ?_ ha hs
  intro t c f x tx del hm
  obtain ⟨ns, nd, n1, n2, _⟩ := C26_delay_law h0 h hm
  rw [hn] at n1
  injection n1 with n1
  subst n1
  obtain ⟨q, hq1, hq2⟩ := hq x nd n2
  refine ((C82_delay_bounds h0 h hmono hv hm hn n2 hp hq1).2.1 (hb _ _ _ _ _ _ hm) (hpr t).1 (hq2 t).1).trans (hmono ?_)
  apply div_le_div_of_nonneg_right _ hv.le
  have hh : ∀ y, islEarthRad ≤ y → y ≤ r → horizon islEarthRad y ≤ horizon islEarthRad r := by
    intro y y1 y2
    unfold horizon
    apply Real.sqrt_le_sqrt
    have := islEarthRad_pos
    nlinarith
  have := hh _ (hpr t).1 (hpr t).2
  have := hh _ (hq2 t).1 (hq2 t).2
  linarith

theorem slantRange_mono {R r r' x : ℝ} (hR : 0 < R) (hr : R ≤ r) (hrr : r ≤ r') (hx0 : 0 ≤ x) (hx1 : x ≤ 1) :
    slantRange R r x ≤ slantRange R r' x := by
  have hrp : 0 < r := lt_of_lt_of_le hR hr
  have h0 : 0 ≤ slantRange R r x := by
    unfold slantRange
    have : r * x ≤ √((r * x) ^ 2 + (r ^ 2 - R ^ 2)) := Real.le_sqrt_of_sq_le (by nlinarith)
    linarith
  have h1 := (slant_dist hrp.le hx0 h0 (by nlinarith)).mpr (le_refl _)
  refine (slant_dist (hrp.le.trans hrr) hx0 h0 (by nlinarith)).mp ?_
  generalize slantRange R r x = y at h0 h1 ⊢
  have hy : y ≤ r := by
    by_contra hlt
    have hlt := not_le.mp hlt
    have : 0 ≤ 2 * r * y * x := by positivity
    nlinarith
  have hyx : y * x ≤ r := by nlinarith
  nlinarith [mul_nonneg (sub_nonneg.mpr hrr) (sub_nonneg.mpr hyx)]

/-- **C85** over ground/space links: queueing, then at most the light time of the slant range of the highest node. -/
theorem C85_leo_latency {K : Sky} {E : Env} {s0 s : Sys} {ops : List Op} {n : NodeId} {p : Time → Vec} {r e : ℝ}
    (h0 : Initial s0) (h : exec (K.env E) s0 ops = .ok s) {d : DevId}
    (hst : SteadyRate d ops) {W : Time} (hW : ∀ x ∈ accepted d s.log, occupation (K.env E) (s0.dev d) x ≤ W)
    (hmono : Monotone K.ofSeconds) (hv : 0 < K.speed) (h1 : -90 < e) (h2 : e < 90)
    (hb : ∀ t c f x tx del, (t, Ev.txrx c f d x tx del) ∈ s.log → ∃ m, K.budget c = some m ∧ m.elev = e)
    (hn : (s0.dev d).node = some n) (hp : K.pos n = some p)
    (hq : ∀ x n', (s0.dev x).node = some n' → ∃ q, K.pos n' = some q ∧
      ∀ t, propEarthRad ≤ max (p t).len (q t).len ∧ max (p t).len (q t).len ≤ r)
    {a : Arrival} (ha : a ∈ happened s.log) (hs : a.src = d) :
    ∃ t, (t, a.frame) ∈ acceptedT d s.log ∧ t ≤ a.time ∧
      a.time ≤ t + (s0.dev d).cap * W + K.ofSeconds (slantRange propEarthRad r |sin (rad e)| / K.speed) := by
  refine C85_latency h0 h hst hW ?_ ha hs
  intro t c f x tx del hm
  obtain ⟨ns, nd, n1, n2, _⟩ := C26_delay_law h0 h hm
  rw [hn] at n1
  injection n1 with n1
  subst n1
  obtain ⟨q, hq1, hq2⟩ := hq x nd n2
  obtain ⟨m, hm1, rfl⟩ := hb _ _ _ _ _ _ hm
  refine ((C82_delay_bounds h0 h hmono hv hm hn n2 hp hq1).2.2 m hm1 h1 h2 (hq2 t).1).trans (hmono ?_)
  exact div_le_div_of_nonneg_right (slantRange_mono propEarthRad_pos (hq2 t).1 (hq2 t).2 (abs_nonneg _) (abs_sin_le_one _)) hv.le

/-- A station and a satellite 1000 km above it, in turns for all nodes. -/
noncomputable def overheadSky : Sky :=
  ⟨fun n => some fun _ => if n % 2 = 0 then onAxis 6371010 else onAxis 7371010, fun _ => some ⟨0, 0, 0, 0⟩, 100000, fun x => ⌊x⌋₊⟩

/-- The environment that comes from this, computed. -/
def overheadEnv : Env :=
  { Demo.env with
    hasMob := fun _ => true
    loss := fun _ => some fun tx _ _ _ => tx
    delay := fun _ => some fun a b _ => if a % 2 = b % 2 then 0 else 10 }

theorem overheadSky_env : overheadSky.env Demo.env = overheadEnv := by
  have hd : ∀ x y : ℝ, (onAxis x - onAxis y).len = |x - y| := by
    intro x y
    exact len_eq (abs_nonneg _) (by rw [abs_mul_abs_self]; simp [dot, onAxis])
  have hg : (onAxis 6371010).len = 6371010 := len_onAxis (by norm_num)
  have hs : (onAxis 7371010).len = 7371010 := len_onAxis (by norm_num)
  have hloss : ∀ (tx : Power) (x y : ℝ), (x = 6371010 ∨ x = 7371010) → (y = 6371010 ∨ y = 7371010) →
      Sky.loss (some ⟨0, 0, 0, 0⟩) tx (onAxis x) (onAxis y) = tx := by
    intro tx x y hx hy
    have hmax : propEarthRad ≤ max (onAxis x).len (onAxis y).len := by
      refine le_max_of_le_left ?_
      rcases hx with rfl | rfl
      · rw [hg, propEarthRad]; norm_num
      · rw [hs, propEarthRad]; norm_num
    have hr : Spec.InSlantRange 0 (onAxis x) (onAxis y) := by
      unfold Spec.InSlantRange
      rw [hd, propEarthRad, Spec.rad]
      rcases hx with rfl | rfl <;> rcases hy with rfl | rfl <;> norm_num [hg, hs]
    rw [(loss_slant (m := ⟨0, 0, 0, 0⟩) (by norm_num) (by norm_num) tx hmax).1 hr]
    norm_num
  have l1 := fun tx => hloss tx _ _ (Or.inl rfl) (Or.inl rfl)
  have l2 := fun tx => hloss tx _ _ (Or.inl rfl) (Or.inr rfl)
  have l3 := fun tx => hloss tx _ _ (Or.inr rfl) (Or.inl rfl)
  have l4 := fun tx => hloss tx _ _ (Or.inr rfl) (Or.inr rfl)
  unfold Sky.env overheadEnv overheadSky
  simp only [Option.isSome_some]
  congr 1
  · funext c
    congr 1
    funext tx a b t
    rcases Nat.mod_two_eq_zero_or_one a with ha | ha <;> rcases Nat.mod_two_eq_zero_or_one b with hb | hb <;>
      simp [ha, hb, l1, l2, l3, l4]
  · funext c
    congr 1
    funext a b t
    rcases Nat.mod_two_eq_zero_or_one a with ha | ha <;> rcases Nat.mod_two_eq_zero_or_one b with hb | hb <;>
      simp [ha, hb, hd] <;> norm_num

/-- The hypotheses of `C85_leo_latency` are met. -/
example : ∃ s, exec (overheadSky.env Demo.env) Demo.sys
      [.attach 0 0, .attach 1 0, .send 0 [1] (.mac (Demo.mac 2)) 1, .run] = .ok s ∧
    SteadyRate 0 [.attach 0 0, .attach 1 0, .send 0 [1] (.mac (Demo.mac 2)) 1, .run] ∧
    (∃ W, ∀ x ∈ accepted 0 s.log, occupation (overheadSky.env Demo.env) (Demo.sys.dev 0) x ≤ W) ∧ Monotone overheadSky.ofSeconds ∧
    (∀ t c f x tx del, (t, Ev.txrx c f 0 x tx del) ∈ s.log → ∃ m, overheadSky.budget c = some m ∧ m.elev = 0) ∧
    (∀ n, ∃ q, overheadSky.pos n = some q ∧ ∀ t, propEarthRad ≤ (q t).len ∧ (q t).len ≤ 7371010) ∧
    (happened s.log).map Arrival.time = [10] := by
  have hq : ∀ n, ∃ q, overheadSky.pos n = some q ∧ ∀ t, propEarthRad ≤ (q t).len ∧ (q t).len ≤ 7371010 := by
    intro n
    refine ⟨_, rfl, fun t => ?_⟩
    split
    · rw [len_onAxis (by norm_num), propEarthRad]; norm_num
    · rw [len_onAxis (by norm_num), propEarthRad]; norm_num
  rw [overheadSky_env]
  obtain ⟨s, hs, ht⟩ := Demo.exists_of_check (E := overheadEnv) (s := Demo.sys)
    (ops := [.attach 0 0, .attach 1 0, .send 0 [1] (.mac (Demo.mac 2)) 1, .run])
    (test := fun s => decide ((happened s.log).map Arrival.time = [10]) &&
      decide (∀ x ∈ accepted 0 s.log, occupation overheadEnv (Demo.sys.dev 0) x ≤ 1000)) (by decide +kernel)
  rw [Bool.and_eq_true, decide_eq_true_eq, decide_eq_true_eq] at ht
  exact ⟨s, hs, ⟨by simp, by simp⟩, ⟨1000, ht.2⟩, fun a b hab => Nat.floor_mono hab, fun _ _ _ _ _ _ _ => ⟨_, rfl, rfl⟩, hq, ht.1⟩

/-- The hypotheses of `C85_isl_latency` are met. -/
example : ∃ s, exec (pairSky.env Demo.env) Demo.sys
      [.attach 0 1, .attach 1 1, .send 0 [1] (.mac (Demo.mac 2)) 1, .run] = .ok s ∧
    SteadyRate 0 [.attach 0 1, .attach 1 1, .send 0 [1] (.mac (Demo.mac 2)) 1, .run] ∧
    (∃ W, ∀ x ∈ accepted 0 s.log, occupation (pairSky.env Demo.env) (Demo.sys.dev 0) x ≤ W) ∧ Monotone pairSky.ofSeconds ∧
    (∀ n, ∃ q, pairSky.pos n = some q ∧ ∀ t, islEarthRad ≤ (q t).len ∧ (q t).len ≤ 8000000) ∧ happened s.log ≠ [] := by
  have hq : ∀ n, ∃ q, pairSky.pos n = some q ∧ ∀ t, islEarthRad ≤ (q t).len ∧ (q t).len ≤ 8000000 := by
    intro n
    refine ⟨_, rfl, fun t => ?_⟩
    split
    · rw [len_onAxis (by norm_num), islEarthRad]; norm_num
    · rw [len_onAxis (by norm_num), islEarthRad]; norm_num
  rw [pairSky_env]
  obtain ⟨s, hs, ht⟩ := Demo.exists_of_check (E := pairEnv) (s := Demo.sys)
    (ops := [.attach 0 1, .attach 1 1, .send 0 [1] (.mac (Demo.mac 2)) 1, .run])
    (test := fun s => decide (happened s.log ≠ []) &&
      decide (∀ x ∈ accepted 0 s.log, occupation pairEnv (Demo.sys.dev 0) x ≤ 1000)) (by decide +kernel)
  rw [Bool.and_eq_true, decide_eq_true_eq, decide_eq_true_eq] at ht
  exact ⟨s, hs, ⟨by simp, by simp⟩, ⟨1000, ht.2⟩, fun a b hab => Nat.floor_mono hab, hq, ht.1⟩

/-- The bound is reached: queue with two places, transmissions of 3, delay 5: the third of three frames sent at time 0 arrives at
`2 * 3 + 5`. -/
example : Demo.check { farEnv with txTime := fun _ _ => 3 } Demo.sys
    [.attach 0 1, .attach 1 1, .send 0 [1] (.mac (Demo.mac 2)) 1, .send 0 [2] (.mac (Demo.mac 2)) 1,
     .send 0 [3] (.mac (Demo.mac 2)) 1, .run, .run, .run, .run, .run, .run]
    (fun s => (acceptedT 0 s.log).map Prod.fst == [0, 0, 0] && (happened s.log).map Arrival.time == [5, 8, 11] &&
      (s.dev 0).cap == 2) = true := by decide +kernel

end Verif
