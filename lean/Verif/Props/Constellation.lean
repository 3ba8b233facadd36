import Verif.Lemmas.Constellation
import Verif.Props.Placement
import Verif.Props.Timing
import Verif.Props.EndToEnd
import Mathlib.Analysis.Real.Pi.Bounds
/-!
# C67, C68, C69: constellations

Links inside an orbital plane; a ground station's packet and the satellites in range; distances between satellites.
-/

namespace Verif
open Real Spec

/-! ## C67 -/

/-- **C67**: two satellites of one plane see each other at some time iff they are distinct and the middle of the straight line
between them is outside the Earth: a condition that does not depend on time. -/
theorem C67_in_plane_line_of_sight {h i l o1 o2 : ℝ} (hh : islEarthRad ≤ h * 1000) (t : Time) :
    islLos (Orbit.position ⟨h, i, l, o1⟩ t) (Orbit.position ⟨h, i, l, o2⟩ t) = true ↔
      sin ((o1 - o2) / 2) ≠ 0 ∧ islEarthRad < h * 1000 * |cos ((o1 - o2) / 2)| := by
  have hR := islEarthRad_pos
  have hr : 0 < h * 1000 := lt_of_lt_of_le hR hh
  have h0 : 0 < h := by linarith
  have l1 : dot (Orbit.position ⟨h, i, l, o1⟩ t) (Orbit.position ⟨h, i, l, o1⟩ t) = (h * 1000) * (h * 1000) := position_dot _ _
  have l2 : dot (Orbit.position ⟨h, i, l, o2⟩ t) (Orbit.position ⟨h, i, l, o2⟩ t) = (h * 1000) * (h * 1000) := position_dot _ _
  have l3 := in_plane_dot h i l o1 o2 t
  rw [show o1 - o2 = 2 * ((o1 - o2) / 2) by ring] at l3
  rw [← in_plane_ne (i := i) (l := l) (t := t) h0]
  by_cases hne : Orbit.position ⟨h, i, l, o1⟩ t = Orbit.position ⟨h, i, l, o2⟩ t
  · rw [hne, (C48_coincident _ 0).1]
    simp
  · rw [C48_line_of_sight hne (Or.inl (by rw [len_eq hr.le l1]; exact hh)), obstructed_circle hR.le hr.le l1 l2 l3, not_le]
    exact ⟨fun h => ⟨hne, h⟩, fun h => h.2⟩

/-- **C67**: the ring of the `S` evenly spaced satellites of a plane is closed or open for all times: neighbours see each other
iff `r cos (π / S)` exceeds the radius of the Earth. -/
theorem C67_ring {h i l : ℝ} {S : Nat} (hh : 6371009 ≤ h * 1000) (hS : 2 ≤ S) {k : Nat} (hk : k < S) (t : Time) :
    islLos (Orbit.position ⟨h, i, l, 2 * Real.pi * k / S⟩ t) (Orbit.position ⟨h, i, l, 2 * Real.pi * ((k + 1) % S : Nat) / S⟩ t) = true ↔
      6371009 < h * 1000 * cos (Real.pi / S) := by
  rw [show (6371009 : ℝ) = islEarthRad by norm_num [islEarthRad]]
  have hS' : (2 : ℝ) ≤ S := by exact_mod_cast hS
  have hpi := Real.pi_pos
  have hx1 : 0 < Real.pi / S := by positivity
  have hx2 : Real.pi / S ≤ Real.pi / 2 := div_le_div_of_nonneg_left hpi.le (by norm_num) hS'
  have hsin : 0 < sin (Real.pi / S) := sin_pos_of_pos_of_lt_pi hx1 (by linarith)
  have hcos : 0 ≤ cos (Real.pi / S) := cos_nonneg_of_neg_pi_div_two_le_of_le (by linarith) hx2
  rw [C67_in_plane_line_of_sight (by norm_num [islEarthRad]; linarith) t]
  have hx : |sin ((2 * Real.pi * k / S - 2 * Real.pi * ((k + 1) % S : Nat) / S) / 2)| = sin (Real.pi / S) ∧
      |cos ((2 * Real.pi * k / S - 2 * Real.pi * ((k + 1) % S : Nat) / S) / 2)| = cos (Real.pi / S) := by
    by_cases h1 : k + 1 = S
    · have e : (2 * Real.pi * k / S - 2 * Real.pi * ((k + 1) % S : Nat) / S) / 2 = Real.pi - Real.pi / S := by
        rw [h1, Nat.mod_self]
        have hk' : (k : ℝ) = S - 1 := by rw [← h1]; push_cast; ring
        rw [hk']
        field_simp
        simp
      rw [e, sin_pi_sub, cos_pi_sub, abs_neg, abs_of_pos hsin, abs_of_nonneg hcos]
      exact ⟨rfl, rfl⟩
    · have e : (2 * Real.pi * k / S - 2 * Real.pi * ((k + 1) % S : Nat) / S) / 2 = -(Real.pi / S) := by
        rw [Nat.mod_eq_of_lt (by omega)]
        push_cast
        field_simp
        ring
      rw [e, sin_neg, cos_neg, abs_neg, abs_of_pos hsin, abs_of_nonneg hcos]
      exact ⟨rfl, rfl⟩
  rw [hx.2]
  constructor
  · exact fun h => h.2
  · refine fun h => ⟨?_, h⟩
    intro h0
    rw [h0, abs_zero] at hx
    linarith [hx.1]

/-- **C67**, for an installed constellation: every plane is a ring of satellites that is closed at all times, or open
at all times, depending only on altitude and number of satellites per plane. -/
theorem C67_installed_planes {junk : ℝ} {now : Time} {o : OrbitRec} (hp : 0 < o.planes) (hs : 2 ≤ o.sats)
    (hn : o.planes * o.sats ≤ 2147483647) (hi : o.inc ≠ 0) (ha : 0 ≤ o.alt) :
    ∃ l, orbitInstall junk now o = .ok l ∧ ∀ p k, p < o.planes → k < o.sats → ∃ s ∈ l, ∃ s' ∈ l,
      s.orbit.lon = 2 * Real.pi * p / o.planes ∧ s.orbit.off = 2 * Real.pi * k / o.sats ∧
      s'.orbit.lon = 2 * Real.pi * p / o.planes ∧ s'.orbit.off = 2 * Real.pi * ((k + 1) % o.sats : Nat) / o.sats ∧
      ∀ t, islLos (s.orbit.position t) (s'.orbit.position t) = true ↔
        6371009 < (6371.009 + o.alt) * 1000 * cos (Real.pi / o.sats) := by
  obtain ⟨l, h1, _, h2, h3⟩ := C53_one_satellite_per_slot (junk := junk) (now := now) hp (by omega) hn hi
  refine ⟨l, h1, fun p k hp' hk' => ?_⟩
  obtain ⟨i1, ⟨s, hs1, hs2, hs3⟩, _⟩ := h3 p k hp' hk'
  obtain ⟨i2, ⟨s', hs1', hs2', hs3'⟩, _⟩ := h3 p ((k + 1) % o.sats) hp' (Nat.mod_lt _ (by omega))
  have m1 := List.mem_of_getElem? hs1
  have m2 := List.mem_of_getElem? hs1'
  refine ⟨s, m1, s', m2, hs2, hs3, hs2', hs3', fun t => ?_⟩
  have hpi := Real.pi_ne_zero
  have orb : ∀ x ∈ l, x.orbit.height = 6371.009 + o.alt ∧ x.orbit.incl = o.inc / 180 * Real.pi := by
    intro x hx
    obtain ⟨a1, a2, _⟩ := h2 x hx
    unfold Sat.getAltitude earthRadKm at a1
    unfold Sat.getInclination at a2
    constructor
    · linarith
    · rw [← a2]; field_simp
  have e1 : s.orbit = ⟨6371.009 + o.alt, o.inc / 180 * Real.pi, 2 * Real.pi * p / o.planes, 2 * Real.pi * k / o.sats⟩ := by
    rw [← (orb s m1).1, ← (orb s m1).2, ← hs2, ← hs3]
  have e2 : s'.orbit = ⟨6371.009 + o.alt, o.inc / 180 * Real.pi, 2 * Real.pi * p / o.planes,
      2 * Real.pi * ((k + 1) % o.sats : Nat) / o.sats⟩ := by
    rw [← (orb s' m2).1, ← (orb s' m2).2, ← hs2', ← hs3']
  rw [e1, e2]
  exact C67_ring (by linarith) hs hk' t

theorem cos_pi_div_ge {S : Nat} (hS : 9 ≤ S) : 0.93 < cos (Real.pi / S) := by
  have hS' : (9 : ℝ) ≤ S := by exact_mod_cast hS
  have h1 := Real.pi_lt_d2
  have h0 := Real.pi_pos
  have h2 : Real.pi / S ≤ 0.35 := by
    rw [div_le_iff₀ (by linarith)]
    linarith
  have h3 := Real.one_sub_sq_div_two_le_cos (x := Real.pi / S)
  have h4 : 0 < Real.pi / S := by positivity
  nlinarith

/-- **C67**: all orbits of the data files shipped with the code (data/orbits/starlink.csv, data/orbits/telesat.csv) have closed
rings. -/
theorem C67_shipped_rings_closed {alt : ℝ} {sats : Nat}
    (h : (alt, sats) ∈ [((1150 : ℝ), 50), (1110, 50), (1130, 50), (1275, 75), (1325, 75), (1000, 12), (1248, 9)]) :
    6371009 < (6371.009 + alt) * 1000 * cos (Real.pi / sats) := by
  have h9 : 9 ≤ sats ∧ 1000 ≤ alt := by
    simp only [List.mem_cons, Prod.mk.injEq, List.not_mem_nil, or_false] at h
    rcases h with ⟨rfl, rfl⟩ | ⟨rfl, rfl⟩ | ⟨rfl, rfl⟩ | ⟨rfl, rfl⟩ | ⟨rfl, rfl⟩ | ⟨rfl, rfl⟩ | ⟨rfl, rfl⟩ <;> constructor <;> norm_num
  have := cos_pi_div_ge h9.1
  nlinarith [h9.2]

/-- With three satellites at 1150 km the ring is open: nobody ever sees a neighbour. -/
example : ¬ 6371009 < (6371.009 + 1150) * 1000 * cos (Real.pi / (3 : Nat)) := by
  have : cos (Real.pi / (3 : Nat)) = 1 / 2 := by push_cast; exact Real.cos_pi_div_three
  rw [this]
  norm_num

/-- Nodes `a` and `b` are satellites of one plane (radius `h` km, inclination `i`, longitude `l`, offsets `oa`, `ob`) whose
reported positions are those of the same instant `g t` (`g t = t` with precision 0, the last update otherwise). -/
def InPlane (K : Sky) (h i l oa ob : ℝ) (g : Time → Time) (a b : NodeId) : Prop :=
  K.pos a = some (fun t => Orbit.position ⟨h, i, l, oa⟩ (g t)) ∧ K.pos b = some (fun t => Orbit.position ⟨h, i, l, ob⟩ (g t))

/-- **C67**: frames between two satellites of one plane arrive in the order in which they were sent, in every history: their
distance, and so the propagation delay, never changes. -/
theorem C67_in_plane_in_order {K : Sky} {E : Env} {s0 s : Sys} {ops : List Op} {h i l oa ob : ℝ} {g : Time → Time} {a b : NodeId}
    (hh : 0 ≤ h) (hab : InPlane K h i l oa ob g a b) (h0 : Initial s0) (hx : exec (K.env E) s0 ops = .ok s) {src dst : DevId}
    (hns : (s0.dev src).node = some a) (hnd : (s0.dev dst).node = some b) :
    received src dst s.log ++ pendingRecv src dst s.pending = handed src dst s.log ∧
    ((∀ c, (s.chan c).link.Nodup) → (received src dst s.log).Sublist (begun src s.log)) := by
  refine C30_constant_delay_in_order (D := K.ofSeconds (h * 1000 * (2 * |sin ((ob - oa) / 2)|) / K.speed)) h0 hx hns hnd ?_ ?_ ?_
  · simp [Sky.env, hab.1]
  · simp [Sky.env, hab.2]
  · intro c
    refine ⟨_, rfl, fun t => ?_⟩
    simp only [hab.1, hab.2]
    rw [C33_constant_distance h i l ob oa hh]

/-- Whether a device on one satellite of a plane hears one on another. -/
theorem hears_in_plane {K : Sky} {E : Env} {s : Sys} {h i l oa ob : ℝ} {g : Time → Time} {a b : NodeId}
    (hh : islEarthRad ≤ h * 1000) (hab : InPlane K h i l oa ob g a b) {src dst : DevId} {c : ChanId}
    (hns : (s.dev src).node = some a) (hnd : (s.dev dst).node = some b) (hc : K.budget c = none)
    (hpow : -900 ≤ (s.dev src).txPower) (m : Mac48) :
    Hears (K.env E) s c src m dst ↔ (sin ((oa - ob) / 2) ≠ 0 ∧ islEarthRad < h * 1000 * |cos ((oa - ob) / 2)|) ∧
      TakesUp (s.dev dst) dst src m (s.dev src).txPower := by
  have hlos := C67_in_plane_line_of_sight (i := i) (l := l) (o1 := oa) (o2 := ob) hh (g s.now)
  rw [← hlos]
  unfold Hears reachDev reach
  rw [hns, hnd]
  simp only [Sky.env, hab.1, hab.2, Option.isSome_some, hc, Sky.loss]
  cases hl : islLos (Orbit.position ⟨h, i, l, oa⟩ (g s.now)) (Orbit.position ⟨h, i, l, ob⟩ (g s.now)) with
  | true =>
    simp only [Bool.true_eq_false, if_false]
    rw [if_pos hpow]
    constructor
    · rintro ⟨y, hy, hu⟩
      injection hy with hy
      subst hy
      exact ⟨trivial, hu⟩
    · rintro ⟨_, hu⟩
      exact ⟨_, rfl, hu⟩
  | false =>
    simp only [if_true]
    rw [if_neg (by norm_num)]
    constructor
    · rintro ⟨y, hy, _⟩
      cases hy
    · rintro ⟨hf, _⟩
      cases hf

open Classical in
/-- **C67**: a packet sent to another satellite of the plane over a quiet, properly used inter-satellite channel is received
exactly once if the two see each other (at any time, hence always) and the received power suffices, and else by nobody;
no third device receives it. -/
theorem C67_in_plane_unicast {K : Sky} {E : Env} {s0 s : Sys} {ops : List Op} {h i l oa ob : ℝ} {g : Time → Time} {a b : NodeId}
    {d dst : DevId} {c : ChanId} {p : Bytes} {proto : UInt16} {j : Nat}
    (hh : islEarthRad ≤ h * 1000) (hab : InPlane K h i l oa ob g a b) (hb : K.budget c = none)
    (hE : ErrorFree E) (h0 : Initial s0) (hpr : ProperRun (K.env E) s0 ops) (hx : exec (K.env E) s0 ops = .ok s)
    (hp : s.pending = []) (hup : (s.dev d).linkUp = true) (hcap : 0 < (s.dev d).cap) (hlen : p.length ≤ 1492)
    (hc : (s.dev d).chan = some c) (hk : (s.chan c).kind = .isl) (hdst : (s.chan c).link[j]? = some dst)
    (hns : (s.dev d).node = some a) (hnd : (s.dev dst).node = some b) (hpow : -900 ≤ (s.dev d).txPower) :
    ∃ n s', exec (K.env E) s (.send d p (.mac (s.dev dst).addr) proto :: List.replicate n .run) = .ok s' ∧ s'.pending = [] ∧
      ∀ x, upcallLog x s'.log = upcallLog x s.log ++
        if x = dst ∧ (sin ((oa - ob) / 2) ≠ 0 ∧ islEarthRad < h * 1000 * |cos ((oa - ob) / 2)|) ∧ d ≠ dst ∧
          (s.dev dst).rxThreshold ≤ effectivePower (s.dev dst) (s.dev d).txPower then [(p, proto, (s.dev d).addr)] else [] := by
  obtain ⟨n, s', h1, h2, h3⟩ := C63_isl_unicast (E := K.env E) (proto := proto) (by exact hE) h0 hpr hx hp hup hcap hlen hc hk hdst rfl
  refine ⟨n, s', h1, h2, fun x => ?_⟩
  rw [h3 x]
  congr 1
  refine if_congr ?_ rfl rfl
  rw [hears_in_plane hh hab hns hnd hb hpow]
  have : TakesUp (s.dev dst) dst d (s.dev dst).addr (s.dev d).txPower ↔
      d ≠ dst ∧ (s.dev dst).rxThreshold ≤ effectivePower (s.dev dst) (s.dev d).txPower :=
    ⟨fun h => ⟨h.1, h.2.1⟩, fun h => ⟨h.1, h.2, Or.inr (Or.inl rfl)⟩⟩
  rw [this]

/-- The hypotheses of the two theorems are met: satellites 1 and 3 a quarter of a turn apart at 5000 km altitude. -/
example : ∃ K : Sky, ∃ s, InPlane K 11371.009 1 0 0 (Real.pi / 2) id 1 3 ∧ islEarthRad ≤ 11371.009 * 1000 ∧ K.budget 1 = none ∧
    ErrorFree Demo.env ∧ Initial Demo.sys ∧ ProperRun (K.env Demo.env) Demo.sys [.attach 1 1, .attach 3 1] ∧
    exec (K.env Demo.env) Demo.sys [.attach 1 1, .attach 3 1] = .ok s ∧ s.pending = [] ∧ (s.dev 1).linkUp = true ∧
    0 < (s.dev 1).cap ∧ (s.dev 1).chan = some 1 ∧ (s.chan 1).kind = .isl ∧ (s.chan 1).link[1]? = some 3 ∧
    (s.dev 1).node = some 1 ∧ (s.dev 3).node = some 3 ∧ -900 ≤ (s.dev 1).txPower ∧
    (sin ((0 - Real.pi / 2) / 2) ≠ 0 ∧ islEarthRad < 11371.009 * 1000 * |cos ((0 - Real.pi / 2) / 2)|) := by
  refine ⟨⟨fun n => some (fun t => Orbit.position ⟨11371.009, 1, 0, if n = 1 then 0 else Real.pi / 2⟩ t), fun _ => none, 299792458,
    fun _ => 0⟩, _, ⟨by simp, by simp⟩, by norm_num [islEarthRad], rfl, fun _ _ _ _ => rfl, Demo.sys_initial, demo_properRun _ ?_,
    rfl, rfl, rfl, by decide, rfl, rfl, rfl, rfl, rfl, by decide +kernel, ?_⟩
  · intro op hop
    simp only [List.mem_cons, List.not_mem_nil, or_false] at hop
    rcases hop with rfl | rfl <;> exact ⟨_, _, rfl, by decide⟩
  · have e : (0 - Real.pi / 2) / 2 = -(Real.pi / 4) := by ring
    rw [e, sin_neg, cos_neg, Real.sin_pi_div_four, Real.cos_pi_div_four]
    have h2 : 1.4 < √2 := Real.lt_sqrt_of_sq_lt (by norm_num)
    constructor
    · intro h
      have : √2 = 0 := by linarith
      linarith
    · rw [abs_of_nonneg (by positivity)]
      unfold islEarthRad
      linarith

/-! ## C68 -/

/-- Within the slant range of the elevation mask `e` (degrees): the distance `x` satisfies `x² + 2 r x |sin e| ≤ r² - R²`, where
`r` is the distance of the farther node from the centre of the Earth. -/
def Spec.InSlantRange (e : ℝ) (a b : Vec) : Prop :=
  (b - a).len ^ 2 + 2 * max a.len b.len * (b - a).len * |sin (Spec.rad e)| ≤ max a.len b.len ^ 2 - propEarthRad ^ 2

theorem loss_cast (m : LeoBudget) (tx : Power) (a c : Vec) :
    ((Sky.loss (some m) tx a c : Power) : ℝ) = (LeoLoss.create m.elev m.atm m.fspl m.margin).rxPower tx a c := by
  unfold Sky.loss LeoLoss.rxPower
  simp only
  split <;> split
  · norm_num
  · push_cast
    rfl
  · norm_num
  · push_cast
    rfl

theorem loss_slant {m : LeoBudget} (h1 : -90 < m.elev) (h2 : m.elev < 90) (tx : Power) {a c : Vec}
    (hR : propEarthRad ≤ max a.len c.len) :
    (Spec.InSlantRange m.elev a c → Sky.loss (some m) tx a c = tx - m.atm - m.fspl - m.margin) ∧
    (¬ Spec.InSlantRange m.elev a c → Sky.loss (some m) tx a c = -1000) := by
  have key : (Spec.InSlantRange m.elev a c →
      (LeoLoss.create m.elev m.atm m.fspl m.margin).rxPower tx a c = tx - m.atm - m.fspl - m.margin) ∧
      (¬ Spec.InSlantRange m.elev a c → (LeoLoss.create m.elev m.atm m.fspl m.margin).rxPower tx a c = -1000) := by
    unfold Spec.InSlantRange
    rw [not_le]
    rcases le_total a.len c.len with h | h
    · rw [max_eq_right h] at hR ⊢
      exact C44_accepted_iff h1 h2 h hR
    · rw [max_eq_left h] at hR ⊢
      rw [C44_symmetric, dist_comm' a c]
      exact C44_accepted_iff h1 h2 h hR
  have hc := loss_cast m tx a c
  constructor
  · intro h
    rw [key.1 h] at hc
    exact_mod_cast hc
  · intro h
    rw [key.2 h] at hc
    exact_mod_cast hc

open Classical in
/-- **C68**: a packet sent over a quiet, properly used ground/space channel with the installed loss model is received exactly
once by every attached device of the other side that lies within the slant range of the elevation mask, if what is left of the
power suffices and the packet is for it; by nobody else. -/
theorem C68_ground_space_packet {K : Sky} {E : Env} {s0 s : Sys} {ops : List Op} {m : LeoBudget} {P : DevId → Vec}
    {d : DevId} {c : ChanId} {p : Bytes} {proto : UInt16} {mac : Mac48}
    (h1 : -90 < m.elev) (h2 : m.elev < 90) (hb : K.budget c = some m)
    (hP : ∀ x ∈ members c s.log, ∃ n q, (s.dev x).node = some n ∧ K.pos n = some q ∧ q s.now = P x)
    (hR : ∀ x ∈ members c s.log, (s.dev x).side ≠ (s.dev d).side → propEarthRad ≤ max (P d).len (P x).len)
    (hE : ErrorFree E) (h0 : Initial s0) (hpr : ProperRun (K.env E) s0 ops) (hx : exec (K.env E) s0 ops = .ok s)
    (hp : s.pending = []) (hup : (s.dev d).linkUp = true) (hcap : 0 < (s.dev d).cap) (hlen : p.length ≤ 1492)
    (hc : (s.dev d).chan = some c) (hk : (s.chan c).kind = .leo)
    (hpow : -900 ≤ (s.dev d).txPower - m.atm - m.fspl - m.margin) :
    ∃ n s', exec (K.env E) s (.send d p (.mac mac) proto :: List.replicate n .run) = .ok s' ∧ s'.pending = [] ∧
      ∀ x, upcallLog x s'.log = upcallLog x s.log ++
        if d ∈ members c s.log ∧ x ∈ members c s.log ∧ (s.dev x).side ≠ (s.dev d).side ∧
          Spec.InSlantRange m.elev (P d) (P x) ∧
          TakesUp (s.dev x) x d mac ((s.dev d).txPower - m.atm - m.fspl - m.margin) then
          [(p, proto, (s.dev d).addr)] else [] := by
  obtain ⟨n, s', e1, e2, e3⟩ := C63_leo_packet (E := K.env E) (proto := proto) (m := mac) (by exact hE) h0 hpr hx hp hup hcap hlen hc hk
  refine ⟨n, s', e1, e2, fun x => ?_⟩
  rw [e3 x]
  congr 1
  refine if_congr ?_ rfl rfl
  refine and_congr_right fun hd => and_congr_right fun hxm => and_congr_right fun hside => ?_
  obtain ⟨nd, qd, n1, q1, p1⟩ := hP d hd
  obtain ⟨nx, qx, n2, q2, p2⟩ := hP x hxm
  have hl := loss_slant h1 h2 (s.dev d).txPower (hR x hxm hside)
  unfold Hears reachDev reach
  rw [n1, n2]
  simp only [Sky.env, q1, q2, Option.isSome_some, hb, p1, p2]
  by_cases hin : Spec.InSlantRange m.elev (P d) (P x)
  · rw [hl.1 hin, if_pos hpow]
    constructor
    · rintro ⟨y, hy, hu⟩
      injection hy with hy
      subst hy
      exact ⟨hin, hu⟩
    · rintro ⟨_, hu⟩
      exact ⟨_, rfl, hu⟩
  · rw [hl.2 hin, if_neg (by norm_num)]
    constructor
    · rintro ⟨y, hy, _⟩
      cases hy
    · rintro ⟨hf, _⟩
      exact (hin hf).elim

/-- The hypotheses of `C68_ground_space_packet` are met: gateway 0 below satellite 1, which is in range; satellite 3 on the other
side of the Earth is not. -/
example : ∃ (K : Sky) (m : LeoBudget) (P : DevId → Vec) (s : Sys), -90 < m.elev ∧ m.elev < 90 ∧ K.budget 0 = some m ∧
    exec (K.env Demo.env) Demo.sys [.attach 0 0, .attach 1 0, .attach 3 0] = .ok s ∧
    (∀ x ∈ members 0 s.log, ∃ n q, (s.dev x).node = some n ∧ K.pos n = some q ∧ q s.now = P x) ∧
    (∀ x ∈ members 0 s.log, (s.dev x).side ≠ (s.dev 0).side → propEarthRad ≤ max (P 0).len (P x).len) ∧
    ErrorFree Demo.env ∧ Initial Demo.sys ∧ ProperRun (K.env Demo.env) Demo.sys [.attach 0 0, .attach 1 0, .attach 3 0] ∧
    s.pending = [] ∧ (s.dev 0).linkUp = true ∧ 0 < (s.dev 0).cap ∧ (s.dev 0).chan = some 0 ∧ (s.chan 0).kind = .leo ∧
    -900 ≤ (s.dev 0).txPower - m.atm - m.fspl - m.margin ∧ 0 ∈ members 0 s.log ∧ 1 ∈ members 0 s.log ∧
    (s.dev 1).side ≠ (s.dev 0).side ∧ Spec.InSlantRange m.elev (P 0) (P 1) ∧ ¬ Spec.InSlantRange m.elev (P 0) (P 3) := by
  let P : DevId → Vec := fun x => if x = 0 then ⟨6371010, 0, 0⟩ else if x = 1 then ⟨7371010, 0, 0⟩ else ⟨-7371010, 0, 0⟩
  have l0 : (P 0).len = 6371010 := len_eq (by norm_num) (by simp [P, dot])
  have l1 : (P 1).len = 7371010 := len_eq (by norm_num) (by simp [P, dot])
  have l3 : (P 3).len = 7371010 := len_eq (by norm_num) (by simp [P, dot])
  have d1 : (P 1 - P 0).len = 1000000 := len_eq (by norm_num) (by simp [P, dot]; norm_num)
  have d3 : (P 3 - P 0).len = 13742020 := len_eq (by norm_num) (by simp [P, dot]; norm_num)
  refine ⟨⟨fun n => some (fun _ => P n), fun _ => some ⟨0, 1, 1, 1⟩, 299792458, fun _ => 0⟩, ⟨0, 1, 1, 1⟩, P, _,
    by norm_num, by norm_num, rfl, rfl, ?_, ?_, fun _ _ _ _ => rfl, Demo.sys_initial, demo_properRun _ ?_, rfl, rfl, by decide, rfl, rfl,
    by decide +kernel, by decide, by decide, by decide, ?_, ?_⟩
  · intro x hx
    change x ∈ [0, 1, 3] at hx
    have : x = 0 ∨ x = 1 ∨ x = 3 := by simpa using hx
    rcases this with rfl | rfl | rfl <;> exact ⟨_, _, rfl, rfl, rfl⟩
  · intro x hx hside
    change x ∈ [0, 1, 3] at hx
    have : x = 0 ∨ x = 1 ∨ x = 3 := by simpa using hx
    rcases this with rfl | rfl | rfl
    · exact (hside rfl).elim
    · rw [l0, l1, propEarthRad]; norm_num
    · rw [l0, l3, propEarthRad]; norm_num
  · intro op hop
    simp only [List.mem_cons, List.not_mem_nil, or_false] at hop
    rcases hop with rfl | rfl | rfl <;> exact ⟨_, _, rfl, by decide⟩
  · unfold Spec.InSlantRange
    rw [l0, l1, d1, propEarthRad, Spec.rad]
    norm_num
  · unfold Spec.InSlantRange
    rw [l0, l3, d3, propEarthRad, Spec.rad]
    norm_num

/-! ## C69 -/

/-- **C69**: different satellites of one plane with `S` evenly spaced slots are always at least `2 r sin (π / S)` apart. -/
theorem C69_in_plane_apart_partial {h i l : ℝ} (hh : 0 ≤ h) {S j k : Nat} (hj : j < S) (hk : k < S) (hjk : j ≠ k) (t : Time) :
    h * 1000 * (2 * sin (Real.pi / S)) ≤
      (Orbit.position ⟨h, i, l, 2 * Real.pi * j / S⟩ t - Orbit.position ⟨h, i, l, 2 * Real.pi * k / S⟩ t).len := by
  rw [C33_constant_distance h i l _ _ hh]
  have key : ∀ a b : Nat, a < b → b < S → sin (Real.pi / S) ≤ |sin ((2 * Real.pi * a / S - 2 * Real.pi * b / S) / 2)| := by
    intro a b hab hb
    have hS : (0 : ℝ) < S := by exact_mod_cast (by omega : 0 < S)
    have hpi := Real.pi_pos
    have e : (2 * Real.pi * a / S - 2 * Real.pi * b / S) / 2 = -(Real.pi * (b - a) / S) := by field_simp; ring
    rw [e, sin_neg, abs_neg]
    have h1 : (1 : ℝ) ≤ b - a := by
      have : (a : ℝ) + 1 ≤ b := by exact_mod_cast hab
      linarith
    have h2 : (b : ℝ) - a ≤ S - 1 := by
      have : (b : ℝ) + 1 ≤ S := by exact_mod_cast hb
      have : (0 : ℝ) ≤ a := by positivity
      linarith
    have hS2 : (2 : ℝ) ≤ S := by linarith
    have x1 : Real.pi / S ≤ Real.pi * (b - a) / S := by
      rw [div_le_div_iff_of_pos_right hS]; nlinarith
    have x2 : Real.pi * (b - a) / S ≤ Real.pi - Real.pi / S := by
      rw [div_le_iff₀ hS, sub_mul, div_mul_cancel₀ _ hS.ne']; nlinarith
    have x0 : 0 < Real.pi / S := by positivity
    have xh : Real.pi / S ≤ Real.pi / 2 := div_le_div_of_nonneg_left hpi.le (by norm_num) hS2
    have hge : sin (Real.pi / S) ≤ sin (Real.pi * (b - a) / S) := by
      rcases le_total (Real.pi * (b - a) / S) (Real.pi / 2) with hle | hle
      · exact sin_le_sin_of_le_of_le_pi_div_two (by linarith) hle x1
      · rw [← sin_pi_sub (Real.pi * (b - a) / S)]
        exact sin_le_sin_of_le_of_le_pi_div_two (by linarith) (by linarith) (by linarith)
    exact hge.trans (le_abs_self _)
  have : sin (Real.pi / S) ≤ |sin ((2 * Real.pi * j / S - 2 * Real.pi * k / S) / 2)| := by
    rcases Nat.lt_or_gt_of_ne hjk with h1 | h1
    · exact key j k h1 hk
    · have := key k j h1 hj
      rw [show (2 * Real.pi * j / S - 2 * Real.pi * k / S) / 2 = -((2 * Real.pi * k / S - 2 * Real.pi * j / S) / 2) by ring,
        sin_neg, abs_neg]
      exact this
  have hr : 0 ≤ h * 1000 := by linarith
  exact mul_le_mul_of_nonneg_left (by linarith) hr

/-- **C69**: the distance of two satellites of different planes at the same phase. -/
theorem C69_equal_phase_distance {h i l1 l2 a : ℝ} (hh : 0 ≤ h) (t : Time) :
    (Orbit.position ⟨h, i, l1, a⟩ t - Orbit.position ⟨h, i, l2, a⟩ t).len =
      h * 1000 * (2 * |sin ((l1 - l2) / 2)| * √(cos i ^ 2 * cos (Orbit.progress ⟨h, i, l1, a⟩ t) ^ 2 + sin (Orbit.progress ⟨h, i, l1, a⟩ t) ^ 2)) := by
  apply len_eq (by positivity)
  rw [position_eq, position_eq]
  have hp : Orbit.progress ⟨h, i, l2, a⟩ t = Orbit.progress ⟨h, i, l1, a⟩ t := rfl
  rw [hp]
  simp only
  generalize Orbit.progress ⟨h, i, l1, a⟩ t = q
  have hl : Orbit.latitude ⟨h, i, l1, a⟩ t = Orbit.latitude ⟨h, i, l2, a⟩ t + 2 * ((l1 - l2) / 2) := by
    unfold Orbit.latitude; simp only; ring
  rw [hl]
  generalize Orbit.latitude ⟨h, i, l2, a⟩ t = m
  generalize (l1 - l2) / 2 = d
  have hq : √(cos i ^ 2 * cos q ^ 2 + sin q ^ 2) * √(cos i ^ 2 * cos q ^ 2 + sin q ^ 2) = cos i ^ 2 * cos q ^ 2 + sin q ^ 2 :=
    Real.mul_self_sqrt (by positivity)
  have habs : |sin d| * |sin d| = sin d ^ 2 := by rw [abs_mul_abs_self]; ring
  have rhs : h * 1000 * (2 * |sin d| * √(cos i ^ 2 * cos q ^ 2 + sin q ^ 2)) * (h * 1000 * (2 * |sin d| * √(cos i ^ 2 * cos q ^ 2 + sin q ^ 2))) =
      4 * (h * 1000) ^ 2 * sin d ^ 2 * (cos i ^ 2 * cos q ^ 2 + sin q ^ 2) := by
    calc _ = 4 * (h * 1000) ^ 2 * (|sin d| * |sin d|) * (√(cos i ^ 2 * cos q ^ 2 + sin q ^ 2) * √(cos i ^ 2 * cos q ^ 2 + sin q ^ 2)) := by ring
      _ = _ := by rw [habs, hq]
  rw [rhs]
  have hc : (cos (m + 2 * d) - cos m) ^ 2 + (sin (m + 2 * d) - sin m) ^ 2 = 4 * sin d ^ 2 := by
    have e := cos_sub (m + 2 * d) m
    rw [add_sub_cancel_left, cos_two_mul] at e
    have s0 := sin_sq_add_cos_sq (m + 2 * d)
    have s1 := sin_sq_add_cos_sq d
    have s2 := sin_sq_add_cos_sq m
    linear_combination s0 + s2 + 2 * e - 4 * s1
  simp only [dot, smul, axisU, axisW, add_x, add_y, add_z, sub_x, sub_y, sub_z]
  generalize cos (m + 2 * d) = c1 at hc ⊢
  generalize sin (m + 2 * d) = s1 at hc ⊢
  linear_combination ((h * 1000) ^ 2 * (cos i ^ 2 * cos q ^ 2 + sin q ^ 2)) * hc

/-- **C69**: satellites of different planes at the same phase never meet unless the planes are polar; a lower bound of their
distance. -/
theorem C69_equal_phase_apart_partial {h i l1 l2 a : ℝ} (hh : 0 ≤ h) (t : Time) :
    h * 1000 * (2 * |sin ((l1 - l2) / 2)| * |cos i|) ≤
      (Orbit.position ⟨h, i, l1, a⟩ t - Orbit.position ⟨h, i, l2, a⟩ t).len := by
  rw [C69_equal_phase_distance hh]
  have hr : 0 ≤ h * 1000 := by linarith
  refine mul_le_mul_of_nonneg_left (mul_le_mul_of_nonneg_left ?_ (by positivity)) hr
  apply Real.le_sqrt_of_sq_le
  rw [sq_abs]
  generalize Orbit.progress ⟨h, i, l1, a⟩ t = q
  have s1 := sin_sq_add_cos_sq q
  have s2 := sin_sq_add_cos_sq i
  nlinarith [mul_nonneg (sq_nonneg (sin i)) (sq_nonneg (sin q))]

/-- The bounds are positive: planes 72 degrees apart at an inclination of 53 degrees, 50 satellites per plane. -/
example : 0 < (7521 : ℝ) * 1000 * (2 * |sin ((2 * Real.pi / 5 - 0) / 2)| * |cos (Spec.rad 53)|) ∧
    0 < (7521 : ℝ) * 1000 * (2 * sin (Real.pi / (50 : Nat))) := by
  have hpi := Real.pi_pos
  have h1 : 0 < sin ((2 * Real.pi / 5 - 0) / 2) := sin_pos_of_pos_of_lt_pi (by linarith) (by linarith)
  have h2 : 0 < cos (Spec.rad 53) := cos_rad_pos (by norm_num) (by norm_num)
  have h3 : 0 < sin (Real.pi / (50 : Nat)) := sin_pos_of_pos_of_lt_pi (by positivity) (by push_cast; linarith)
  have h4 := abs_pos.mpr h1.ne'
  have h5 := abs_pos.mpr h2.ne'
  constructor <;> positivity

/-- **C69** is false for polar planes: on installation at time 0 the first satellites of all planes are at the same point,
the pole, and so do not even see each other. -/
theorem C69_polar_planes_meet {junk : ℝ} {o : OrbitRec} (hp : 2 ≤ o.planes) (hs : 0 < o.sats)
    (hn : o.planes * o.sats ≤ 2147483647) (hi : o.inc = 90) :
    ∃ (l : List Sat) (a b : Nat) (s s' : Sat), orbitInstall junk 0 o = .ok l ∧ a ≠ b ∧ l[a]? = some s ∧ l[b]? = some s' ∧
      s.getPosition = s'.getPosition ∧ islLos s.getPosition s'.getPosition = false := by
  obtain ⟨l, h1, _, h2, h3⟩ := C53_one_satellite_per_slot (junk := junk) (now := 0) (by omega) hs hn (by rw [hi]; norm_num)
  obtain ⟨i1, ⟨s, hs1, hs2, hs3⟩, _⟩ := h3 0 0 (by omega) hs
  obtain ⟨i2, ⟨s', hs1', hs2', hs3'⟩, _⟩ := h3 1 0 (by omega) hs
  have hpi := Real.pi_ne_zero
  have ha : i1 ≠ i2 := by
    intro he
    rw [he, hs1'] at hs1
    injection hs1 with hs1
    rw [← hs1, hs2'] at hs2
    have : (0 : ℝ) < o.planes := by exact_mod_cast (by omega : 0 < o.planes)
    field_simp at hs2
    simp at hs2
  have top : ∀ x ∈ l, x.orbit.off = 2 * Real.pi * (0 : Nat) / o.sats → x.getPosition = ⟨0, 0, (6371.009 + o.alt) * 1000⟩ := by
    intro x hx hoff
    obtain ⟨a1, a2, _, a4⟩ := h2 x hx
    have hh : x.orbit.height = 6371.009 + o.alt := by
      unfold Sat.getAltitude earthRadKm at a1; linarith
    have hinc : x.orbit.incl = Real.pi / 2 := by
      unfold Sat.getInclination at a2
      rw [hi] at a2
      field_simp at a2 ⊢
      linarith
    have hprog : x.orbit.progress 0 = 0 := by
      unfold Orbit.progress seconds
      simp [hoff]
    rw [a4, position_eq, hprog, hh, hinc]
    ext <;> simp [smul, axisU, axisW]
  have e1 := top s (List.mem_of_getElem? hs1) hs3
  have e2 := top s' (List.mem_of_getElem? hs1') hs3'
  refine ⟨l, i1, i2, s, s', h1, ha, hs1, hs1', by rw [e1, e2], ?_⟩
  rw [e1, e2]
  exact (C48_coincident _ 0).1

/-- **C69** is false for tilted planes as well: with cos i = 1/√3, four planes and twelve satellites, a satellite of the first
plane and one of the second are at the same point at time 0. -/
theorem C69_tilted_planes_meet : ∃ i : ℝ, 0 < i ∧ i < Real.pi / 2 ∧
    Orbit.position ⟨7521, i, 2 * Real.pi * (0 : Nat) / (4 : Nat), 2 * Real.pi * (1 : Nat) / (12 : Nat)⟩ 0 =
      Orbit.position ⟨7521, i, 2 * Real.pi * (1 : Nat) / (4 : Nat), 2 * Real.pi * (11 : Nat) / (12 : Nat)⟩ 0 := by
  have h3 : 0 < √(3 : ℝ) := by positivity
  have h3' : √(3 : ℝ) * √3 = 3 := Real.mul_self_sqrt (by norm_num)
  have hlt : 1 / √(3 : ℝ) < 1 := by
    rw [div_lt_one h3]
    exact Real.lt_sqrt_of_sq_lt (by norm_num)
  have hgt : 0 < 1 / √(3 : ℝ) := by positivity
  have hci : cos (arccos (1 / √3)) = 1 / √3 := cos_arccos (by linarith) hlt.le
  refine ⟨arccos (1 / √3), arccos_pos.mpr hlt, arccos_lt_pi_div_two.mpr (by positivity), ?_⟩
  rw [position_eq, position_eq]
  have p1 : Orbit.progress ⟨7521, arccos (1 / √3), 2 * Real.pi * (0 : Nat) / (4 : Nat), 2 * Real.pi * (1 : Nat) / (12 : Nat)⟩ 0 = Real.pi / 6 := by
    unfold Orbit.progress seconds; push_cast; ring_nf
  have p2 : Orbit.progress ⟨7521, arccos (1 / √3), 2 * Real.pi * (1 : Nat) / (4 : Nat), 2 * Real.pi * (11 : Nat) / (12 : Nat)⟩ 0 =
      -(Real.pi / 6) + 2 * Real.pi := by
    unfold Orbit.progress seconds; push_cast; ring_nf
  have l1 : Orbit.latitude ⟨7521, arccos (1 / √3), 2 * Real.pi * (0 : Nat) / (4 : Nat), 2 * Real.pi * (1 : Nat) / (12 : Nat)⟩ 0 = 0 := by
    unfold Orbit.latitude; push_cast; simp
  have l2 : Orbit.latitude ⟨7521, arccos (1 / √3), 2 * Real.pi * (1 : Nat) / (4 : Nat), 2 * Real.pi * (11 : Nat) / (12 : Nat)⟩ 0 = Real.pi / 2 := by
    unfold Orbit.latitude; push_cast; ring_nf
  rw [p1, p2, l1, l2, cos_add_two_pi, sin_add_two_pi, cos_neg, sin_neg, cos_pi_div_six, sin_pi_div_six]
  have key : √(3 : ℝ) / 2 * (1 / √3) = 1 / 2 := by field_simp
  ext <;> simp only [smul, axisU, axisW, add_x, add_y, hci, cos_zero, sin_zero, cos_pi_div_two, sin_pi_div_two, add_z]
  · linear_combination (7521 * 1000) * key
  · linear_combination (-7521 * 1000) * key
  · ring

end Verif
