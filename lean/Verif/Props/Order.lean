import Verif.Lemmas.Order
import Verif.Props.Constellation
import Verif.Props.Visibility
import Verif.Props.Example
import Mathlib.Analysis.SpecialFunctions.Trigonometric.Bounds
/-!
# C103: the order of frames between moving nodes
-/

namespace Verif
open Real Spec

/-! ## Nodes whose exact positions are used -/

/-- Frames between two nodes arrive in order if no two hand-overs see the distance shrink faster than light travels. -/
theorem in_order_of_distance {K : Sky} {E : Env} {s0 s : Sys} {ops : List Op} {a b : NodeId} {p q : Time → Vec}
    (hg : Granular K.ofSeconds) (hv : 0 < K.speed) (hp : K.pos a = some p) (hq : K.pos b = some q) (h0 : Initial s0)
    (h : exec (K.env E) s0 ops = .ok s) {src dst : DevId} (hns : (s0.dev src).node = some a) (hnd : (s0.dev dst).node = some b)
    (hd : ∀ t1 t2 c f tx del, t1 ≤ t2 → (t1, Ev.txrx c f src dst tx del) ∈ s.log → t1 = t2 ∨ t1 + tx ≤ t2 →
      (q t1 - p t1).len ≤ (q t2 - p t2).len + K.speed * ((t2 : ℝ) / 1000000000 - (t1 : ℝ) / 1000000000)) :
    received src dst s.log ++ pendingRecv src dst s.pending = handed src dst s.log ∧
    ((∀ c, (s.chan c).link.Nodup) → (received src dst s.log).Sublist (begun src s.log)) := by
  have hdel : ∀ t c f tx del, (t, Ev.txrx c f src dst tx del) ∈ s.log → del = K.ofSeconds ((q t - p t).len / K.speed) := by
    intro t c f tx del hm
    obtain ⟨ns', nd', e1, e2, ⟨l1, _, _⟩, _⟩ := C26_delay_law h0 h hm
    rw [hns] at e1; injection e1 with e1; subst e1
    rw [hnd] at e2; injection e2 with e2; subst e2
    have := l1 (by simp [Sky.env, hp]) (by simp [Sky.env, hq]) _ rfl
    simpa only [hp, hq] using this
  have h1 : received src dst s.log ++ pendingRecv src dst s.pending = handed src dst s.log := by
    refine C30_in_order h0 h src dst (between_announced_of_pairs ?_)
    intro t1 c1 f1 x1 y1 t2 c2 f2 x2 y2 hs
    have ht : t1 ≤ t2 := by
      have := (logSorted_exec h0 h).1.sublist hs
      simpa using this
    have hm1 := hs.subset (show (t1, Ev.txrx c1 f1 src dst x1 y1) ∈ _ by simp)
    have hm2 := hs.subset (show (t2, Ev.txrx c2 f2 src dst x2 y2) ∈ [_, (t2, Ev.txrx c2 f2 src dst x2 y2)] by simp)
    rw [hdel _ _ _ _ _ hm1, hdel _ _ _ _ _ hm2]
    exact arrival_mono hg hv (len_nonneg _) ht (hd _ _ _ _ _ _ ht hm1 ((spaced_exec h0 h src).pair hs))
  refine ⟨h1, fun hl => ?_⟩
  have h2 := (C29_at_most_one_copy h0 h hl src dst).1
  rw [← h1] at h2
  exact (List.sublist_append_left _ _).trans h2

/-- **C103**: between two nodes that together move no faster than the signal, frames arrive in the order in which they were sent,
in every history, if the positions are the exact ones at all times. -/
theorem C103_exact_positions {K : Sky} {E : Env} {s0 s : Sys} {ops : List Op} {a b : NodeId} {p q : Time → Vec} {V W : ℝ}
    (hg : Granular K.ofSeconds) (hv : 0 < K.speed) (hp : K.pos a = some p) (hq : K.pos b = some q)
    (hV : SlowerThan V p) (hW : SlowerThan W q) (hc : V + W ≤ K.speed) (h0 : Initial s0)
    (h : exec (K.env E) s0 ops = .ok s) {src dst : DevId} (hns : (s0.dev src).node = some a) (hnd : (s0.dev dst).node = some b) :
    received src dst s.log ++ pendingRecv src dst s.pending = handed src dst s.log ∧
    ((∀ c, (s.chan c).link.Nodup) → (received src dst s.log).Sublist (begun src s.log)) := by
  refine in_order_of_distance hg hv hp hq h0 h hns hnd fun t1 t2 _ _ _ _ ht _ _ => ?_
  have e := dist_le_moved (p t1) (p t2) (q t1) (q t2)
  have e1 := hV t1 t2
  have e2 := hW t1 t2
  have hx : (t1 : ℝ) ≤ t2 := by exact_mod_cast ht
  rw [abs_sub_comm, abs_of_nonneg (by linarith)] at e1 e2
  nlinarith [mul_nonneg (sub_nonneg.mpr hc) (show 0 ≤ (t2 : ℝ) / 1000000000 - (t1 : ℝ) / 1000000000 by linarith)]

/-- **C103**: with positions that are reported with some delay — the position of a satellite with a precision is the one of the last
update — frames arrive in order if every transmission takes at least `T`, and the signal gets as far in that time as the nodes
move in it and in the age of their positions. -/
theorem C103_reported_positions_partial {K : Sky} {E : Env} {s0 s : Sys} {ops : List Op} {a b : NodeId} {p q p' q' : Time → Vec}
    {V W : ℝ} {P Q T : Time}
    (hg : Granular K.ofSeconds) (hv : 0 < K.speed) (hp : K.pos a = some p) (hq : K.pos b = some q)
    (hP : Lags P p p') (hQ : Lags Q q q') (hV : SlowerThan V p') (hW : SlowerThan W q') (hV0 : 0 ≤ V) (hW0 : 0 ≤ W)
    (hc : V * (P + T) + W * (Q + T) ≤ K.speed * T) (hcs : V + W ≤ K.speed) (h0 : Initial s0)
    (h : exec (K.env E) s0 ops = .ok s) {src dst : DevId} (hns : (s0.dev src).node = some a) (hnd : (s0.dev dst).node = some b)
    (hT : ∀ t c f tx del, (t, Ev.txrx c f src dst tx del) ∈ s.log → T ≤ tx) :
    received src dst s.log ++ pendingRecv src dst s.pending = handed src dst s.log ∧
    ((∀ c, (s.chan c).link.Nodup) → (received src dst s.log).Sublist (begun src s.log)) := by
  refine in_order_of_distance hg hv hp hq h0 h hns hnd fun t1 t2 c f tx del ht hm hs => ?_
  rcases hs with rfl | hs
  · simp
  · have hD : (t1 : ℝ) + T ≤ t2 := by
      have := hT _ _ _ _ _ hm
      exact_mod_cast (show t1 + T ≤ t2 by omega)
    have lag : ∀ {P : Time} {V : ℝ} {p p' : Time → Vec}, Lags P p p' → SlowerThan V p' → 0 ≤ V →
        (p t1 - p t2).len ≤ V * (((t2 : ℝ) - t1 + P) / 1000000000) := by
      intro P V p p' hP hV hV0
      obtain ⟨u1, a1, a2, a3⟩ := hP t1
      obtain ⟨u2, b1, b2, b3⟩ := hP t2
      rw [a3, b3]
      refine (hV u1 u2).trans (mul_le_mul_of_nonneg_left ?_ hV0)
      have a1' : (u1 : ℝ) ≤ t1 := by exact_mod_cast a1
      have a2' : (t1 : ℝ) ≤ u1 + P := by exact_mod_cast a2
      have b1' : (u2 : ℝ) ≤ t2 := by exact_mod_cast b1
      have b2' : (t2 : ℝ) ≤ u2 + P := by exact_mod_cast b2
      have hT0 : (0 : ℝ) ≤ T := by positivity
      rw [abs_le]
      constructor <;> linarith
    have e := dist_le_moved (p t1) (p t2) (q t1) (q t2)
    have e1 := lag hP hV hV0
    have e2 := lag hQ hW hW0
    have key : V * ((t2 : ℝ) - t1 + P) + W * ((t2 : ℝ) - t1 + Q) ≤ K.speed * ((t2 : ℝ) - t1) := by
      nlinarith [mul_nonneg (sub_nonneg.mpr hcs) (show 0 ≤ (t2 : ℝ) - t1 - T by linarith)]
    have : V * (((t2 : ℝ) - t1 + P) / 1000000000) + W * (((t2 : ℝ) - t1 + Q) / 1000000000) ≤
        K.speed * ((t2 : ℝ) / 1000000000 - (t1 : ℝ) / 1000000000) := by linarith
    linarith

/-! ## Satellites -/

/-- Up to 2000 km altitude a satellite moves by less than 9.7 km per second in the reported coordinates. -/
theorem slower_low_orbit {o : Orbit} (h3 : 0 < o.height) (h4 : o.height ≤ earthRadKm + 2000) : SlowerThan 9700 o.position := by
  intro t u
  refine (C86_rate h3 t u).trans (mul_le_mul_of_nonneg_right ?_ (abs_nonneg _))
  have hpi := Real.pi_lt_d2
  have hpi0 := Real.pi_pos
  unfold earthRadKm at h4
  have hs : o.height * o.speed ≤ 57770000 := by
    unfold Orbit.speed earthGm
    have e : o.height * √(39.8600436 / o.height) = √(39.8600436 * o.height) := by
      rw [show 39.8600436 * o.height = o.height ^ 2 * (39.8600436 / o.height) by field_simp,
        Real.sqrt_mul (by positivity), Real.sqrt_sq h3.le]
    have : √(39.8600436 * o.height) ≤ 577.7 := by
      rw [Real.sqrt_le_left (by norm_num)]
      nlinarith
    nlinarith
  nlinarith

theorem slower_fixed (v : Vec) : SlowerThan 0 fun _ => v := by
  intro t u
  have : (v - v).len = 0 := len_eq le_rfl (by simp [dot])
  rw [this, zero_mul]

theorem lags_refl (p : Time → Vec) : Lags 0 p p := fun t => ⟨t, le_rfl, by omega, rfl⟩

/-- Every frame handed over has at least 64 bytes. -/
theorem handed_length {E : Env} {s0 s : Sys} {ops : List Op} (h0 : Initial s0) (h : exec E s0 ops = .ok s) {t : Time} {c : ChanId}
    {f : Bytes} {src dst : DevId} {tx del : Time} (hm : (t, Ev.txrx c f src dst tx del) ∈ s.log) : 64 ≤ f.length := by
  obtain ⟨_, _, _, _, _, _, hbeg⟩ := C26_delay_law h0 h hm
  have hacc : f ∈ accepted src s.log := by
    rw [((good_exec h0 h).inv.dev src).log.acc]
    exact List.mem_append_left _ (mem_begun.mpr ⟨_, hbeg⟩)
  obtain ⟨o1, q, m, pr, o2, s1, rfl, e1, hf, hret⟩ := accepted_origin h0 h hacc
  rw [hf, addHeader_eq, framePayload_eq]
  simp [le32_length, ethHeader, llcHeader, be16, Mac48.bytes]
  omega

/-- **C103 for low orbits**: frames between two satellites up to 2000 km high whose positions are at most one second old arrive in
order if the rate of the sender is such that a frame of 64 bytes or more takes at least 65 µs (up to 7.8 Mb/s). -/
theorem C103_satellites {K : Sky} {E : Env} {s0 s : Sys} {ops : List Op} {a b : NodeId} {oa ob : Orbit} {p q : Time → Vec}
    (hg : Granular K.ofSeconds) (hv : K.speed = 299792458) (hp : K.pos a = some p) (hq : K.pos b = some q)
    (hP : Lags 1000000000 p oa.position) (hQ : Lags 1000000000 q ob.position) (ha : 0 < oa.height) (ha' : oa.height ≤ earthRadKm + 2000)
    (hb : 0 < ob.height) (hb' : ob.height ≤ earthRadKm + 2000) (h0 : Initial s0) (h : exec (K.env E) s0 ops = .ok s) {src dst : DevId}
    (hns : (s0.dev src).node = some a) (hnd : (s0.dev dst).node = some b)
    (hrate : ∀ o1 s1, o1 <+: ops → exec (K.env E) s0 o1 = .ok s1 → ∀ n, 64 ≤ n → 65000 ≤ E.txTime (s1.dev src).rate n) :
    received src dst s.log ++ pendingRecv src dst s.pending = handed src dst s.log ∧
    ((∀ c, (s.chan c).link.Nodup) → (received src dst s.log).Sublist (begun src s.log)) := by
  refine C103_reported_positions_partial (T := 65000) (P := 1000000000) (Q := 1000000000) hg (by rw [hv]; norm_num) hp hq hP hQ
    (slower_low_orbit ha ha') (slower_low_orbit hb hb') (by norm_num) (by norm_num) (by rw [hv]; norm_num) (by rw [hv]; norm_num) h0 h hns hnd ?_
  intro t c f tx del hm
  obtain ⟨_, _, _, _, _, ⟨o1, o2, s1, ho, hs1, htx⟩, _⟩ := C26_delay_law h0 h hm
  rw [htx]
  exact hrate o1 s1 ⟨o2, ho.symm⟩ hs1 _ (handed_length h0 h hm)

/-- **C103 for ground stations**: the same with a node that does not move, for frames of at least 33 µs, in both directions. -/
theorem C103_station {K : Sky} {E : Env} {s0 s : Sys} {ops : List Op} {a b : NodeId} {o : Orbit} {p : Time → Vec} {v : Vec}
    (hg : Granular K.ofSeconds) (hv : K.speed = 299792458) (hp : K.pos a = some p) (hq : K.pos b = some fun _ => v)
    (hP : Lags 1000000000 p o.position) (ha : 0 < o.height) (ha' : o.height ≤ earthRadKm + 2000)
    (h0 : Initial s0) (h : exec (K.env E) s0 ops = .ok s) {src dst : DevId}
    (hn : ((s0.dev src).node = some a ∧ (s0.dev dst).node = some b) ∨ ((s0.dev src).node = some b ∧ (s0.dev dst).node = some a))
    (hrate : ∀ o1 s1, o1 <+: ops → exec (K.env E) s0 o1 = .ok s1 → ∀ n, 64 ≤ n → 33000 ≤ E.txTime (s1.dev src).rate n) :
    received src dst s.log ++ pendingRecv src dst s.pending = handed src dst s.log ∧
    ((∀ c, (s.chan c).link.Nodup) → (received src dst s.log).Sublist (begun src s.log)) := by
  have hT : ∀ t c f tx del, (t, Ev.txrx c f src dst tx del) ∈ s.log → 33000 ≤ tx := by
    intro t c f tx del hm
    obtain ⟨_, _, _, _, _, ⟨o1, o2, s1, ho, hs1, htx⟩, _⟩ := C26_delay_law h0 h hm
    rw [htx]
    exact hrate o1 s1 ⟨o2, ho.symm⟩ hs1 _ (handed_length h0 h hm)
  rcases hn with ⟨hns, hnd⟩ | ⟨hns, hnd⟩
  · exact C103_reported_positions_partial (T := 33000) (P := 1000000000) (Q := 0) hg (by rw [hv]; norm_num) hp hq hP (lags_refl _)
      (slower_low_orbit ha ha') (slower_fixed v) (by norm_num) le_rfl (by rw [hv]; norm_num) (by rw [hv]; norm_num) h0 h hns hnd hT
  · exact C103_reported_positions_partial (T := 33000) (P := 0) (Q := 1000000000) hg (by rw [hv]; norm_num) hq hp (lags_refl _) hP
      (slower_fixed v) (slower_low_orbit ha ha') le_rfl (by norm_num) (by rw [hv]; norm_num) (by rw [hv]; norm_num) h0 h hns hnd hT

/-! ## The example programs -/

/-- Every node of the example programs moves slowly, and its position is at most one second old. -/
theorem example_node_slow {a : ExampleArgs} {X : ExampleNet} {K : Sky} (hK : SkyOf a X K) (ho : ∀ o ∈ a.orbits, Installable o)
    (halt : ∀ o ∈ a.orbits, o.alt ≤ 2000) (hprec : a.prec ≤ 1000000000) (hsurf : ∀ x ∈ X.ground, ∃ v, x = some v)
    {n : Nat} (hn : n < (places a.orbits).length + X.ground.length) :
    ∃ p p', K.pos n = some p ∧ Lags 1000000000 p p' ∧ SlowerThan 9700 p' := by
  by_cases hlt : n < (places a.orbits).length
  · obtain ⟨⟨o, i, k⟩, hx⟩ : ∃ x, (places a.orbits)[n]? = some x := ⟨_, List.getElem?_eq_getElem hlt⟩
    obtain ⟨f, hf, hr⟩ := hK.sat n o i k hx
    have hm := (places_orbit (List.mem_of_getElem? hx)).1
    have ha := (ho o hm).2.2.2.2
    have hb := halt o hm
    refine ⟨f, (orbitOf (o, i, k)).position, hf, fun t => ?_, slower_low_orbit ?_ ?_⟩
    · obtain ⟨u, hu, he⟩ := hr t
      refine ⟨u, ?_, ?_, ?_⟩
      · unfold Reported at hu
        split at hu <;> omega
      · unfold Reported at hu
        split at hu <;> omega
      · rw [he]
        exact (track_eq (x := (o, i, k)) ha u).symm
    · show 0 < earthRadKm + o.alt
      unfold earthRadKm; linarith
    · show earthRadKm + o.alt ≤ earthRadKm + 2000
      linarith
  · have hj : n - (places a.orbits).length < X.ground.length := by omega
    obtain ⟨v, hv⟩ := hsurf _ (List.getElem_mem hj)
    have := hK.gnd (n - (places a.orbits).length) v (by rw [List.getElem?_eq_getElem hj, hv])
    rw [Nat.add_sub_cancel' (by omega)] at this
    refine ⟨_, fun _ => v, this, fun t => ⟨t, le_rfl, by omega, rfl⟩, fun t u => ?_⟩
    refine (slower_fixed v t u).trans ?_
    rw [zero_mul]
    positivity

/-- **C103 for the example programs**: with satellites up to 2000 km high, updated at least every second, all frames between two
devices of the network arrive in the order in which they were sent, whatever the traffic, if transmissions take at least 65 µs.
(With the default rate of the devices they take more than 15 ms.) -/
theorem C103_example {junk : ℝ} {a : ExampleArgs} {p : Preset} (hp : p ∈ presets) (hn : a.constellation = p.name)
    (ho : ∀ o ∈ a.orbits, Installable o) (hm : 2 * (places a.orbits).length + a.lonGws * a.latGws % 2 ^ 32 + 2 < 2 ^ 48)
    (halt : ∀ o ∈ a.orbits, o.alt ≤ 2000) (hprec : a.prec ≤ 1000000000) {s : Sys} (h0 : Initial s) {X : ExampleNet}
    (h : exampleMain junk a s = .ok X) {K : Sky} (hK : SkyOf a X K) (hg : Granular K.ofSeconds) (hv : K.speed = 299792458)
    {E : Env} {ops : List Op} (ht : ∀ op ∈ ops, PlainTraffic op) {s1 : Sys} (hx : exec (K.env E) X.build.sys ops = .ok s1)
    {src dst : DevId} (hs : src ∈ X.utNet ++ X.islNet) (hd : dst ∈ X.utNet ++ X.islNet)
    (hT : ∀ t c f tx del, (t, Ev.txrx c f src dst tx del) ∈ s1.log → 65000 ≤ tx) :
    received src dst s1.log ++ pendingRecv src dst s1.pending = handed src dst s1.log := by
  have B := built_of hp hn ho hm h
  have hnode : ∀ d ∈ X.utNet ++ X.islNet, ∃ n : Nat, (X.build.sys.dev d).node = some n ∧ n < (places a.orbits).length + X.ground.length := by
    intro d hd
    rcases List.mem_append.mp hd with hd | hd
    · rw [B.ut] at hd
      have hk : (d : Nat) < satCount a + X.ground.length := by simpa using List.mem_range'.mp hd
      obtain ⟨v, hv, _, _, h3, _⟩ := B.dev d hk
      exact ⟨d, by rw [hv]; exact h3, hk⟩
    · cases hisl : a.islEnabled with
      | false => rw [B.noIsl hisl] at hd; cases hd
      | true =>
        obtain ⟨h1, _, _, h4⟩ := B.isl hisl
        rw [h1] at hd
        obtain ⟨i, hi, rfl⟩ := List.mem_range'.mp hd
        obtain ⟨v, hv, _, h5, _⟩ := h4 i hi
        rw [Nat.one_mul, hv]
        exact ⟨i, h5, by have : i < (places a.orbits).length := hi; omega⟩
  obtain ⟨s0, o, hi, _, hex⟩ := built_history B h0 ht hx
  have same : ∀ d, (s0.dev d).node = (X.build.sys.dev d).node := by
    intro d
    rw [← node_exec hex d, node_exec hx d]
  obtain ⟨n1, e1, l1⟩ := hnode src hs
  obtain ⟨n2, e2, l2⟩ := hnode dst hd
  have hsurf : ∀ x ∈ X.ground, ∃ v, x = some v := fun x hx => by
    obtain ⟨v, hv, _⟩ := B.surface x hx
    exact ⟨v, hv⟩
  obtain ⟨p1, p1', k1, g1, w1⟩ := example_node_slow hK ho halt hprec hsurf l1
  obtain ⟨p2, p2', k2, g2, w2⟩ := example_node_slow hK ho halt hprec hsurf l2
  exact (C103_reported_positions_partial (T := 65000) (P := 1000000000) (Q := 1000000000) hg (by rw [hv]; norm_num) k1 k2 g1 g2 w1 w2
    (by norm_num) (by norm_num) (by rw [hv]; norm_num) (by rw [hv]; norm_num) hi hex (by rw [same]; exact e1) (by rw [same]; exact e2) hT).1

/-! ## Witnesses -/

/-- A satellite on an equatorial orbit against the direction of the Earth's rotation. -/
noncomputable def swapOrbit : Orbit := ⟨7371, Real.pi, 0, 0⟩

/-- Its angular speed in the reported coordinates. -/
noncomputable def swapRate : ℝ := swapOrbit.speed / 6371009 + 2 * Real.pi / 86400

theorem swap_position (t : Time) : swapOrbit.position t =
    ⟨-(7371000 * cos (swapRate * seconds t)), -(7371000 * sin (swapRate * seconds t)), 0⟩ := by
  have hpi := Real.pi_pos
  have e : swapRate * seconds t = swapOrbit.latitude t - swapOrbit.progress t := by
    unfold swapRate Orbit.latitude Orbit.progress earthRadKm seconds
    rw [if_pos (show swapOrbit.incl > Real.pi / 2 by show Real.pi > Real.pi / 2; linarith)]
    show _ = swapOrbit.lon + _ - (_ + swapOrbit.off)
    rw [show swapOrbit.lon = 0 from rfl, show swapOrbit.off = 0 from rfl]
    ring
  rw [e, position_eq, cos_sub, sin_sub]
  have hi : swapOrbit.incl = Real.pi := rfl
  have hh : swapOrbit.height = 7371 := rfl
  ext
  · simp [smul, axisU, axisW, hi, hh]; ring
  · simp [smul, axisU, axisW, hi, hh]; ring
  · simp [smul, axisU, axisW, hi]

theorem swapRate_bounds : 0.0012 < swapRate ∧ swapRate < 0.00125 := by
  have h1 := Real.pi_gt_d2
  have h2 := Real.pi_lt_d2
  have hs : swapOrbit.speed = √(39.8600436 / 7371) * 100000 := rfl
  have a1 : 0.073 < √(39.8600436 / 7371) := Real.lt_sqrt_of_sq_lt (by norm_num)
  have a2 : √(39.8600436 / 7371) < 0.074 := (Real.sqrt_lt' (by norm_num)).mpr (by norm_num)
  unfold swapRate
  rw [hs]
  constructor
  · nlinarith
  · nlinarith

/-- The distances of the station before and after the update: a light runs them in 4070000.5 ns and 4064000.5 ns. -/
noncomputable def swapFar : ℝ := 4070000.5 * 0.299792458
noncomputable def swapNear : ℝ := 4064000.5 * 0.299792458

noncomputable def swapA : ℝ := (6371010 ^ 2 + 7371000 ^ 2 - swapFar ^ 2) / 2
noncomputable def swapB : ℝ := (6371010 ^ 2 + 7371000 ^ 2 - swapNear ^ 2) / 2
noncomputable def swapW : ℝ := (swapB - swapA * cos swapRate) / (7371000 * sin swapRate)
noncomputable def swapZ : ℝ := √(6371010 ^ 2 - (swapA / 7371000) ^ 2 - swapW ^ 2)

/-- A station on the surface at these distances of the two positions. -/
noncomputable def swapStation : Vec := ⟨-(swapA / 7371000), -swapW, swapZ⟩

theorem swapSin : 0.00119 < sin swapRate := by
  obtain ⟨h1, h2⟩ := swapRate_bounds
  have := Real.sin_gt_sub_cube (x := swapRate) (by linarith)
  nlinarith [mul_pos (show 0 < swapRate by linarith) (show 0 < swapRate by linarith), pow_le_pow_left₀ (show 0 ≤ swapRate by linarith) h2.le 3]

theorem swapW_bounds : 0 ≤ swapW ∧ swapW ≤ 300000 := by
  obtain ⟨h1, h2⟩ := swapRate_bounds
  have hs := swapSin
  have c1 := Real.cos_le_one swapRate
  have c2 := Real.one_sub_sq_div_two_le_cos (x := swapRate)
  have c3 : 1 - cos swapRate ≤ 0.000001 := by nlinarith
  unfold swapW
  rw [le_div_iff₀ (by positivity), div_le_iff₀ (by positivity)]
  unfold swapA swapB swapFar swapNear
  constructor
  · norm_num; nlinarith
  · norm_num; nlinarith

theorem swapZ_sq : swapZ ^ 2 = 6371010 ^ 2 - (swapA / 7371000) ^ 2 - swapW ^ 2 := by
  unfold swapZ
  apply Real.sq_sqrt
  obtain ⟨w1, w2⟩ := swapW_bounds
  have : swapW ^ 2 ≤ 300000 ^ 2 := pow_le_pow_left₀ w1 w2 2
  unfold swapA swapFar
  norm_num at *
  nlinarith

theorem swapStation_len : swapStation.len = 6371010 := by
  apply len_eq (by norm_num)
  have := swapZ_sq
  unfold swapStation dot
  simp only
  linear_combination this

theorem swap_far : (swapStation - swapOrbit.position 0).len = swapFar := by
  apply len_eq (by unfold swapFar; norm_num)
  have := swapZ_sq
  rw [swap_position]
  unfold swapStation dot
  simp only [sub_x, sub_y, sub_z, seconds, Nat.cast_zero, zero_div, mul_zero, cos_zero, sin_zero]
  have hA : 2 * swapA = 6371010 ^ 2 + 7371000 ^ 2 - swapFar ^ 2 := by unfold swapA; ring
  linear_combination this - hA

theorem swap_near : (swapStation - swapOrbit.position 1000000000).len = swapNear := by
  apply len_eq (by unfold swapNear; norm_num)
  have := swapZ_sq
  rw [swap_position]
  unfold swapStation dot
  have e : seconds 1000000000 = 1 := by unfold seconds; norm_num
  simp only [sub_x, sub_y, sub_z, e, mul_one]
  have hB : 2 * swapB = 6371010 ^ 2 + 7371000 ^ 2 - swapNear ^ 2 := by unfold swapB; ring
  have hw : swapW * (7371000 * sin swapRate) = swapB - swapA * cos swapRate := by
    unfold swapW
    have := swapSin
    exact div_mul_cancel₀ _ (by positivity)
  have hcs := sin_sq_add_cos_sq swapRate
  linear_combination this - hB - 2 * hw + 7371000 ^ 2 * hcs

/-- The station is node 0 and all even ones, the satellite node 1 and all odd ones; positions are updated every second. -/
noncomputable def swapSky : Sky :=
  ⟨fun n => some fun t => if n % 2 = 0 then swapStation else swapOrbit.position (t / 1000000000 * 1000000000),
   fun _ => some ⟨10, 0, 0, 0⟩, 299792458, fun x => ⌊x * 1000000000⌋₊⟩

/-- The environment that comes from this, computed for the first two seconds. -/
noncomputable def swapEnv : Env :=
  { Demo.env with
    hasMob := fun _ => true
    loss := fun c => some fun tx a b t =>
      if t < 2000000000 then tx else
        match (swapSky.env Demo.env).loss c with
        | some g => g tx a b t
        | none => tx
    delay := fun c => some fun a b t =>
      if t < 2000000000 then if a % 2 = b % 2 then 0 else if t < 1000000000 then 4070000 else 4064000 else
        match (swapSky.env Demo.env).delay c with
        | some g => g a b t
        | none => 0 }

theorem swap_range {g s : Vec} (hg : g.len = 6371010) (hs : s.len = 7371000) (hd : (s - g).len ≤ 1300000) :
    Spec.InSlantRange 10 g s ∧ Spec.InSlantRange 10 s g := by
  have h0 := len_nonneg (s - g)
  have hs1 : |sin (Spec.rad 10)| ≤ 1 / 2 := by
    have hpi := Real.pi_pos
    have e : Spec.rad 10 = Real.pi / 18 := by unfold Spec.rad; ring
    rw [e, abs_of_nonneg (sin_nonneg_of_nonneg_of_le_pi (by positivity) (by linarith)), ← Real.sin_pi_div_six]
    exact sin_le_sin_of_le_of_le_pi_div_two (by linarith) (by linarith) (by linarith)
  have hb : (s - g).len ^ 2 + 2 * 7371000 * (s - g).len * |sin (Spec.rad 10)| ≤ 7371000 ^ 2 - propEarthRad ^ 2 := by
    have h2 : (s - g).len * |sin (Spec.rad 10)| ≤ 1300000 * (1 / 2) := mul_le_mul hd hs1 (abs_nonneg _) (by norm_num)
    unfold propEarthRad
    nlinarith
  have m1 : max g.len s.len = 7371000 := by rw [hg, hs]; norm_num
  have m2 : max s.len g.len = 7371000 := by rw [hg, hs]; norm_num
  unfold Spec.InSlantRange
  rw [len_sub_swap g s, m1, m2]
  exact ⟨hb, hb⟩

theorem swapSky_env : swapSky.env Demo.env = swapEnv := by
  have hf := swap_far
  have hn := swap_near
  have hgl := swapStation_len
  have hsl : ∀ t, (swapOrbit.position t).len = 7371000 := by
    intro t
    refine len_eq (by norm_num) ((position_dot _ _).trans ?_)
    rw [show swapOrbit.height = 7371 from rfl]
    norm_num
  have hself : ∀ v : Vec, (v - v).len = 0 := fun v => len_eq le_rfl (by simp [dot])
  have hR0 : ∀ v : Vec, v.len = 6371010 ∨ v.len = 7371000 → Spec.InSlantRange 10 v v := by
    intro v hv
    unfold Spec.InSlantRange propEarthRad
    rw [hself, max_self]
    rcases hv with hv | hv <;> rw [hv] <;> norm_num
  have hq : ∀ t : Nat, t < 2000000000 → (t < 1000000000 ∧ t / 1000000000 * 1000000000 = 0) ∨
      (¬ t < 1000000000 ∧ t / 1000000000 * 1000000000 = 1000000000) := by
    intro t ht
    omega
  have hdist : ∀ t : Nat, t < 2000000000 → (swapStation - swapOrbit.position (t / 1000000000 * 1000000000)).len ≤ 1300000 := by
    intro t ht
    rcases hq t ht with ⟨_, e⟩ | ⟨_, e⟩
    · rw [e, hf]; unfold swapFar; norm_num
    · rw [e, hn]; unfold swapNear; norm_num
  have hloss : ∀ (tx : Power) (a c : Vec), propEarthRad ≤ max a.len c.len → Spec.InSlantRange 10 a c →
      Sky.loss (some ⟨10, 0, 0, 0⟩) tx a c = tx := by
    intro tx a c hm hr
    rw [(loss_slant (m := ⟨10, 0, 0, 0⟩) (by norm_num) (by norm_num) tx hm).1 hr]
    norm_num
  have mg : propEarthRad ≤ 6371010 := by unfold propEarthRad; norm_num
  have fl : ∀ n : Nat, ⌊((n : ℝ) + 0.5) * 0.299792458 / 299792458 * 1000000000⌋₊ = n := by
    intro n
    rw [show ((n : ℝ) + 0.5) * 0.299792458 / 299792458 * 1000000000 = n + 0.5 by ring, Nat.floor_eq_iff (by positivity)]
    constructor <;> linarith
  have f1 : ⌊swapFar / 299792458 * 1000000000⌋₊ = 4070000 := by
    have := fl 4070000
    unfold swapFar
    rw [← this]; congr 3; norm_num
  have f2 : ⌊swapNear / 299792458 * 1000000000⌋₊ = 4064000 := by
    have := fl 4064000
    unfold swapNear
    rw [← this]; congr 3; norm_num
  have el : (swapSky.env Demo.env).loss = swapEnv.loss := by
    funext c
    show some _ = some _
    congr 1
    funext tx a b t
    by_cases ht : t < 2000000000
    · rw [if_pos ht]
      have hr := swap_range hgl (hsl (t / 1000000000 * 1000000000)) (by rw [len_sub_swap]; exact hdist t ht)
      show Sky.loss (some ⟨10, 0, 0, 0⟩) tx (if a % 2 = 0 then _ else _) (if b % 2 = 0 then _ else _) = tx
      split_ifs
      · exact hloss _ _ _ (by rw [hgl, max_self]; exact mg) (hR0 _ (Or.inl hgl))
      · exact hloss _ _ _ (by rw [hgl]; exact le_max_of_le_left mg) hr.1
      · exact hloss _ _ _ (by rw [hgl]; exact le_max_of_le_right mg) hr.2
      · exact hloss _ _ _ (by rw [hsl, max_self]; linarith) (hR0 _ (Or.inr (hsl _)))
    · rw [if_neg ht]; rfl
  have ed : (swapSky.env Demo.env).delay = swapEnv.delay := by
    funext c
    show some _ = some _
    congr 1
    funext a b t
    by_cases ht : t < 2000000000
    · rw [if_pos ht]
      show ⌊((if b % 2 = 0 then swapStation else _) - (if a % 2 = 0 then swapStation else _)).len / 299792458 * 1000000000⌋₊ = _
      rcases Nat.mod_two_eq_zero_or_one a with ha | ha <;> rcases Nat.mod_two_eq_zero_or_one b with hb | hb
      · simp [ha, hb, hself]
      · rw [ha, hb, if_neg (by decide), if_pos rfl, if_neg (by decide), len_sub_swap]
        rcases hq t ht with ⟨h1, e⟩ | ⟨h1, e⟩
        · rw [e, hf, if_pos h1, f1]
        · rw [e, hn, if_neg h1, f2]
      · rw [ha, hb, if_pos rfl, if_neg (by decide), if_neg (by decide)]
        rcases hq t ht with ⟨h1, e⟩ | ⟨h1, e⟩
        · rw [e, hf, if_pos h1, f1]
        · rw [e, hn, if_neg h1, f2]
      · simp [ha, hb, hself]
    · rw [if_neg ht]; rfl
  have : swapSky.env Demo.env = { swapSky.env Demo.env with loss := swapEnv.loss, delay := swapEnv.delay } := by
    rw [← el, ← ed]
  rw [this]
  rfl

/-- Two packets of the station, one 5 µs before the update, the other at the update. -/
def swapRun : List Op :=
  [.attach 0 0, .attach 1 0, .wait 999995000, .send 0 [1] (.mac (Demo.mac 2)) 1, .run, .wait 4936,
   .send 0 [2] (.mac (Demo.mac 2)) 1, .run, .run, .run]

/-- **C103 fails without a bound on the transmission time**: a station below a satellite 1000 km high whose position is updated every
second sends two packets within 5 µs, one before and one after an update; both arrive, the second one first, because the update
makes the distance 1.8 km shorter at once.  -/
theorem C103_overtakes : ∃ (K : Sky) (o : Orbit) (v : Vec) (p : Time → Vec) (s : Sys),
    Granular K.ofSeconds ∧ K.speed = 299792458 ∧ (∀ c, ∃ m, K.budget c = some m ∧ m.elev = 10) ∧
    K.pos 0 = some (fun _ => v) ∧ v.len = 6371010 ∧
    K.pos 1 = some p ∧ Lags 1000000000 p o.position ∧ o.height = 7371 ∧
    (Demo.sys.dev 0).node = some 0 ∧ (Demo.sys.dev 1).node = some 1 ∧
    exec (K.env Demo.env) Demo.sys swapRun = .ok s ∧ s.pending = [] ∧
    (∃ f g, f ≠ g ∧ begun 0 s.log = [f, g] ∧ handed 0 1 s.log = [f, g] ∧ received 0 1 s.log = [g, f]) := by
  obtain ⟨s, hs, ht⟩ := Demo.exists_of_check (E := swapEnv) (s := Demo.sys) (ops := swapRun)
    (test := fun s => s.pending.isEmpty &&
      (match begun 0 s.log with
        | [f, g] => decide (f ≠ g) && decide (handed 0 1 s.log = [f, g]) && decide (received 0 1 s.log = [g, f])
        | _ => false)) (by decide +kernel)
  rw [Bool.and_eq_true, List.isEmpty_iff] at ht
  refine ⟨swapSky, swapOrbit, swapStation, _, s, granular_floor, rfl, fun _ => ⟨_, rfl, rfl⟩, rfl, swapStation_len, rfl, ?_, rfl, rfl, rfl, ?_, ht.1, ?_⟩
  · intro t
    refine ⟨t / 1000000000 * 1000000000, ?_, ?_, rfl⟩ <;> omega
  · rw [swapSky_env]; exact hs
  · have ht2 := ht.2
    split at ht2
    · rename_i f g hb
      simp only [Bool.and_eq_true, decide_eq_true_eq] at ht2
      exact ⟨f, g, ht2.1.1, hb, ht2.1.2, ht2.2⟩
    · cases ht2

/-- Two packets of the station, the second one waiting for the first. -/
def slowRun : List Op :=
  [.attach 0 0, .attach 1 0, .wait 999995000, .send 0 [1] (.mac (Demo.mac 2)) 1, .send 0 [2] (.mac (Demo.mac 2)) 1,
   .run, .run, .run, .run]

/-- The hypotheses of `C103_station` are met: the same nodes with a slower sender. -/
example : ∃ (o : Orbit) (v : Vec) (p : Time → Vec) (E : Env) (ops : List Op) (s : Sys),
    Granular swapSky.ofSeconds ∧ swapSky.speed = 299792458 ∧ swapSky.pos 1 = some p ∧ swapSky.pos 0 = some (fun _ => v) ∧
    Lags 1000000000 p o.position ∧ 0 < o.height ∧ o.height ≤ earthRadKm + 2000 ∧
    (Demo.sys.dev 0).node = some 0 ∧ (Demo.sys.dev 1).node = some 1 ∧
    (∀ r n, 64 ≤ n → 33000 ≤ E.txTime r n) ∧ exec (swapSky.env E) Demo.sys ops = .ok s ∧ (received 0 1 s.log).length = 2 := by
  have he : swapSky.env { Demo.env with txTime := fun _ n => 1000 * n } = { swapEnv with txTime := fun _ n => 1000 * n } := by
    rw [← swapSky_env]; rfl
  obtain ⟨s, hs, ht⟩ := Demo.exists_of_check (E := { swapEnv with txTime := fun _ n => 1000 * n }) (s := Demo.sys)
    (ops := slowRun)
    (test := fun s => decide ((received 0 1 s.log).length = 2)) (by decide +kernel)
  refine ⟨swapOrbit, swapStation, _, { Demo.env with txTime := fun _ n => 1000 * n }, slowRun, s, granular_floor, rfl, rfl, rfl, ?_, ?_, ?_,
    rfl, rfl, fun _ n hn => by show 33000 ≤ 1000 * n; omega, ?_, by simpa using ht⟩
  · intro t
    refine ⟨t / 1000000000 * 1000000000, ?_, ?_, rfl⟩ <;> omega
  · show (0 : ℝ) < 7371; norm_num
  · show (7371 : ℝ) ≤ _; unfold earthRadKm; norm_num
  · rw [he]; exact hs

/-- Two satellites of one plane, 737.1 km apart, in turns for all nodes, with positions reported as they were at `g t`. -/
noncomputable def planeSky (g : Time → Time) : Sky :=
  ⟨fun n => some fun t => Orbit.position ⟨7371, Real.pi, 0, if n % 2 = 0 then 0 else 2 * arcsin (1 / 20)⟩ (g t),
   fun _ => none, 299792458, fun x => ⌊x * 1000000000⌋₊⟩

/-- The environment that comes from this, computed; frames take 1 µs per byte. -/
def planeEnv : Env :=
  { Demo.env with
    hasMob := fun _ => true
    txTime := fun _ n => 1100 * n
    loss := fun _ => some fun tx a b _ => if a % 2 = b % 2 then -1000 else tx
    delay := fun _ => some fun a b _ => if a % 2 = b % 2 then 0 else 2458700 }

theorem planeSky_env (g : Time → Time) : (planeSky g).env { Demo.env with txTime := fun _ n => 1100 * n } = planeEnv := by
  have hs : sin (arcsin (1 / 20)) = 1 / 20 := sin_arcsin (by norm_num) (by norm_num)
  have hc : (0.9 : ℝ) < cos (arcsin (1 / 20)) := by
    rw [cos_arcsin]
    exact Real.lt_sqrt_of_sq_lt (by norm_num)
  have los : ∀ (x y : ℝ) t, (x - y) / 2 = arcsin (1 / 20) ∨ (x - y) / 2 = -arcsin (1 / 20) →
      islLos (Orbit.position ⟨7371, Real.pi, 0, x⟩ t) (Orbit.position ⟨7371, Real.pi, 0, y⟩ t) = true := by
    intro x y t h
    rw [C67_in_plane_line_of_sight (by unfold islEarthRad; norm_num)]
    rcases h with h | h <;> rw [h]
    · rw [hs, abs_of_pos (by linarith)]
      unfold islEarthRad
      exact ⟨by norm_num, by linarith⟩
    · rw [sin_neg, cos_neg, hs, abs_of_pos (by linarith)]
      unfold islEarthRad
      exact ⟨by norm_num, by linarith⟩
  have nlos : ∀ (x : ℝ) t, islLos (Orbit.position ⟨7371, Real.pi, 0, x⟩ t) (Orbit.position ⟨7371, Real.pi, 0, x⟩ t) = false := by
    intro x t
    rw [Bool.eq_false_iff, Ne, C67_in_plane_line_of_sight (by unfold islEarthRad; norm_num)]
    simp
  have dist : ∀ (x y : ℝ) t, (x - y) / 2 = arcsin (1 / 20) ∨ (x - y) / 2 = -arcsin (1 / 20) →
      (Orbit.position ⟨7371, Real.pi, 0, x⟩ t - Orbit.position ⟨7371, Real.pi, 0, y⟩ t).len = 737100 := by
    intro x y t h
    rw [C33_constant_distance _ _ _ _ _ (by norm_num)]
    rcases h with h | h <;> rw [h]
    · rw [hs]; norm_num
    · rw [sin_neg, hs]; norm_num
  have h1 : ((0 : ℝ) - 2 * arcsin (1 / 20)) / 2 = -arcsin (1 / 20) := by ring
  have h2 : (2 * arcsin (1 / 20) - (0 : ℝ)) / 2 = arcsin (1 / 20) := by ring
  have hself : ∀ v : Vec, (v - v).len = 0 := fun v => len_eq le_rfl (by simp [dot])
  have fl : ⌊(737100 : ℝ) / 299792458 * 1000000000⌋₊ = 2458700 := by
    rw [Nat.floor_eq_iff (by norm_num)]
    constructor <;> norm_num
  unfold Sky.env planeEnv planeSky
  simp only [Option.isSome_some]
  congr 1
  · funext c
    congr 1
    funext tx a b t
    rcases Nat.mod_two_eq_zero_or_one a with ha | ha <;> rcases Nat.mod_two_eq_zero_or_one b with hb | hb <;>
      simp only [ha, hb, Sky.loss, if_true, Nat.one_ne_zero, if_false, nlos, los _ _ _ (Or.inl h2), los _ _ _ (Or.inr h1),
        Nat.zero_ne_one, Bool.true_eq_false]
  · funext c
    congr 1
    funext a b t
    rcases Nat.mod_two_eq_zero_or_one a with ha | ha <;> rcases Nat.mod_two_eq_zero_or_one b with hb | hb <;>
      simp only [ha, hb, if_true, Nat.one_ne_zero, if_false, dist _ _ _ (Or.inl h2), dist _ _ _ (Or.inr h1), hself,
        Nat.zero_ne_one, fl, zero_div, zero_mul, Nat.floor_zero]

def planeRun : List Op :=
  [.attach 0 1, .attach 1 1, .wait 999995000, .send 0 [1] (.mac (Demo.mac 2)) 1, .send 0 [2] (.mac (Demo.mac 2)) 1, .run, .run, .run, .run]

theorem planeRun_ok (g : Time → Time) : ∃ s, exec ((planeSky g).env { Demo.env with txTime := fun _ n => 1100 * n }) Demo.sys planeRun = .ok s ∧
    (received 0 1 s.log).length = 2 := by
  rw [planeSky_env]
  obtain ⟨s, hs, ht⟩ := Demo.exists_of_check (E := planeEnv) (s := Demo.sys) (ops := planeRun)
    (test := fun s => decide ((received 0 1 s.log).length = 2)) (by decide +kernel)
  exact ⟨s, hs, by simpa using ht⟩

theorem plane_slow (x : ℝ) : SlowerThan 9700 (Orbit.position ⟨7371, Real.pi, 0, x⟩) :=
  slower_low_orbit (by norm_num) (by unfold earthRadKm; norm_num)

/-- The hypotheses of `C103_exact_positions` are met by two moving satellites. -/
example : ∃ (p q : Time → Vec) (s : Sys), Granular (planeSky id).ofSeconds ∧ 0 < (planeSky id).speed ∧ (planeSky id).pos 0 = some p ∧
    (planeSky id).pos 1 = some q ∧ SlowerThan 9700 p ∧ SlowerThan 9700 q ∧ (9700 : ℝ) + 9700 ≤ (planeSky id).speed ∧
    (Demo.sys.dev 0).node = some 0 ∧ (Demo.sys.dev 1).node = some 1 ∧
    exec ((planeSky id).env { Demo.env with txTime := fun _ n => 1100 * n }) Demo.sys planeRun = .ok s ∧ (received 0 1 s.log).length = 2 := by
  obtain ⟨s, hs, ht⟩ := planeRun_ok id
  refine ⟨_, _, s, granular_floor, ?_, rfl, rfl, plane_slow _, plane_slow _, ?_, rfl, rfl, hs, ht⟩
  · show (0 : ℝ) < 299792458; norm_num
  · show (9700 : ℝ) + 9700 ≤ 299792458; norm_num

/-- The hypotheses of `C103_reported_positions_partial` and `C103_satellites` are met by satellites whose positions are updated
every second. -/
example : ∃ (g : Time → Time) (p q : Time → Vec) (oa ob : Orbit) (E : Env) (s : Sys), Granular (planeSky g).ofSeconds ∧ (planeSky g).speed = 299792458 ∧
    (planeSky g).pos 0 = some p ∧ (planeSky g).pos 1 = some q ∧ Lags 1000000000 p oa.position ∧ Lags 1000000000 q ob.position ∧
    SlowerThan 9700 oa.position ∧ SlowerThan 9700 ob.position ∧
    (9700 : ℝ) * ((1000000000 : Time) + (65000 : Time)) + 9700 * ((1000000000 : Time) + (65000 : Time)) ≤ (planeSky g).speed * (65000 : Time) ∧
    0 < oa.height ∧ oa.height ≤ earthRadKm + 2000 ∧ 0 < ob.height ∧ ob.height ≤ earthRadKm + 2000 ∧ p ≠ oa.position ∧
    (Demo.sys.dev 0).node = some 0 ∧ (Demo.sys.dev 1).node = some 1 ∧
    (∀ r n, 64 ≤ n → 65000 ≤ E.txTime r n) ∧
    exec ((planeSky g).env E) Demo.sys planeRun = .ok s ∧ (received 0 1 s.log).length = 2 := by
  obtain ⟨s, hs, ht⟩ := planeRun_ok fun t => t / 1000000000 * 1000000000
  have hl : ∀ o : Orbit, Lags 1000000000 (fun t => o.position (t / 1000000000 * 1000000000)) o.position := by
    intro o t
    refine ⟨t / 1000000000 * 1000000000, ?_, ?_, rfl⟩ <;> omega
  refine ⟨_, _, _, ⟨7371, Real.pi, 0, 0⟩, ⟨7371, Real.pi, 0, 2 * arcsin (1 / 20)⟩, _, s, granular_floor, rfl, rfl, rfl, hl _, hl _,
    plane_slow _, plane_slow _, ?_, ?_, ?_, ?_, ?_, ?_, rfl, rfl, ?_, hs, ht⟩
  · show _ ≤ (299792458 : ℝ) * _
    norm_num
  · show (0 : ℝ) < 7371; norm_num
  · show (7371 : ℝ) ≤ _; unfold earthRadKm; norm_num
  · show (0 : ℝ) < 7371; norm_num
  · show (7371 : ℝ) ≤ _; unfold earthRadKm; norm_num
  · intro h
    have h1 := congrFun h 500000000
    have e := swap_position 500000000
    have e0 := swap_position 0
    have h2 : swapOrbit.position 0 = swapOrbit.position 500000000 := h1
    rw [e, e0] at h2
    injection h2 with _ hy _
    obtain ⟨r1, r2⟩ := swapRate_bounds
    have : 0 < sin (swapRate * seconds 500000000) := by
      apply sin_pos_of_pos_of_lt_pi
      · unfold seconds; norm_num; linarith
      · have := Real.pi_gt_three
        unfold seconds; norm_num; linarith
    have z : seconds 0 = 0 := by unfold seconds; norm_num
    rw [z, mul_zero, sin_zero] at hy
    linarith
  · intro r n hn
    show 65000 ≤ 1100 * n
    omega

/-- The hypotheses of `C103_example` are met by the programs without options, with a packet of the source that reaches a satellite. -/
example : ∃ X K s2, ∃ E : Env, ∃ ops, ∃ i : Nat, exampleMain 0 (defaultArgs true) Demo.sys = .ok X ∧ SkyOf (defaultArgs true) X K ∧
    (∀ o ∈ (defaultArgs true).orbits, Installable o) ∧
    (∀ o ∈ (defaultArgs true).orbits, o.alt ≤ 2000) ∧ (defaultArgs true).prec ≤ 1000000000 ∧ Granular K.ofSeconds ∧ K.speed = 299792458 ∧
    (∀ op ∈ ops, PlainTraffic op) ∧ exec (K.env E) X.build.sys ops = .ok s2 ∧ 632 + 400 ∈ X.utNet ++ X.islNet ∧ i ∈ X.utNet ++ X.islNet ∧
    (∀ t c f tx del, (t, Ev.txrx c f (632 + 400) i tx del) ∈ s2.log → 65000 ≤ tx) ∧ upcallLog i s2.log ≠ [] := by
  have hp : (⟨"TelesatGateway", 105.9, 20, 189.3, 4.8, 0.36, 9857.1, 31.8⟩ : Preset) ∈ presets := by simp [presets]
  have hi := fun o ho => (default_installable true o ho).1
  have ha := fun o ho => (default_installable true o ho).2
  have hm : 2 * (places (defaultArgs true).orbits).length + (defaultArgs true).lonGws * (defaultArgs true).latGws % 2 ^ 32 + 2 < 2 ^ 48 := by
    rw [default_count]; simp [defaultArgs]
  obtain ⟨X, hX, _, hG, _, _, _, hut, _⟩ := C91_builds 0 hp rfl hi hm Demo.sys
  obtain ⟨K, hK, hv, hs, _⟩ := sky_exists (defaultArgs true) X
  have B := built_of hp rfl hi (by unfold satCount; exact hm) hX
  obtain ⟨is, hr⟩ := B.run
  let E : Env := { Demo.env with txTime := fun _ n => 1100 * n }
  obtain ⟨s0, o, h0, hat, hex, _⟩ := C62_helper_network_is_history Demo.sys_initial hr
  obtain ⟨hpe, _⟩ := attached_only h0 (fun op hop => by
    obtain ⟨d, c, e, _⟩ := hat op hop
    exact ⟨d, c, e⟩) (hex (K.env E))
  obtain ⟨n, i, f, g, a1, a2, a3, a4, a5, a6⟩ := C91_default_users_served hX hK (Or.inl rfl) X.build.sys.now
  obtain ⟨dt, hdt⟩ := Nat.exists_eq_add_of_le (show (X.build.sys.now : Nat) ≤ n * 1000000000 + 1 by
    have : n ≤ n * 1000000000 := Nat.le_mul_of_pos_right n (by norm_num)
    exact Nat.le_trans a1 (Nat.le_trans this (Nat.le_add_right _ _)))
  have hw : exec (K.env E) X.build.sys [.wait dt] = .ok { X.build.sys with now := X.build.sys.now + dt } := by
    simp only [exec, step, hpe]
    rfl
  have hG' : X.ground.length = 402 := hG
  obtain ⟨m, s2, r1, _, r3⟩ := C91_ground_space_packet hp rfl hi ha hm Demo.sys_initial hX hK (E := E) (fun _ _ _ _ => rfl)
    (ops := [.wait dt]) (by simp [PlainTraffic]) hw hpe (j := 632 + 400) (by rw [default_count, hG']; norm_num) (q := [1, 2, 3]) (by decide)
    (proto := 0x800) (m := Mac48.broadcast)
  have hall : exec (K.env E) X.build.sys ([.wait dt] ++ .send (632 + 400) [1, 2, 3] (.mac Mac48.broadcast) 0x800 :: List.replicate m .run) = .ok s2 := by
    rw [exec_append, hw]
    exact r1
  have hpl : ∀ op ∈ [Op.wait dt] ++ .send (632 + 400) [1, 2, 3] (.mac Mac48.broadcast) 0x800 :: List.replicate m .run, PlainTraffic op := by
    intro op hop
    simp only [List.cons_append, List.nil_append, List.mem_cons, List.mem_replicate] at hop
    rcases hop with rfl | rfl | ⟨_, rfl⟩
    · trivial
    · exact ⟨by simp, by decide⟩
    · trivial
  obtain ⟨t0, o', i0, _, hh⟩ := built_history B Demo.sys_initial hpl hall
  refine ⟨X, K, s2, E, _, i, hX, hK, hi, ?_, ?_, by rw [hs]; exact granular_floor, hv, hpl, hall, ?_, ?_, ?_, ?_⟩
  · intro o ho
    simp only [defaultArgs] at ho
    fin_cases ho <;> norm_num
  · simp [defaultArgs]
  · rw [hut, default_count, hG']
    exact List.mem_append_left _ (List.mem_range.mpr (by norm_num))
  · rw [hut, default_count, hG']
    exact List.mem_append_left _ (List.mem_range.mpr (by omega))
  · intro t c f tx del hm
    obtain ⟨_, _, _, _, _, ⟨_, _, _, _, _, htx⟩, _⟩ := C26_delay_law i0 hh hm
    have := handed_length i0 hh hm
    rw [htx]
    show 65000 ≤ 1100 * f.length
    omega
  · have := r3 i
    rw [default_count, if_pos] at this
    · rw [this]; simp
    · refine ⟨by omega, Or.inr ⟨by omega, a3⟩, Or.inl rfl, g, f, a5, a4, ?_⟩
      have e : (X.build.sys.now + dt : Nat) = n * 1000000000 + 1 := hdt.symm
      simp only
      rw [e]
      exact_mod_cast a6

end Verif
