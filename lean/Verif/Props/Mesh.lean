import Verif.Lemmas.Mesh2
/-!
# Ways from station to station through a constellation (C108)
-/

namespace Verif
open Real Spec

theorem slot_index {os : List OrbitRec} {o : OrbitRec} (ho : o ∈ os) : ∃ idx : Nat × Nat → Nat, ∀ x : Nat × Nat, x.1 < o.planes → x.2 < o.sats →
    (places os)[idx x]? = some (o, x.1, x.2) := by
  have h : ∀ x : Nat × Nat, ∃ i : Nat, x.1 < o.planes → x.2 < o.sats → (places os)[i]? = some (o, x.1, x.2) := by
    intro x
    by_cases hx : x.1 < o.planes ∧ x.2 < o.sats
    · have hpl : (o, x.1, x.2) ∈ places os := by
        simp only [places, List.mem_flatMap, List.mem_map, List.mem_range]
        exact ⟨o, ho, x.1, hx.1, x.2, hx.2, rfl⟩
      obtain ⟨i, hi, he⟩ := List.mem_iff_getElem.mp hpl
      exact ⟨i, fun _ _ => by rw [List.getElem?_eq_getElem hi, he]⟩
    · exact ⟨0, fun h1 h2 => absurd ⟨h1, h2⟩ hx⟩
  choose idx h using h
  exact ⟨idx, h⟩

/-- **C108, the links**: in a constellation tight enough, the positions reported let every satellite see its neighbours in the plane and in
the next planes, at every time. -/
theorem C108_neighbours_linked {a : ExampleArgs} {X : ExampleNet} {K : Sky} (hK : SkyOf a X K) {o : OrbitRec} (ho : Installable o)
    (halt : 0 ≤ o.alt) {W : ℝ} (hM : Meshed o (2 * (groundRate o * (a.prec.toNat / 1000000000))) W) {i j : Nat} {x y : Nat × Nat}
    (hi : (places a.orbits)[i]? = some (o, x.1, x.2)) (hj : (places a.orbits)[j]? = some (o, y.1, y.2)) (hadj : Adjacent x y) (t : Time) :
    ∃ f g, K.pos i = some f ∧ K.pos j = some g ∧ f t ≠ g t ∧ ¬ Obstructed islEarthRad (f t) (g t) ∧ (g t - f t).len ≤ W :=
  mesh_link hK ho halt hM hi hj hadj t

theorem hopsOf_src (K : Sky) (base : Nat) : ∀ (ls : List Leg) (t : Time), (hopsOf K base t ls).map Hop.src = ls.map fun l => port base l.isl l.src
  | [], _ => rfl
  | l :: ls, t => by simp only [hopsOf, List.map_cons, hopsOf_src K base ls]

theorem hopsOf_dst (K : Sky) (base : Nat) : ∀ (ls : List Leg) (t : Time), (hopsOf K base t ls).map Hop.dst = ls.map fun l => port base l.isl l.dst
  | [], _ => rfl
  | l :: ls, t => by simp only [hopsOf, List.map_cons, hopsOf_dst K base ls]

theorem meshLegs_src {idx : Nat × Nat → Nat} {q : Bytes} {proto : UInt16} {u base : Nat} : ∀ (l : List (Nat × Nat)) (x y : Nat × Nat),
    (x :: l).getLast? = some y → (meshLegs idx q proto u (x :: l)).map (fun m => port base m.isl m.src) =
      ((x :: l).dropLast.map fun z => base + idx z) ++ [idx y]
  | [], x, y, h => by
    simp only [List.getLast?_singleton, Option.some.injEq] at h
    subst h
    simp [meshLegs, port]
  | z :: l, x, y, h => by
    rw [List.getLast?_cons_cons] at h
    simp only [meshLegs, List.map_cons, meshLegs_src l z y h, List.dropLast_cons_cons, List.cons_append]
    simp [port]

theorem meshLegs_dst {idx : Nat × Nat → Nat} {q : Bytes} {proto : UInt16} {u base : Nat} : ∀ (l : List (Nat × Nat)) (x : Nat × Nat),
    (meshLegs idx q proto u (x :: l)).map (fun m => port base m.isl m.dst) = (l.map fun z => base + idx z) ++ [u]
  | [], x => by simp [meshLegs, port]
  | z :: l, x => by
    simp only [meshLegs, List.map_cons, meshLegs_dst l z, List.cons_append]
    simp [port]

theorem meshLegs_packet {idx : Nat × Nat → Nat} {q : Bytes} {proto : UInt16} {u : Nat} : ∀ (l : List (Nat × Nat)),
    ∀ m ∈ meshLegs idx q proto u l, m.packet = q ∧ m.proto = proto
  | [], m, hm => by cases hm
  | [x], m, hm => by
    simp only [meshLegs, List.mem_singleton] at hm
    subst hm; exact ⟨rfl, rfl⟩
  | x :: z :: l, m, hm => by
    rcases List.mem_cons.mp hm with rfl | hm
    · exact ⟨rfl, rfl⟩
    · exact meshLegs_packet (z :: l) m hm

theorem hopsOf_packet {K : Sky} {base : Nat} {q : Bytes} {proto : UInt16} : ∀ (ls : List Leg) (t : Time), (∀ m ∈ ls, m.packet = q ∧ m.proto = proto) →
    ∀ h ∈ hopsOf K base t ls, h.packet = q ∧ h.proto = proto
  | [], _, _, h, hh => by cases hh
  | l :: ls, t, hl, h, hh => by
    rcases List.mem_cons.mp hh with rfl | hh
    · exact hl l (by simp)
    · exact hopsOf_packet ls _ (fun m hm => hl m (List.mem_cons_of_mem _ hm)) h hh

theorem arrivals_snoc (s : Sys) : ∀ (hs : List Hop) (t : Time) (z : Hop), arrivals s t (hs ++ [z]) = arrivals s t hs ++
    [(t + ((hs ++ [z]).map Hop.delay).sum, z.dst, z.packet, z.proto, (s.dev z.src).addr)]
  | [], t, z => by simp [arrivals, timed]
  | h :: hs, t, z => by
    have := arrivals_snoc s hs (t + h.delay) z
    simp only [arrivals, List.cons_append, timed, List.map_cons, List.sum_cons] at this ⊢
    rw [this]
    simp only [Nat.add_assoc]

theorem arrivals_dst (s : Sys) (hs : List Hop) (t : Time) : ∀ e ∈ arrivals s t hs, e.2.1 ∈ hs.map Hop.dst ∧ t ≤ e.1 := by
  induction hs generalizing t with
  | nil => intro e he; cases he
  | cons h hs ih =>
    intro e he
    rcases List.mem_cons.mp he with rfl | he
    · exact ⟨by simp, Nat.le_add_right _ _⟩
    · obtain ⟨h1, h2⟩ := ih _ e he
      exact ⟨List.mem_cons_of_mem _ h1, Nat.le_trans (Nat.le_add_right _ _) h2⟩

/-- **C108**: in the network of the example programs with inter-satellite links, two stations within the band of a dense constellation can
reach each other whenever nothing is in flight: there are forwarding tables, by which nodes pass on what they receive, that take a packet from one to the other within
the time light takes for the legs, through fewer than `planes + sats` satellite devices, each of which gets it once; nobody on the
ground but the destination does. -/
theorem C108_delivery {junk : ℝ} {a : ExampleArgs} {p : Preset} (hp : p ∈ presets) (hn : a.constellation = p.name)
    (ho : ∀ o ∈ a.orbits, Installable o) (halt : ∀ o ∈ a.orbits, 0.001 ≤ o.alt) (hisl : a.islEnabled = true)
    (hm : 2 * (places a.orbits).length + a.lonGws * a.latGws % 2 ^ 32 + 2 < 2 ^ 40) {s : Sys}
    (h0 : Initial s) {X : ExampleNet} (h : exampleMain junk a s = .ok X) {K : Sky} (hK : SkyOf a X K) {E : Env} (hE : ErrorFree E)
    {v : ℝ} (hv : 0 < v) (hsp : K.speed = v) (hof : ∀ x, 0 ≤ x → (K.ofSeconds x : ℝ) ≤ x * 1000000000 + 1)
    {ops : List Op} (ht : ∀ op ∈ ops, PlainTraffic op) {s1 : Sys} (hx : exec (K.env E) X.build.sys ops = .ok s1) (hq : s1.pending = [])
    {o : OrbitRec} (hmem : o ∈ a.orbits) (hs : 2 ≤ o.sats) {W : ℝ}
    (hM : Meshed o (2 * (groundRate o * (a.prec.toNat / 1000000000))) W)
    {j1 j2 : Nat} {g1 g2 : Vec} (hg1 : X.ground[j1]? = some (some g1)) (hg2 : X.ground[j2]? = some (some g2))
    (hl1 : g1.len ≤ radius o) (hl2 : g2.len ≤ radius o) {δ : ℝ} (hδ : 0 ≤ δ)
    (hb1 : |latOf g1| ≤ tilt (rad o.inc) + δ) (hb2 : |latOf g2| ≤ tilt (rad o.inc) + δ) {D τ : ℝ}
    (hD : D = slantRange propEarthRad (radius o) |sin (rad p.elev)|)
    (hτ0 : 0 ≤ τ) (hτ : (2 * D + (o.planes + o.sats) * W) / v + (o.planes + o.sats) / 1000000000 ≤ τ)
    (hr1 : chord (radius o) g1.len (hypotenuse (offTrack (rad o.inc) o.planes δ) (Real.pi / o.sats)) +
      groundRate o * (a.prec.toNat / 1000000000 + τ) ≤ D)
    (hr2 : chord (radius o) g2.len (hypotenuse (offTrack (rad o.inc) o.planes δ) (Real.pi / o.sats)) +
      groundRate o * (a.prec.toNat / 1000000000 + τ) ≤ D)
    {q : Bytes} (hlen : q.length ≤ 1492) {proto : UInt16} :
    ∃ (R : Forwarder) (m : Mac48) (n : Nat) (s2 : Sys), PassesOn s1 R ∧
      (send (K.env E) s1 ((places a.orbits).length + j1) q (.mac m) proto >>= relay (K.env E) R n) = .ok s2 ∧ s2.pending = [] ∧
      ∃ mid t' sa, allUps s2.log = allUps s1.log ++ mid ++ [(t', (places a.orbits).length + j2, q, proto, sa)] ∧
        seconds t' ≤ seconds s1.now + τ ∧ mid.length < o.planes + o.sats ∧ (mid.map fun e => e.2.1).Nodup ∧
        ∀ e ∈ mid, e.2.2.1 = q ∧ (e.2.1 < (places a.orbits).length ∨ (places a.orbits).length + X.ground.length ≤ e.2.1) := by
  set N := (places a.orbits).length with hN
  set base := N + X.ground.length with hbase
  have hj1 : j1 < X.ground.length := (List.getElem?_eq_some_iff.mp hg1).1
  have hj2 : j2 < X.ground.length := (List.getElem?_eq_some_iff.mp hg2).1
  have hO := ho o hmem
  have hal := halt o hmem
  have hp1 := hK.gnd j1 g1 hg1
  have hp2 := hK.gnd j2 g2 hg2
  subst hD
  set D := slantRange propEarthRad (radius o) |sin (rad p.elev)| with hD
  obtain ⟨idx, hidx⟩ := slot_index hmem
  obtain ⟨x, x1, x2, hxa⟩ := mesh_access hK hO hs hal hl1 hδ hb1 hr1 s1.now
  obtain ⟨y, y1, y2, hya⟩ := mesh_access hK hO hs hal hl2 hδ hb2 hr2 s1.now
  obtain ⟨fx, hfx, hxa⟩ := hxa _ (hidx x x1 x2)
  obtain ⟨fy, hfy, hya⟩ := hya _ (hidx y y1 y2)
  obtain ⟨l, w1, w2, w3, _, w5, w6⟩ := grid_way y _ x rfl
  have hslots : ∀ z ∈ x :: l, z.1 < o.planes ∧ z.2 < o.sats := by
    intro z hz
    have := w6 z hz
    omega
  have hplace : ∀ z ∈ x :: l, (places a.orbits)[idx z]? = some (o, z.1, z.2) := fun z hz => hidx z (hslots z hz).1 (hslots z hz).2
  have hltN : ∀ z ∈ x :: l, idx z < N := fun z hz => (List.getElem?_eq_some_iff.mp (hplace z hz)).1
  have hinj : ∀ z ∈ x :: l, ∀ z' ∈ x :: l, idx z = idx z' → z = z' := by
    intro z hz z' hz' he
    have e1 := hplace z hz
    rw [he, hplace z' hz'] at e1
    injection e1 with e1
    simp only [Prod.mk.injEq, true_and] at e1
    exact Prod.ext e1.1.symm e1.2.symm
  have hnd : ((x :: l).map idx).Nodup := (List.nodup_map_iff_inj_on w5).mpr hinj
  have hl : l.length + 2 ≤ o.planes + o.sats := by
    rw [w1]
    unfold gridDist
    omega
  have hl' : (l.length : ℝ) + 2 ≤ o.planes + o.sats := by exact_mod_cast hl
  have hW : 0 ≤ W / v := by
    have h1 := hM.ringHi
    have h2 := hM.ringLo
    have h3 := groundRate_nonneg hO.2.2.2.2
    have h4 : 0 ≤ 2 * (groundRate o * ((a.prec.toNat : ℝ) / 1000000000)) := by positivity
    exact div_nonneg (by linarith) hv.le
  have hsplit : (2 * D + (o.planes + o.sats) * W) / v = 2 * (D / v) + (o.planes + o.sats) * (W / v) := by ring
  rw [hsplit] at hτ
  have hmul : (l.length : ℝ) * (W / v) ≤ (o.planes + o.sats) * (W / v) := mul_le_mul_of_nonneg_right (by linarith) hW
  have hD0 : 0 ≤ D := (len_nonneg _).trans (hxa s1.now (by rw [sub_self, abs_zero]; exact hτ0)).2.2
  have hDv : 0 ≤ D / v := div_nonneg hD0 hv.le
  obtain ⟨b1, b2, b3⟩ := hxa s1.now (by rw [sub_self, abs_zero]; exact hτ0)
  have hfirst := light_bound (D := D) hv hsp hof hp1 hfx (t := s1.now) (by rw [dist_comm']; exact b3)
  set t1 : Time := s1.now + lightTime K s1.now (N + j1) (idx x) with ht1
  have hbudget : seconds t1 + l.length * (W / v + 1 / 1000000000) + (D / v + 1 / 1000000000) ≤ seconds s1.now + τ := by
    have e : (l.length : ℝ) * (W / v + 1 / 1000000000) = l.length * (W / v) + l.length / 1000000000 := by ring
    have e2 : ((l.length : ℝ) + 2) / 1000000000 ≤ (o.planes + o.sats) / 1000000000 := div_le_div_of_nonneg_right hl' (by norm_num)
    rw [e]
    have e3 : ((l.length : ℝ) + 2) / 1000000000 = l.length / 1000000000 + 1 / 1000000000 + 1 / 1000000000 := by ring
    linarith
  obtain ⟨k1, k2⟩ := meshLegs_ok hK hO (by linarith) hM hv hsp hof (idx := idx) hlen (proto := proto) (u := N + j2) (base := base) (e := p.elev)
    (τ := τ) (D := D) hD0 (t0 := s1.now) (y := y) hp2 (by omega) (by omega) (by omega) hfy
    (fun t ht => ⟨(hya t ht).2.1, (hya t ht).2.2⟩) l x w2 w3 hplace t1 (Nat.le_add_right _ _) hbudget
  set leg0 : Leg := ⟨false, N + j1, idx x, q, proto⟩ with hleg0
  set ms := meshLegs idx q proto (N + j2) (x :: l) with hms
  have hlegs : LegsOk K N base p.elev s1.now (leg0 :: ms) := by
    refine ⟨⟨hlen, _, _, hp1, hfx, ?_⟩, k1⟩
    rw [if_neg (by simp [hleg0])]
    have := hltN x (by simp)
    exact ⟨by simp only [hleg0]; omega, by simp only [hleg0]; omega, Or.inr ⟨by simp only [hleg0]; omega, this⟩, b1⟩
  have hsrcs : (leg0 :: ms).map (fun m => port base m.isl m.src) = (N + j1) :: (((x :: l).dropLast.map fun z => base + idx z) ++ [idx y]) := by
    rw [List.map_cons, hms, meshLegs_src l x y w2]
    simp [hleg0, port]
  have hdsts : (leg0 :: ms).map (fun m => port base m.isl m.dst) = idx x :: ((l.map fun z => base + idx z) ++ [N + j2]) := by
    rw [List.map_cons, hms, meshLegs_dst l x]
    simp [hleg0, port]
  have hymem : y ∈ x :: l := List.mem_of_getLast? w2
  have hnd2 : ((x :: l).map fun z => base + idx z).Nodup :=
    (List.nodup_map_iff_inj_on w5).mpr fun z hz z' hz' he => hinj z hz z' hz' (Nat.add_left_cancel he)
  have hsrcnd : ((leg0 :: ms).map fun m => port base m.isl m.src).Nodup := by
    rw [hsrcs, List.nodup_cons, List.nodup_append]
    have hyN := hltN y hymem
    refine ⟨?_, ?_, by simp, ?_⟩
    · rw [List.mem_append]
      rintro (hc | hc)
      · obtain ⟨z, _, hz⟩ := List.mem_map.mp hc
        have hz : @Eq Nat (base + idx z) (N + j1) := hz
        omega
      · rw [List.mem_singleton] at hc
        have hc : @Eq Nat (N + j1) (idx y) := hc
        omega
    · exact List.Nodup.sublist ((List.dropLast_sublist _).map _) hnd2
    · intro c hc d hd
      obtain ⟨z, _, hz⟩ := List.mem_map.mp hc
      rw [List.mem_singleton] at hd
      have hz : @Eq Nat (base + idx z) c := hz
      have hd : @Eq Nat d (idx y) := hd
      show @Ne Nat c d
      omega
  have hdstnd : ((leg0 :: ms).map fun m => port base m.isl m.dst).Nodup := by
    rw [hdsts, List.nodup_cons, List.nodup_append]
    have hxN := hltN x (by simp)
    rw [List.map_cons, List.nodup_cons] at hnd2
    refine ⟨?_, hnd2.2, by simp, ?_⟩
    · rw [List.mem_append]
      rintro (hc | hc)
      · obtain ⟨z, _, hz⟩ := List.mem_map.mp hc
        have hz : @Eq Nat (base + idx z) (idx x) := hz
        omega
      · rw [List.mem_singleton] at hc
        have hc : @Eq Nat (idx x) (N + j2) := hc
        omega
    · intro c hc d hd
      obtain ⟨z, _, hz⟩ := List.mem_map.mp hc
      rw [List.mem_singleton] at hd
      have hz : @Eq Nat (base + idx z) c := hz
      have hd : @Eq Nat d (N + j2) := hd
      show @Ne Nat c d
      omega
  set hops := hopsOf K base s1.now (leg0 :: ms) with hhops
  have hpk : ∀ h ∈ hops, h.packet = q ∧ h.proto = proto := by
    rw [hhops]
    refine hopsOf_packet _ _ ?_
    intro m hm
    rcases List.mem_cons.mp hm with rfl | hm
    · exact ⟨rfl, rfl⟩
    · exact meshLegs_packet _ m hm
  have hpass : PassesOn s1 (tableOf s1 hops) := by
    have B := built_of hp hn ho (lt_of_lt_of_le hm (by norm_num)) h
    obtain ⟨hkept, _⟩ := kept_exec ht hx
    refine passes_table (hops_chain ?_ ?_ _ _ hlegs (meshLegs_chain idx q proto (N + j2) l x leg0 rfl))
    · intro k hk
      obtain ⟨v, hv, _, _, d3, _⟩ := B.dev k hk
      rw [(hkept k).node, hv, d3]
    · intro i hi
      obtain ⟨_, _, _, h4⟩ := B.isl hisl
      obtain ⟨v, hv, _, d3, _⟩ := h4 i hi
      have hv : X.build.sys.dev (base + i : Nat) = v := hv
      rw [(hkept (base + i)).node, hv, d3]
  obtain ⟨n, s2, r1, r2, r3⟩ := C92_example_route hp hn ho halt hm h0 h hK hE ht hx hq (base := base) hbase (l := leg0) (ls := ms)
    (fun _ _ _ => hisl) hlegs
    (by
      have : ((timed s1.now hops).map fun e => e.2.src).Nodup := by
        rw [timed_src, hhops, hopsOf_src]
        exact hsrcnd
      rw [List.Nodup, List.pairwise_map] at this
      exact this.imp fun hne he => absurd he hne)
    (R := tableOf s1 hops) (follows_of_table (by rw [hopsOf_dst]; exact hdstnd) hpk (fun _ _ _ _ _ => rfl))
  refine ⟨tableOf s1 hops, _, n, s2, hpass, r1, r2, ?_⟩
  have hdh : hops.map Hop.dst = (idx x :: (l.map fun z => base + idx z)) ++ [N + j2] := by
    rw [hhops, hopsOf_dst, hdsts, List.cons_append]
  rcases List.eq_nil_or_concat hops with hnil | ⟨init, z, hz⟩
  · rw [hnil] at hdh; cases hdh
  · rw [List.concat_eq_append] at hz
    have hdz : init.map Hop.dst = idx x :: (l.map fun z => base + idx z) ∧ z.dst = N + j2 := by
      rw [hz, List.map_append, List.map_cons, List.map_nil] at hdh
      have := List.append_inj' hdh rfl
      refine ⟨this.1, ?_⟩
      simpa using this.2
    have hzp := hpk z (by rw [hz]; simp)
    refine ⟨arrivals s1 s1.now init, s1.now + (hops.map Hop.delay).sum, (s1.dev z.src).addr, ?_, ?_, ?_, ?_, ?_⟩
    · rw [r3, ← hhops, hz, arrivals_snoc, hdz.2, hzp.1, hzp.2, List.append_assoc]
    · have e : hops.map Hop.delay = lightTime K s1.now (N + j1) (idx x) :: (hopsOf K base t1 ms).map Hop.delay := rfl
      rw [e, List.sum_cons, ← Nat.add_assoc]
      exact k2.trans hbudget
    · have e1 : (arrivals s1 s1.now init).length = init.length := by
        have : ∀ (hs : List Hop) (t : Time), (timed t hs).length = hs.length := by
          intro hs
          induction hs with
          | nil => intro t; rfl
          | cons h hs ih => intro t; simp [timed, ih]
        simp [arrivals, this]
      have e2 : init.length = l.length + 1 := by
        have := congrArg List.length hdz.1
        simpa using this
      omega
    · have e : (arrivals s1 s1.now init).map (fun e => e.2.1) = init.map Hop.dst := by
        have : ∀ (hs : List Hop) (t : Time), ((timed t hs).map fun e => e.2.dst) = hs.map Hop.dst := by
          intro hs
          induction hs with
          | nil => intro t; rfl
          | cons h hs ih => intro t; simp [timed, ih]
        rw [← this init s1.now]
        simp [arrivals]
      rw [e, hdz.1]
      rw [hdsts, ← List.cons_append] at hdstnd
      exact (List.nodup_append.mp hdstnd).1
    · intro e he
      have h1 := (arrivals_dst s1 init s1.now e he).1
      rw [hdz.1] at h1
      refine ⟨?_, ?_⟩
      · obtain ⟨w, hw, rfl⟩ := List.mem_map.mp he
        have hw2 : w.2 ∈ init := by
          have : ∀ (hs : List Hop) (t : Time), ∀ w ∈ timed t hs, w.2 ∈ hs := by
            intro hs
            induction hs with
            | nil => intro t w hw; cases hw
            | cons h hs ih =>
              intro t w hw
              rcases List.mem_cons.mp hw with rfl | hw
              · simp
              · exact List.mem_cons_of_mem _ (ih _ w hw)
          exact this init s1.now w hw
        exact (hpk w.2 (by rw [hz]; simp [hw2])).1
      · rcases List.mem_cons.mp h1 with h1 | h1
        · left; rw [h1]; exact hltN x (by simp)
        · obtain ⟨z', _, hz'⟩ := List.mem_map.mp h1
          right
          have hz' : @Eq Nat (base + idx z') e.2.1 := hz'
          show @LE.le Nat _ base e.2.1
          omega

theorem default_rate : groundRate ⟨1200, 20, 32, 16⟩ ≤ 10200 := by
  have hpi := Real.pi_lt_d2
  have hspeed : orbitSpeed ⟨1200, 20, 32, 16⟩ ≤ 8000 := by
    unfold orbitSpeed
    rw [radius, Real.sqrt_le_left (by norm_num)]
    norm_num
  have : orbitSpeed ⟨1200, 20, 32, 16⟩ / 6371009 ≤ 0.00126 := by rw [div_le_iff₀ (by norm_num)]; norm_num; linarith
  unfold groundRate
  rw [radius]
  norm_num at this ⊢
  linarith

/-- The first built-in orbit is a mesh, with updates every second. -/
theorem default_meshed : Meshed ⟨1200, 20, 32, 16⟩ (2 * (groundRate ⟨1200, 20, 32, 16⟩ * (((1000000000 : Nat) : ℝ) / 1000000000))) 3010000 := by
  have hpi0 := Real.pi_pos
  have hpi := Real.pi_lt_d2
  have hr := default_rate
  have hm : 2 * (groundRate ⟨1200, 20, 32, 16⟩ * (((1000000000 : Nat) : ℝ) / 1000000000)) ≤ 20400 := by
    push_cast
    norm_num
    linarith
  have a1 : 1 / 8 ≤ sin (Real.pi / (16 : Nat)) := by
    have := Real.mul_le_sin (x := Real.pi / (16 : Nat)) (by positivity) (by push_cast; linarith)
    refine le_of_eq_of_le ?_ this
    push_cast
    field_simp
    norm_num
  have a2 : 1 / 16 ≤ sin (Real.pi / (32 : Nat)) := by
    have := Real.mul_le_sin (x := Real.pi / (32 : Nat)) (by positivity) (by push_cast; linarith)
    refine le_of_eq_of_le ?_ this
    push_cast
    field_simp
    norm_num
  have a3 : sin (Real.pi / (16 : Nat)) ≤ 0.1969 := by
    have := Real.sin_le (x := Real.pi / (16 : Nat)) (by positivity)
    push_cast at this ⊢
    linarith
  have a4 : sin (Real.pi / (32 : Nat)) ≤ 0.1 := by
    have := Real.sin_le (x := Real.pi / (32 : Nat)) (by positivity)
    push_cast at this ⊢
    linarith
  have a5 : 0.9 ≤ |cos (rad 20)| := by
    refine le_trans ?_ (le_abs_self _)
    have := Real.one_sub_sq_div_two_le_cos (x := rad 20)
    have e1 : rad 20 ≤ 0.35 := by unfold rad; linarith
    have e2 : 0 ≤ rad 20 := by unfold rad; positivity
    nlinarith
  refine ⟨?_, ?_, ?_, ?_, ?_⟩
  · rw [radius]; norm_num at a1 ⊢; linarith
  · rw [radius]; norm_num at a3 ⊢; linarith
  · rw [radius]
    have : 1 / 16 * 0.9 ≤ sin (Real.pi / (32 : Nat)) * |cos (rad 20)| := mul_le_mul a2 a5 (by norm_num) (by linarith)
    rw [mul_assoc]
    norm_num at this ⊢
    linarith
  · rw [radius]; norm_num at a4 ⊢; linarith
  · rw [radius, islEarthRad]; norm_num

theorem default_range_le : slantRange propEarthRad (radius ⟨1200, 20, 32, 16⟩) |sin (rad 20)| ≤ 4200000 := by
  by_contra hc
  rw [not_le] at hc
  have hs := abs_nonneg (sin (rad 20))
  have := (slant_dist (R := propEarthRad) (r := radius ⟨1200, 20, 32, 16⟩) (x := 4200000) (by rw [radius]; norm_num) hs (by norm_num)
    (by rw [radius, propEarthRad]; norm_num)).2 hc.le
  rw [radius, propEarthRad] at this
  norm_num at this
  linarith

/-- **C108**: with inter-satellite links and no other options, the users can always reach each other, within 0.52 seconds. -/
theorem C108_default_users {junk : ℝ} {s : Sys} (h0 : Initial s) {X : ExampleNet}
    (h : exampleMain junk (defaultArgs true) s = .ok X) {K : Sky} (hK : SkyOf (defaultArgs true) X K) {E : Env} (hE : ErrorFree E)
    (hsp : K.speed = 299792458) (hof : ∀ x, 0 ≤ x → (K.ofSeconds x : ℝ) ≤ x * 1000000000 + 1)
    {ops : List Op} (ht : ∀ op ∈ ops, PlainTraffic op) {s1 : Sys} (hx : exec (K.env E) X.build.sys ops = .ok s1) (hq : s1.pending = [])
    {u1 u2 : Nat} (hu : u1 = 632 + 400 ∧ u2 = 632 + 401 ∨ u1 = 632 + 401 ∧ u2 = 632 + 400) {q : Bytes} (hlen : q.length ≤ 1492) {proto : UInt16} :
    ∃ (R : Forwarder) (m : Mac48) (n : Nat) (s2 : Sys), PassesOn s1 R ∧
      (send (K.env E) s1 u1 q (.mac m) proto >>= relay (K.env E) R n) = .ok s2 ∧ s2.pending = [] ∧
      ∃ mid t' sa, allUps s2.log = allUps s1.log ++ mid ++ [(t', u2, q, proto, sa)] ∧ seconds t' ≤ seconds s1.now + 0.52 ∧
        mid.length < 48 ∧ (mid.map fun e => e.2.1).Nodup ∧ ∀ e ∈ mid, e.2.2.1 = q ∧ (e.2.1 < 632 ∨ 632 + 402 ≤ e.2.1) := by
  have hp : (⟨"TelesatGateway", 105.9, 20, 189.3, 4.8, 0.36, 9857.1, 31.8⟩ : Preset) ∈ presets := by simp [presets]
  have hi := fun o ho => (default_installable true o ho).1
  have ha := fun o ho => (default_installable true o ho).2
  obtain ⟨Y, e, _, hgr, hg1, hg2, _⟩ := C91_builds junk (a := defaultArgs true) hp rfl hi (by rw [default_count]; simp [defaultArgs]) s
  rw [h] at e
  injection e with e
  subst e
  have e400 : (defaultArgs true).lonGws * (defaultArgs true).latGws % 2 ^ 32 = 400 := rfl
  rw [e400] at hg1 hg2 hgr
  have hprec : (defaultArgs true).prec.toNat = 1000000000 := rfl
  have key : ∀ j1 j2 lat1 lon1 lat2 lon2, X.ground[j1]? = some (some (location lat1 lon1)) → X.ground[j2]? = some (some (location lat2 lon2)) →
      -20 ≤ lat1 → lat1 ≤ 20 → -20 ≤ lat2 → lat2 ≤ 20 → ∃ (R : Forwarder) (m : Mac48) (n : Nat) (s2 : Sys), PassesOn s1 R ∧
      (send (K.env E) s1 (632 + j1) q (.mac m) proto >>= relay (K.env E) R n) = .ok s2 ∧ s2.pending = [] ∧
      ∃ mid t' sa, allUps s2.log = allUps s1.log ++ mid ++ [(t', 632 + j2, q, proto, sa)] ∧ seconds t' ≤ seconds s1.now + 0.52 ∧
        mid.length < 48 ∧ (mid.map fun e => e.2.1).Nodup ∧ ∀ e ∈ mid, e.2.2.1 = q ∧ (e.2.1 < 632 ∨ 632 + 402 ≤ e.2.1) := by
    intro j1 j2 lat1 lon1 lat2 lon2 k1 k2 l1 l2 l3 l4
    have hband : ∀ lat lon : ℝ, -20 ≤ lat → lat ≤ 20 → |latOf (location lat lon)| ≤ tilt (rad 20) + 0 := by
      intro lat lon l1 l2
      rw [location_lat (by linarith) (by linarith), tilt_rad (by norm_num) (by norm_num), abs_le, add_zero]
      exact rad_mem l1 l2
    have hroom : chord (radius ⟨1200, 20, 32, 16⟩) 6371000 (hypotenuse (offTrack (rad 20) 32 0) (Real.pi / (16 : Nat))) +
        groundRate ⟨1200, 20, 32, 16⟩ * (((1000000000 : Nat) : ℝ) / 1000000000 + 0.52) ≤
          slantRange propEarthRad (radius ⟨1200, 20, 32, 16⟩) |sin (rad 20)| := by
      refine le_trans ?_ default_range
      have h1 := default_chord_le
      have h2 := default_rate
      push_cast
      norm_num at h1 ⊢
      linarith
    have := C108_delivery hp rfl hi ha rfl (by rw [default_count]; simp [defaultArgs]) h0 h hK hE (by norm_num) hsp hof ht hx hq
      (o := ⟨1200, 20, 32, 16⟩) (by simp [defaultArgs]) (by norm_num) (W := 3010000) (by rw [hprec]; exact default_meshed) k1 k2
      (by rw [location_len, radius]; norm_num) (by rw [location_len, radius]; norm_num) le_rfl (hband lat1 lon1 l1 l2) (hband lat2 lon2 l3 l4)
      (τ := 0.52) rfl (by norm_num) ?_ (by rw [location_len, hprec]; exact_mod_cast hroom) (by rw [location_len, hprec]; exact_mod_cast hroom)
      hlen (proto := proto)
    · rw [default_count, hgr] at this
      exact this
    · have h1 := default_range_le
      norm_num at h1 ⊢
      linarith
  rcases hu with ⟨rfl, rfl⟩ | ⟨rfl, rfl⟩
  · exact key 400 401 _ _ _ _ hg1 hg2 (by norm_num [defaultArgs]) (by norm_num [defaultArgs]) (by norm_num [defaultArgs]) (by norm_num [defaultArgs])
  · exact key 401 400 _ _ _ _ hg2 hg1 (by norm_num [defaultArgs]) (by norm_num [defaultArgs]) (by norm_num [defaultArgs]) (by norm_num [defaultArgs])

/-- The satellites of slots 3 and 4 of plane 7 of the default network see each other at every time. -/
example (X : ExampleNet) (K : Sky) (hK : SkyOf (defaultArgs true) X K) (t : Time) : ∃ i j f g, (places (defaultArgs true).orbits)[i]? =
      some (⟨1200, 20, 32, 16⟩, 7, 3) ∧ (places (defaultArgs true).orbits)[j]? = some (⟨1200, 20, 32, 16⟩, 7, 4) ∧
    K.pos i = some f ∧ K.pos j = some g ∧ f t ≠ g t ∧ ¬ Obstructed islEarthRad (f t) (g t) ∧ (g t - f t).len ≤ 3010000 := by
  have hmem : (⟨1200, 20, 32, 16⟩ : OrbitRec) ∈ (defaultArgs true).orbits := by simp [defaultArgs]
  obtain ⟨hi, ha⟩ := default_installable true _ hmem
  obtain ⟨idx, h⟩ := slot_index hmem
  obtain ⟨f, g, r⟩ := C108_neighbours_linked hK hi (by norm_num) (W := 3010000)
    (by have : (defaultArgs true).prec.toNat = 1000000000 := rfl
        rw [this]; exact default_meshed)
    (h (7, 3) (by norm_num) (by norm_num)) (h (7, 4) (by norm_num) (by norm_num)) (Or.inl ⟨rfl, Or.inl rfl⟩) t
  exact ⟨_, _, f, g, h (7, 3) (by norm_num) (by norm_num), h (7, 4) (by norm_num) (by norm_num), r⟩

/-- The network exists and nothing is in flight at its start, however long one waits: the hypotheses are met. -/
example (dt : Time) : ∃ X K s1, exampleMain 0 (defaultArgs true) Demo.sys = .ok X ∧ SkyOf (defaultArgs true) X K ∧ K.speed = 299792458 ∧
    (∀ x, 0 ≤ x → (K.ofSeconds x : ℝ) ≤ x * 1000000000 + 1) ∧ exec (K.env Demo.env) X.build.sys [.wait dt] = .ok s1 ∧ s1.pending = [] ∧
    ∃ R m n s2, (send (K.env Demo.env) s1 (632 + 400) [1, 2, 3] (.mac m) 0x800 >>= relay (K.env Demo.env) R n) = .ok s2 ∧
      ∃ t' sa, (t', 632 + 401, [1, 2, 3], 0x800, sa) ∈ allUps s2.log := by
  have hp : (⟨"TelesatGateway", 105.9, 20, 189.3, 4.8, 0.36, 9857.1, 31.8⟩ : Preset) ∈ presets := by simp [presets]
  have hi := fun o ho => (default_installable true o ho).1
  have hm : 2 * (places (defaultArgs true).orbits).length + (defaultArgs true).lonGws * (defaultArgs true).latGws % 2 ^ 32 + 2 < 2 ^ 48 := by
    rw [default_count]; simp [defaultArgs]
  obtain ⟨X, hX, _⟩ := C91_builds 0 hp rfl hi hm Demo.sys
  obtain ⟨K, hK, hsp, hof, _⟩ := sky_exists (defaultArgs true) X
  obtain ⟨is, hr⟩ := (built_of hp rfl hi (by unfold satCount; exact hm) hX).run
  obtain ⟨s0, o, h0, hat, hex, _⟩ := C62_helper_network_is_history Demo.sys_initial hr
  obtain ⟨hpe, _⟩ := attached_only h0 (fun op hop => by
    obtain ⟨d, c, e, _⟩ := hat op hop
    exact ⟨d, c, e⟩) (hex (K.env Demo.env))
  have hw : exec (K.env Demo.env) X.build.sys [.wait dt] = .ok { X.build.sys with now := X.build.sys.now + dt } := by
    simp only [exec, step, hpe]
    rfl
  have hof' : ∀ x, 0 ≤ x → (K.ofSeconds x : ℝ) ≤ x * 1000000000 + 1 := by
    intro x hx
    rw [hof]
    have := Nat.floor_le (a := x * 1000000000) (by positivity)
    linarith
  obtain ⟨R, m, n, s2, _, r1, _, mid, t', sa, r3, _⟩ := C108_default_users Demo.sys_initial hX hK (E := Demo.env) (fun _ _ _ _ => rfl) hsp hof'
    (ops := [.wait dt]) (by simp [PlainTraffic]) hw hpe (Or.inl ⟨rfl, rfl⟩) (q := [1, 2, 3]) (by decide) (proto := 0x800)
  exact ⟨X, K, _, hX, hK, hsp, hof', hw, hpe, R, m, n, s2, r1, t', sa, by rw [r3]; simp⟩

end Verif
