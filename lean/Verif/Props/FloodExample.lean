import Verif.Spec.FloodExample
import Verif.Props.Spread
import Verif.Props.Shipped
/-! # C119: flooding in the example networks -/

namespace Verif
open Real Spec

/-- Hops that can be made at every time until `T`, with delays of at most `δ`, are a lasting link. -/
theorem lasting_of_hops {E : Env} {s : Sys} {q : Bytes} {proto : UInt16} {T δ : Time} {d x : DevId} (hT : s.now ≤ T)
    (h : ∀ t, s.now ≤ t → t ≤ T → ∃ δ', δ' ≤ δ ∧ HopOk E s t ⟨d, x, q, proto, δ'⟩)
    (hb : ∀ c, (s.dev d).chan = some c → (s.chan c).kind = .isl → ∀ y ∈ Spec.slots c s.log, (s.dev y).addr ≠ Mac48.broadcast) :
    Lasting E s (max 64 (q.length + 26)) T d x δ := by
  obtain ⟨_, _, _, h1, h2, _, c, h4, h5, h6, h7, _⟩ := h s.now (Nat.le_refl _) hT
  refine ⟨h1, h2, c, h4, h5, h6, fun hk => ⟨h7 hk, hb c h4 hk⟩, fun t ht1 ht2 => ?_⟩
  obtain ⟨δ', hδ, _, _, _, _, c', g4, _, _, _, pw, g5, g6⟩ := h t ht1 ht2
  have e : c' = c := by
    have g4 : (s.dev d).chan = some c' := g4
    have h4 : (s.dev d).chan = some c := h4
    rw [g4] at h4
    exact Option.some.inj h4
  subst e
  exact ⟨δ', pw, hδ, g5, g6⟩

/-- The light time over at most `D` metres, in whole nanoseconds. -/
noncomputable def lightCap (v D : ℝ) : Nat := ⌊D / v * 1000000000 + 1⌋₊

theorem lightTime_cap {K : Sky} {v : ℝ} (hv : 0 < v) (hsp : K.speed = v) (hof : ∀ x, 0 ≤ x → (K.ofSeconds x : ℝ) ≤ x * 1000000000 + 1)
    {i j : Nat} {f g : Time → Vec} (hf : K.pos i = some f) (hg : K.pos j = some g) {t : Time} {D : ℝ} (hD : (g t - f t).len ≤ D) :
    lightTime K t i j ≤ lightCap v D := by
  have h0 := len_nonneg (g t - f t)
  have h1 := hof ((g t - f t).len / v) (by positivity)
  have h2 : (g t - f t).len / v ≤ D / v := div_le_div_of_nonneg_right hD hv.le
  simp only [lightTime, hf, hg, hsp]
  refine Nat.le_floor ?_
  linarith

theorem lightCap_le {v D : ℝ} (hv : 0 < v) (hD : 0 ≤ D) : (lightCap v D : ℝ) ≤ D / v * 1000000000 + 1 :=
  Nat.floor_le (by positivity)

theorem seconds_add (t u : Time) : seconds (t + u) = seconds t + (u : ℝ) / 1000000000 := by
  unfold seconds
  push_cast
  ring

theorem pathBy_now {E : Env} {s : Sys} {size : Nat} {ports : NodeId → List DevId} {n0 n : NodeId} {T : Time}
    (h : PathBy E s size ports n0 n T) : s.now ≤ T := by
  induction h with
  | start => exact Nat.le_refl _
  | hop _ _ _ _ ih => exact Nat.le_trans ih (Nat.le_add_right _ _)

theorem place_bounds {os : List OrbitRec} {i : Nat} {o : OrbitRec} {c b : Nat} (h : (places os)[i]? = some (o, c, b)) :
    c < o.planes ∧ b < o.sats := by
  have hm := List.mem_of_getElem? h
  unfold places at hm
  simp only [List.mem_flatMap, List.mem_map, List.mem_range, Prod.mk.injEq] at hm
  obtain ⟨o', _, p, hp, k, hk, rfl, rfl, rfl⟩ := hm
  exact ⟨hp, hk⟩

/-- **C119**: in the network of the example programs with inter-satellite links, whenever nothing is in flight a station within the band of
a dense constellation can flood the network: it sends a packet to everybody, and every node — stations and satellites — sends it on once, on all
its devices, when it gets it for the first time.  All activity ends, and within the time light takes for the legs the packet has got to every
satellite of the constellation and to every station within the band (the sender hears it back) — without any routing table.  Nobody
gets anything else. -/
theorem C119_flood {junk : ℝ} {a : ExampleArgs} {p : Preset} (hp : p ∈ presets) (hn : a.constellation = p.name)
    (ho : ∀ o ∈ a.orbits, Installable o) (halt : ∀ o ∈ a.orbits, 0.001 ≤ o.alt) (hisl : a.islEnabled = true)
    (hm : 2 * (places a.orbits).length + a.lonGws * a.latGws % 2 ^ 32 + 2 < 2 ^ 40) {s : Sys}
    (h0 : Initial s) {X : ExampleNet} (h : exampleMain junk a s = .ok X) {K : Sky} (hK : SkyOf a X K) {E : Env} (hE : ErrorFree E)
    {v : ℝ} (hv : 0 < v) (hsp : K.speed = v) (hof : ∀ x, 0 ≤ x → (K.ofSeconds x : ℝ) ≤ x * 1000000000 + 1)
    {ops : List Op} (ht : ∀ op ∈ ops, PlainTraffic op) {s1 : Sys} (hx : exec (K.env E) X.build.sys ops = .ok s1) (hq : s1.pending = [])
    {o : OrbitRec} (hmem : o ∈ a.orbits) (hs : 2 ≤ o.sats) {W : ℝ}
    (hM : Meshed o (2 * (groundRate o * (a.prec.toNat / 1000000000))) W) {δ : ℝ} (hδ : 0 ≤ δ) {D τ : ℝ}
    (hD : D = slantRange propEarthRad (radius o) |sin (rad p.elev)|)
    (hτ0 : 0 ≤ τ) (hτ : (2 * D + (o.planes + o.sats) * W) / v + (o.planes + o.sats) / 1000000000 ≤ τ)
    (hR : ∀ g, some g ∈ X.ground → g.len ≤ radius o ∧
      chord (radius o) g.len (hypotenuse (offTrack (rad o.inc) o.planes δ) (Real.pi / o.sats)) +
        groundRate o * (a.prec.toNat / 1000000000 + τ) ≤ D)
    {j1 : Nat} {g1 : Vec} (hg1 : X.ground[j1]? = some (some g1)) (hb1 : |latOf g1| ≤ tilt (rad o.inc) + δ)
    {q : Bytes} (hlen : q.length ≤ 1492) {proto : UInt16} (hfresh : ∀ e ∈ allUps s1.log, ¬ (e.2.2.1 = q ∧ e.2.2.2.1 = proto))
    {own : NodeId → Bytes → UInt16 → Bool} (hown : ∀ n, own n q proto = decide (n = (places a.orbits).length + j1))
    {ports : NodeId → List DevId} (hports : ports = examplePorts (places a.orbits).length ((places a.orbits).length + X.ground.length)) :
    ∃ k s2, (sendAll (K.env E) (onAll ports ((places a.orbits).length + j1 : Nat) q proto) s1 >>=
        flood (K.env E) (floodOnce own ports) k) = .ok s2 ∧ s2.pending = [] ∧
      (∃ l, allUps s2.log = allUps s1.log ++ l ∧ ∀ e ∈ l, e.2.2.1 = q ∧ e.2.2.2.1 = proto) ∧
      (∀ i c b, (places a.orbits)[i]? = some (o, c, b) → ∃ t x sa, (s1.dev x).node = some i ∧
        (t, x, q, proto, sa) ∈ allUps s2.log ∧ seconds t ≤ seconds s1.now + τ) ∧
      ∀ j2 g2, X.ground[j2]? = some (some g2) → |latOf g2| ≤ tilt (rad o.inc) + δ →
        ∃ t sa, (t, (places a.orbits).length + j2, q, proto, sa) ∈ allUps s2.log ∧ seconds t ≤ seconds s1.now + τ := by
  set N := (places a.orbits).length with hN
  set base := N + X.ground.length with hbase
  have hj1 : j1 < X.ground.length := (List.getElem?_eq_some_iff.mp hg1).1
  have hO := ho o hmem
  have hal := halt o hmem
  have hp1 := hK.gnd j1 g1 hg1
  subst hD
  set D := slantRange propEarthRad (radius o) |sin (rad p.elev)| with hD
  have B := built_of hp hn ho (lt_of_lt_of_le hm (by norm_num)) h
  obtain ⟨s0, oo, hi, hpr, hex⟩ := built_history B h0 ht hx
  obtain ⟨_, hop, hnode, hkind, hnodeI, hbc⟩ := example_legs hp hn ho halt hm h0 h hK (E := E) ht hx hbase
  have hnodeI := hnodeI hisl
  have hbc := hbc hisl
  obtain ⟨idx, hidx⟩ := slot_index hmem
  have hr1 := hR g1 (List.mem_of_getElem? hg1)
  obtain ⟨x, x1, x2, hxa⟩ := mesh_access hK hO hs hal hr1.1 hδ hb1 hr1.2 s1.now
  have hD0 : 0 ≤ D := by
    obtain ⟨f, _, hf⟩ := hxa _ (hidx x x1 x2)
    exact (len_nonneg _).trans (hf s1.now (by rw [sub_self, abs_zero]; exact hτ0)).2.2
  have hports0 : ∀ k : Nat, k < base → (k : DevId) ∈ ports k := by
    intro k hk
    rw [hports]
    show k ∈ examplePorts N base k
    unfold examplePorts port
    by_cases h1 : k < N
    · rw [if_pos h1]; simp
    · rw [if_neg h1, if_pos hk]; simp
  have hports1 : ∀ k : Nat, k < N → (base + k : Nat) ∈ ports k := by
    intro k hk
    rw [hports]
    unfold examplePorts port
    rw [if_pos hk]; simp
  have hpo : PortsOf s1 (List.range base) ports := by
    refine ⟨?_, ?_, ?_⟩
    · intro k d hd
      rw [hports] at hd
      unfold examplePorts port at hd
      split at hd
      · rename_i hk
        simp only [List.mem_cons, List.not_mem_nil, or_false, Bool.false_eq_true, if_false, if_true] at hd
        rcases hd with hd | hd <;> rw [hd]
        · exact (hnode k (Nat.lt_of_lt_of_le hk (Nat.le_add_right _ _))).1
        · exact (hnodeI k hk).1
      · split at hd
        · rename_i hk
          simp only [List.mem_cons, List.not_mem_nil, or_false, Bool.false_eq_true, if_false] at hd
          rw [hd]
          exact (hnode k hk).1
        · cases hd
    · intro k
      rw [hports]
      unfold examplePorts port
      split
      · rename_i hk
        simp only [Bool.false_eq_true, if_false, if_true, List.nodup_cons, List.mem_singleton, List.not_mem_nil, not_false_eq_true, List.nodup_nil, and_true]
        intro e
        have e : @Eq Nat k (base + k) := e
        have hk : @LT.lt Nat _ k N := hk
        omega
      · split <;> simp
    · intro k hk
      rw [hports] at hk
      unfold examplePorts at hk
      rw [List.mem_range]
      split at hk
      · rename_i h1
        exact Nat.lt_of_lt_of_le h1 (Nat.le_add_right _ _)
      · split at hk
        · assumption
        · exact absurd rfl hk
  -- the links
  have slant : ∀ (k k' : Nat) (f g : Time → Vec) (T : Time), s1.now ≤ T → k < base → k' < base → Across N k k' → K.pos k = some f →
      K.pos k' = some g → (∀ t, s1.now ≤ t → t ≤ T → InSlantRange p.elev (f t) (g t) ∧ (g t - f t).len ≤ D) →
      Lasting (K.env E) s1 (max 64 (q.length + 26)) T k k' (lightCap v D) := by
    intro k k' f g T hT hk hk' hac hf hg hl
    refine lasting_of_hops (proto := proto) hT (fun t t1 t2 => ?_) ?_
    · refine ⟨_, lightTime_cap hv hsp hof hf hg (hl t t1 t2).2, ?_⟩
      refine hop ⟨false, k, k', q, proto⟩ t (fun e => by cases e) ⟨hlen, f, g, hf, hg, ?_⟩
      rw [if_neg (by simp)]
      exact ⟨hk, hk', hac, (hl t t1 t2).1⟩
    · intro c hc hkd
      rw [(hnode k hk).2] at hc
      obtain rfl := Option.some.inj hc
      rw [hkind] at hkd
      cases hkd
  -- the paths
  have hW0 : 0 ≤ W := by
    have h1 := hM.ringHi
    have h2 := hM.ringLo
    have h3 := groundRate_nonneg hO.2.2.2.2
    have h4 : 0 ≤ 2 * (groundRate o * ((a.prec.toNat : ℝ) / 1000000000)) := by positivity
    linarith
  have hDv : 0 ≤ D / v := div_nonneg hD0 hv.le
  have hWv : 0 ≤ W / v := div_nonneg hW0 hv.le
  have hsplit : (2 * D + (o.planes + o.sats) * W) / v = 2 * (D / v) + (o.planes + o.sats) * (W / v) := by ring
  rw [hsplit] at hτ
  have c1 := lightCap_le hv hD0
  have c2 := lightCap_le hv hW0
  have reach : ∀ idx : Nat × Nat → Nat, (∀ z : Nat × Nat, z.1 < o.planes → z.2 < o.sats → (places a.orbits)[idx z]? = some (o, z.1, z.2)) →
      ∀ y : Nat × Nat, y.1 < o.planes → y.2 < o.sats → ∃ T, PathBy (K.env E) s1 (max 64 (q.length + 26)) ports (N + j1 : Nat) (idx y : Nat) T ∧
      seconds (T + lightCap v D) ≤ seconds s1.now + τ := by
    intro idx hidx y y1 y2
    obtain ⟨fx, hfx, hxa⟩ := hxa _ (hidx x x1 x2)
    obtain ⟨b1, b2, b3⟩ := hxa s1.now (by rw [sub_self, abs_zero]; exact hτ0)
    have hltN : ∀ z : Nat × Nat, z.1 < o.planes → z.2 < o.sats → idx z < N := fun z h1 h2 => (List.getElem?_eq_some_iff.mp (hidx z h1 h2)).1
    have mesh : ∀ (z z' : Nat × Nat) (T : Time), s1.now ≤ T → z.1 < o.planes → z.2 < o.sats → z'.1 < o.planes → z'.2 < o.sats → Adjacent z z' →
        Lasting (K.env E) s1 (max 64 (q.length + 26)) T (base + idx z : Nat) (base + idx z' : Nat) (lightCap v W) := by
      intro z z' T hT h1 h2 h3 h4 hadj
      refine lasting_of_hops (proto := proto) hT (fun t t1 t2 => ?_) ?_
      · obtain ⟨f, g, hf, hg, hne, hobs, hlW⟩ := mesh_link hK hO (by linarith) hM (hidx z h1 h2) (hidx z' h3 h4) hadj t
        refine ⟨_, lightTime_cap hv hsp hof hf hg hlW, ?_⟩
        refine hop ⟨true, idx z, idx z', q, proto⟩ t (fun _ => hisl) ⟨hlen, f, g, hf, hg, ?_⟩
        rw [if_pos rfl]
        exact ⟨hltN z h1 h2, hltN z' h3 h4, hne, hobs⟩
      · intro c hc hkd
        rw [(hnodeI _ (hltN z h1 h2)).2] at hc
        obtain rfl := Option.some.inj hc
        exact hbc
    have hfirst : PathBy (K.env E) s1 (max 64 (q.length + 26)) ports (N + j1 : Nat) (idx x : Nat) (s1.now + lightCap v D) := by
      refine PathBy.hop (d := (N + j1 : Nat)) (x := (idx x : Nat)) .start (hports0 _ (by omega)) (slant _ _ _ _ _ (Nat.le_refl _) (by omega) ?_ ?_ hp1 hfx ?_) ?_
      · exact Nat.lt_of_lt_of_le (hltN x x1 x2) (Nat.le_add_right _ _)
      · exact Or.inr ⟨by omega, hltN x x1 x2⟩
      · intro t t1 t2
        obtain rfl := Nat.le_antisymm t1 t2
        exact ⟨b1, by rw [dist_comm']; exact b3⟩
      · exact (hnode _ (Nat.lt_of_lt_of_le (hltN x x1 x2) (Nat.le_add_right _ _))).1
    have chain : ∀ (l : List (Nat × Nat)) (z y : Nat × Nat) (T : Time),
        PathBy (K.env E) s1 (max 64 (q.length + 26)) ports (N + j1 : Nat) (idx z : Nat) T → (z :: l).IsChain Adjacent →
        (∀ w ∈ z :: l, w.1 < o.planes ∧ w.2 < o.sats) → (z :: l).getLast? = some y →
        PathBy (K.env E) s1 (max 64 (q.length + 26)) ports (N + j1 : Nat) (idx y : Nat) (T + l.length * lightCap v W) := by
      intro l
      induction l with
      | nil =>
        intro z y T hpz _ _ hy
        obtain rfl := Option.some.inj hy
        simpa using hpz
      | cons w l ih =>
        intro z y T hpz hc hin hy
        have hz := hin z (by simp)
        have hw := hin w (by simp)
        rw [List.isChain_cons_cons] at hc
        have hw' := PathBy.hop hpz (hports1 _ (hltN z hz.1 hz.2)) (mesh z w T (pathBy_now hpz) hz.1 hz.2 hw.1 hw.2 hc.1)
          (hnodeI _ (hltN w hw.1 hw.2)).1
        have := ih w y _ hw' hc.2 (fun u hu => hin u (List.mem_cons_of_mem _ hu)) (by simpa using hy)
        have e : T + lightCap v W + l.length * lightCap v W = T + (w :: l).length * lightCap v W := by
          rw [List.length_cons, Nat.add_mul, Nat.one_mul]; omega
        rwa [e] at this
    obtain ⟨l, w1, w2, w3, _, w5, w6⟩ := grid_way y _ x rfl
    have hl : l.length + 2 ≤ o.planes + o.sats := by
      rw [w1]
      unfold gridDist
      omega
    have hl' : (l.length : ℝ) + 2 ≤ o.planes + o.sats := by exact_mod_cast hl
    refine ⟨_, chain l x y _ hfirst w3 (fun z hz => ?_) w2, ?_⟩
    · have := w6 z hz
      omega
    · rw [seconds_add, seconds_add, seconds_add]
      push_cast
      have hmul : (l.length : ℝ) * (W / v) ≤ (o.planes + o.sats) * (W / v) := mul_le_mul_of_nonneg_right (by linarith) hWv
      have hmul2 : (l.length : ℝ) * (lightCap v W : ℝ) ≤ l.length * (W / v * 1000000000 + 1) := mul_le_mul_of_nonneg_left c2 (Nat.cast_nonneg _)
      have e2 : ((l.length : ℝ) + 2) / 1000000000 ≤ (o.planes + o.sats) / 1000000000 := div_le_div_of_nonneg_right hl' (by norm_num)
      have e3 : (l.length : ℝ) * (W / v * 1000000000 + 1) = l.length * (W / v) * 1000000000 + l.length := by ring
      rw [e3] at hmul2
      linarith
  obtain ⟨k, s2, _, r1, r2, r3, l, r4, r5⟩ := C118_flooding (E := K.env E) (by exact hE) hi hpr hex hq hpo hlen (n0 := (N + j1 : Nat)) hown hfresh
  refine ⟨k, s2, r1, r2, ⟨l, r4, fun e he => ⟨(r5 e he).1, (r5 e he).2.1⟩⟩, ?_, ?_⟩
  · intro i c b hib
    obtain ⟨hc, hb⟩ : c < o.planes ∧ b < o.sats := place_bounds hib
    have hiN : i < N := (List.getElem?_eq_some_iff.mp hib).1
    obtain ⟨T, hT, hT'⟩ := reach (fun z => if z = (c, b) then i else idx z) (fun z z1 z2 => by
      by_cases e : z = (c, b)
      · subst e
        simpa using hib
      · simp only [e, if_false]
        exact hidx z z1 z2) (c, b) hc hb
    simp only [if_true] at hT
    have hne : (i : NodeId) ≠ (N + j1 : Nat) := by
      intro e
      exact Nat.not_lt.mpr (Nat.le_add_right N j1) (lt_of_eq_of_lt e.symm hiN)
    cases hT with
    | start => exact absurd rfl hne
    | @hop m _ T δ' d x' hpath hd hl hx' =>
      obtain ⟨t, d1, d2⟩ := r3 m T hpath d hd x' δ' hl
      refine ⟨t, x', _, hx', d2, le_trans (seconds_mono ?_) hT'⟩
      exact Nat.le_trans d1 (Nat.le_add_right _ _)
  · intro j2 g2 hg2 hb2
    have hj2 : j2 < X.ground.length := (List.getElem?_eq_some_iff.mp hg2).1
    have hp2 := hK.gnd j2 g2 hg2
    have hr2 := hR g2 (List.mem_of_getElem? hg2)
    obtain ⟨y, y1, y2, hya⟩ := mesh_access hK hO hs hal hr2.1 hδ hb2 hr2.2 s1.now
    obtain ⟨fy, hfy, hya⟩ := hya _ (hidx y y1 y2)
    obtain ⟨T, hT, hT'⟩ := reach idx hidx y y1 y2
    have hyN : idx y < N := (List.getElem?_eq_some_iff.mp (hidx y y1 y2)).1
    obtain ⟨t, k1, k2⟩ := r3 _ T hT (idx y : Nat) (hports0 _ (by omega)) (N + j2 : Nat) _ (slant (idx y) (N + j2) fy (fun _ => g2) T (pathBy_now hT)
      (by omega) (by omega) (Or.inl ⟨hyN, by omega⟩) hfy hp2 (fun t t1 t2 => by
        have := hya t (by
          have m1 := seconds_mono t1
          have m2 := seconds_mono (Nat.le_trans t2 (Nat.le_add_right T (lightCap v D)))
          rw [abs_le]
          constructor <;> linarith)
        exact ⟨this.2.1, this.2.2⟩))
    exact ⟨t, _, k2, (seconds_mono k1).trans hT'⟩

/-- **C119** for the shipped Starlink orbits: whenever nothing is in flight, what one station between 53 degrees north and south floods gets to every
station in this band and to all 1600 satellites of the first shell within half a second. -/
theorem C119_starlink {junk : ℝ} {a : ExampleArgs} {p : Preset} (hR : StarlinkRun a p) (hisl : a.islEnabled = true) {s : Sys}
    (h0 : Initial s) {X : ExampleNet} (h : exampleMain junk a s = .ok X) {K : Sky} (hK : SkyOf a X K) {E : Env} (hE : ErrorFree E)
    (hsp : K.speed = 299792458) (hof : ∀ x, 0 ≤ x → (K.ofSeconds x : ℝ) ≤ x * 1000000000 + 1)
    {ops : List Op} (ht : ∀ op ∈ ops, PlainTraffic op) {s1 : Sys} (hx : exec (K.env E) X.build.sys ops = .ok s1) (hq : s1.pending = [])
    {j1 : Nat} {g1 : Vec} (hg1 : X.ground[j1]? = some (some g1)) (hb1 : |latOf g1| ≤ rad 53)
    {q : Bytes} (hlen : q.length ≤ 1492) {proto : UInt16} (hfresh : ∀ e ∈ allUps s1.log, ¬ (e.2.2.1 = q ∧ e.2.2.2.1 = proto))
    {own : NodeId → Bytes → UInt16 → Bool} (hown : ∀ n, own n q proto = decide (n = 4425 + j1))
    {ports : NodeId → List DevId} (hports : ports = examplePorts 4425 (4425 + X.ground.length)) :
    ∃ k s2, (sendAll (K.env E) (onAll ports (4425 + j1 : Nat) q proto) s1 >>= flood (K.env E) (floodOnce own ports) k) = .ok s2 ∧
      s2.pending = [] ∧
      (∃ l, allUps s2.log = allUps s1.log ++ l ∧ ∀ e ∈ l, e.2.2.1 = q ∧ e.2.2.2.1 = proto) ∧
      (∀ i c b, (places starlinkOrbits)[i]? = some (⟨1150, 53, 32, 50⟩, c, b) → ∃ t x sa, (s1.dev x).node = some i ∧
        (t, x, q, proto, sa) ∈ allUps s2.log ∧ seconds t ≤ seconds s1.now + 0.5) ∧
      ∀ j2 g2, X.ground[j2]? = some (some g2) → |latOf g2| ≤ rad 53 →
        ∃ t sa, (t, 4425 + j2, q, proto, sa) ∈ allUps s2.log ∧ seconds t ≤ seconds s1.now + 0.5 := by
  have hi : ∀ o ∈ a.orbits, Installable o := by rw [hR.eq]; exact fun o ho => (starlink_installable o ho).1
  have ha : ∀ o ∈ a.orbits, 0.001 ≤ o.alt := by rw [hR.eq]; exact fun o ho => (starlink_installable o ho).2.1
  have B := built_of hR.preset hR.name hi (hR.count.trans (by norm_num)) h
  have hroom := starlink_room hR.precNat hR.preset hR.mask (τ := 0.5) le_rfl
  have htilt : tilt (rad 53) + 0 = rad 53 := by rw [tilt_rad (by norm_num) (by norm_num), add_zero]
  have hcnt : (places a.orbits).length = 4425 := by rw [hR.eq, starlink_count]
  have := C119_flood hR.preset hR.name hi ha hisl hR.count h0 h hK hE (by norm_num) hsp hof ht hx hq
    (o := ⟨1150, 53, 32, 50⟩) (by rw [hR.eq]; simp [starlinkOrbits]) (by norm_num) (starlink_meshed hR.precNat) (δ := 0) le_rfl
    (τ := 0.5) rfl (by norm_num) ?_ ?_ hg1 (by rw [htilt]; exact hb1) hlen (proto := proto) hfresh (own := own) (by rw [hcnt]; exact hown)
    (ports := ports) (by rw [hcnt]; exact hports)
  · rw [htilt, hcnt, hR.eq] at this
    exact this
  · have h1 := (starlink_range hR.preset hR.mask).2
    norm_num at h1 ⊢
    linarith
  · intro g hg
    obtain ⟨v, e, l⟩ := B.surface _ hg
    injection e with e
    subst e
    rw [l]
    exact ⟨by rw [radius]; norm_num, hroom⟩

theorem default_room : chord (radius ⟨1200, 20, 32, 16⟩) 6371000 (hypotenuse (offTrack (rad 20) 32 0) (Real.pi / (16 : Nat))) +
    groundRate ⟨1200, 20, 32, 16⟩ * (((1000000000 : Nat) : ℝ) / 1000000000 + 0.52) ≤
      slantRange propEarthRad (radius ⟨1200, 20, 32, 16⟩) |sin (rad 20)| := by
  refine le_trans ?_ default_range
  have h1 := default_chord_le
  have h2 := default_rate
  push_cast
  norm_num at h1 ⊢
  linarith

/-- In the network of the example programs nothing is in flight and nothing has been received at the start. -/
theorem example_silent {junk : ℝ} {a : ExampleArgs} {p : Preset} (hp : p ∈ presets) (hn : a.constellation = p.name)
    (ho : ∀ o ∈ a.orbits, Installable o) (hm : 2 * satCount a + a.lonGws * a.latGws % 2 ^ 32 + 2 < 2 ^ 48) {s : Sys} (h0 : Initial s)
    {X : ExampleNet} (hX : exampleMain junk a s = .ok X) : X.build.sys.pending = [] ∧ allUps X.build.sys.log = [] := by
  obtain ⟨is, hr⟩ := (built_of hp hn ho hm hX).run
  obtain ⟨s0, o, h0, hat, hex, _⟩ := C62_helper_network_is_history h0 hr
  obtain ⟨hpe, hup⟩ := attached_only h0 (fun op hop => by
    obtain ⟨d, c, e, _⟩ := hat op hop
    exact ⟨d, c, e⟩) (hex Demo.env)
  refine ⟨hpe, List.filterMap_eq_nil_iff.mpr fun e he => ?_⟩
  obtain ⟨t, ev⟩ := e
  cases ev <;> try rfl
  rename_i d b pr sa
  have := hup.1 d
  unfold upcallLog upcalls at this
  rw [List.filterMap_eq_nil_iff] at this
  have := this _ (List.mem_map.mpr ⟨_, he, rfl⟩)
  simp at this

/-- **C119** for the programs run with inter-satellite links and no other options: what one user floods gets to the other within 0.52 seconds. -/
theorem C119_default_users {junk : ℝ} {s : Sys} (h0 : Initial s) {X : ExampleNet}
    (h : exampleMain junk (defaultArgs true) s = .ok X) {K : Sky} (hK : SkyOf (defaultArgs true) X K) {E : Env} (hE : ErrorFree E)
    (hsp : K.speed = 299792458) (hof : ∀ x, 0 ≤ x → (K.ofSeconds x : ℝ) ≤ x * 1000000000 + 1)
    {ops : List Op} (ht : ∀ op ∈ ops, PlainTraffic op) {s1 : Sys} (hx : exec (K.env E) X.build.sys ops = .ok s1) (hq : s1.pending = [])
    {u1 u2 : Nat} (hu : u1 = 632 + 400 ∧ u2 = 632 + 401 ∨ u1 = 632 + 401 ∧ u2 = 632 + 400) {q : Bytes} (hlen : q.length ≤ 1492) {proto : UInt16}
    (hfresh : ∀ e ∈ allUps s1.log, ¬ (e.2.2.1 = q ∧ e.2.2.2.1 = proto))
    {own : NodeId → Bytes → UInt16 → Bool} (hown : ∀ n, own n q proto = decide (n = u1))
    {ports : NodeId → List DevId} (hports : ports = examplePorts 632 (632 + 402)) :
    ∃ k s2, (sendAll (K.env E) (onAll ports u1 q proto) s1 >>= flood (K.env E) (floodOnce own ports) k) = .ok s2 ∧ s2.pending = [] ∧
      ∃ t sa, (t, u2, q, proto, sa) ∈ allUps s2.log ∧ seconds t ≤ seconds s1.now + 0.52 := by
  have hp : (⟨"TelesatGateway", 105.9, 20, 189.3, 4.8, 0.36, 9857.1, 31.8⟩ : Preset) ∈ presets := by simp [presets]
  have hi := fun o ho => (default_installable true o ho).1
  have ha := fun o ho => (default_installable true o ho).2
  obtain ⟨Y, e, _, hgr, hg1, hg2, _⟩ := C91_builds junk (a := defaultArgs true) hp rfl hi (by rw [default_count]; simp [defaultArgs]) s
  rw [h] at e
  injection e with e
  subst e
  have e400 : (defaultArgs true).lonGws * (defaultArgs true).latGws % 2 ^ 32 = 400 := rfl
  rw [e400] at hg1 hg2 hgr
  have hprec : (defaultArgs true).prec.toNat = 1000000000 := rfl
  have B := built_of hp rfl hi (by unfold satCount; rw [default_count]; simp [defaultArgs]) h
  have hband : ∀ lat lon : ℝ, -20 ≤ lat → lat ≤ 20 → |latOf (location lat lon)| ≤ tilt (rad 20) + 0 := by
    intro lat lon l1 l2
    rw [location_lat (by linarith) (by linarith), tilt_rad (by norm_num) (by norm_num), abs_le, add_zero]
    exact rad_mem l1 l2
  have key : ∀ j1 j2 lat1 lon1 lat2 lon2, u1 = 632 + j1 → u2 = 632 + j2 → X.ground[j1]? = some (some (location lat1 lon1)) →
      X.ground[j2]? = some (some (location lat2 lon2)) → -20 ≤ lat1 → lat1 ≤ 20 → -20 ≤ lat2 → lat2 ≤ 20 →
      ∃ k s2, (sendAll (K.env E) (onAll ports u1 q proto) s1 >>= flood (K.env E) (floodOnce own ports) k) = .ok s2 ∧ s2.pending = [] ∧
        ∃ t sa, (t, u2, q, proto, sa) ∈ allUps s2.log ∧ seconds t ≤ seconds s1.now + 0.52 := by
    rintro j1 j2 lat1 lon1 lat2 lon2 rfl rfl k1 k2 l1 l2 l3 l4
    have := C119_flood hp rfl hi ha rfl (by rw [default_count]; simp [defaultArgs]) h0 h hK hE (by norm_num) hsp hof ht hx hq
      (o := ⟨1200, 20, 32, 16⟩) (by simp [defaultArgs]) (by norm_num) (W := 3010000) (by rw [hprec]; exact default_meshed) (δ := 0) le_rfl
      (τ := 0.52) rfl (by norm_num) ?_ ?_ k1 (hband lat1 lon1 l1 l2) hlen (proto := proto) hfresh (own := own)
      (by rw [default_count]; exact hown) (ports := ports) (by rw [default_count, hgr]; exact hports)
    · rw [default_count] at this
      obtain ⟨k, s2, r1, r2, _, _, r3⟩ := this
      exact ⟨k, s2, r1, r2, r3 j2 _ k2 (hband lat2 lon2 l3 l4)⟩
    · have h1 := default_range_le
      norm_num at h1 ⊢
      linarith
    · intro g hg
      obtain ⟨v, e, l⟩ := B.surface _ hg
      injection e with e
      subst e
      rw [l, hprec]
      exact ⟨by rw [radius]; norm_num, by exact_mod_cast default_room⟩
  rcases hu with ⟨e1, e2⟩ | ⟨e1, e2⟩
  · exact key 400 401 _ _ _ _ e1 e2 hg1 hg2 (by norm_num [defaultArgs]) (by norm_num [defaultArgs]) (by norm_num [defaultArgs]) (by norm_num [defaultArgs])
  · exact key 401 400 _ _ _ _ e1 e2 hg2 hg1 (by norm_num [defaultArgs]) (by norm_num [defaultArgs]) (by norm_num [defaultArgs]) (by norm_num [defaultArgs])

/-- The hypotheses of `C119_default_users` (and with them those of `C119_flood`) are met: the network exists, and however long one waits
nothing is in flight and nothing has been received. -/
example (dt : Time) : ∃ X K s1, exampleMain 0 (defaultArgs true) Demo.sys = .ok X ∧ SkyOf (defaultArgs true) X K ∧ K.speed = 299792458 ∧
    (∀ x, 0 ≤ x → (K.ofSeconds x : ℝ) ≤ x * 1000000000 + 1) ∧ exec (K.env Demo.env) X.build.sys [.wait dt] = .ok s1 ∧ s1.pending = [] ∧
    (∀ e ∈ allUps s1.log, ¬ (e.2.2.1 = [1, 2, 3] ∧ e.2.2.2.1 = 0x800)) ∧
    ∃ k s2, (sendAll (K.env Demo.env) (onAll (examplePorts 632 (632 + 402)) (632 + 400 : Nat) [1, 2, 3] 0x800) s1 >>=
        flood (K.env Demo.env) (floodOnce (fun n _ _ => decide (n = 632 + 400)) (examplePorts 632 (632 + 402))) k) = .ok s2 ∧
      ∃ t sa, (t, 632 + 401, [1, 2, 3], 0x800, sa) ∈ allUps s2.log := by
  have hp : (⟨"TelesatGateway", 105.9, 20, 189.3, 4.8, 0.36, 9857.1, 31.8⟩ : Preset) ∈ presets := by simp [presets]
  have hi := fun o ho => (default_installable true o ho).1
  have hm : 2 * (places (defaultArgs true).orbits).length + (defaultArgs true).lonGws * (defaultArgs true).latGws % 2 ^ 32 + 2 < 2 ^ 48 := by
    rw [default_count]; simp [defaultArgs]
  obtain ⟨X, hX, _⟩ := C91_builds 0 hp rfl hi hm Demo.sys
  obtain ⟨K, hK, hsp, hof, _⟩ := sky_exists (defaultArgs true) X
  obtain ⟨hpe, hup⟩ := example_silent hp rfl hi (by unfold satCount; exact hm) Demo.sys_initial hX
  have hw : exec (K.env Demo.env) X.build.sys [.wait dt] = .ok { X.build.sys with now := X.build.sys.now + dt } := by
    simp only [exec, step, hpe]
    rfl
  have hof' : ∀ x, 0 ≤ x → (K.ofSeconds x : ℝ) ≤ x * 1000000000 + 1 := by
    intro x hx
    rw [hof]
    have := Nat.floor_le (a := x * 1000000000) (by positivity)
    linarith
  have hfr : ∀ e ∈ allUps X.build.sys.log, ¬ (e.2.2.1 = [1, 2, 3] ∧ e.2.2.2.1 = 0x800) := by
    intro e he
    rw [hup] at he
    cases he
  obtain ⟨k, s2, r1, _, t, sa, r3, _⟩ := C119_default_users Demo.sys_initial hX hK (E := Demo.env) (fun _ _ _ _ => rfl) hsp hof'
    (ops := [.wait dt]) (by simp [PlainTraffic]) hw hpe (Or.inl ⟨rfl, rfl⟩) (q := [1, 2, 3]) (by decide) (proto := 0x800) hfr
    (own := fun n _ _ => decide (n = 632 + 400)) (fun _ => rfl) rfl
  exact ⟨X, K, _, hX, hK, hsp, hof', hw, hpe, hfr, k, s2, r1, t, sa, r3⟩

end Verif
