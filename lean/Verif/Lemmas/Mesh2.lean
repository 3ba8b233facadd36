import Verif.Lemmas.Mesh
import Verif.Props.Coverage
import Verif.Props.ExampleRoute
/-!
# Lemmas about ways through the mesh
-/

namespace Verif
open Real Spec

theorem groundRate_nonneg {o : OrbitRec} (ha : -6371.009 < o.alt) : 0 ≤ groundRate o := by
  unfold groundRate orbitSpeed radius
  have := Real.pi_pos
  have h : 0 ≤ (6371.009 + o.alt) * 1000 := by linarith
  positivity

theorem slot_orbitOf (o : OrbitRec) (x : Nat × Nat) : orbitOf (o, x.1, x.2) = slotOrbit o x := by
  have : o.inc / 180 * Real.pi = rad o.inc := by unfold rad; ring
  simp only [orbitOf, earthRadKm, this, slotOrbit]
  norm_num

theorem slot_rate {o : OrbitRec} (ha : -6371.009 < o.alt) (x : Nat × Nat) (t u : Time) :
    ((slotOrbit o x).position t - (slotOrbit o x).position u).len ≤ groundRate o * |seconds t - seconds u| := by
  have h := C86_rate (o := slotOrbit o x) (by simp only [slotOrbit]; linarith) t u
  rw [← slot_orbitOf, orbitOf_speed (x := (o, x.1, x.2)) ha, slot_orbitOf] at h
  exact h

/-- Where a satellite is reported, it was at most one update ago. -/
theorem reported_slot {a : ExampleArgs} {X : ExampleNet} {K : Sky} (hK : SkyOf a X K) {o : OrbitRec} (ha : -6371.009 < o.alt)
    {i : Nat} {x : Nat × Nat} (hi : (places a.orbits)[i]? = some (o, x.1, x.2)) :
    ∃ f, K.pos i = some f ∧ ∀ t, (f t).len = radius o ∧
      ((slotOrbit o x).position t - f t).len ≤ groundRate o * (a.prec.toNat / 1000000000) := by
  obtain ⟨f, hf, hrep⟩ := hK.sat i o x.1 x.2 hi
  refine ⟨f, hf, fun t => ?_⟩
  obtain ⟨u, hu, hfu⟩ := hrep t
  have hpos : f t = (slotOrbit o x).position u := by
    rw [hfu, ← track_eq (x := (o, x.1, x.2)) ha, slot_orbitOf]
  have hgap : |seconds t - seconds u| ≤ (a.prec.toNat : ℝ) / 1000000000 := by
    have e1 : seconds t - seconds u = ((t : ℝ) - u) / 1000000000 := by unfold seconds; ring
    rw [e1, abs_div, abs_of_nonneg (a := (1000000000 : ℝ)) (by norm_num)]
    apply div_le_div_of_nonneg_right _ (by norm_num)
    unfold Reported at hu
    split at hu
    · subst hu; simp
    · obtain ⟨_, h1, h2⟩ := hu
      have h1' : (u : ℝ) ≤ t := by exact_mod_cast h1
      have h2' : (t : ℝ) ≤ u + a.prec.toNat := by exact_mod_cast h2
      rw [abs_of_nonneg (by linarith)]
      linarith
  rw [hpos]
  exact ⟨slot_len ha x u, (slot_rate ha x t u).trans (mul_le_mul_of_nonneg_left hgap (groundRate_nonneg ha))⟩

theorem dist_tri (a b c : Vec) : (a - c).len ≤ (a - b).len + (b - c).len := by
  refine le_of_eq_of_le ?_ (len_add_le _ _)
  congr 1
  ext <;> simp

/-- Neighbours see each other, according to the reported positions. -/
theorem mesh_link {a : ExampleArgs} {X : ExampleNet} {K : Sky} (hK : SkyOf a X K) {o : OrbitRec} (ho : Installable o)
    (halt : 0 ≤ o.alt) {W : ℝ} (hM : Meshed o (2 * (groundRate o * (a.prec.toNat / 1000000000))) W) {i j : Nat} {x y : Nat × Nat}
    (hi : (places a.orbits)[i]? = some (o, x.1, x.2)) (hj : (places a.orbits)[j]? = some (o, y.1, y.2)) (hadj : Adjacent x y) (t : Time) :
    ∃ f g, K.pos i = some f ∧ K.pos j = some g ∧ f t ≠ g t ∧ ¬ Obstructed islEarthRad (f t) (g t) ∧ (g t - f t).len ≤ W := by
  obtain ⟨i1, i2, i3, i4, i5⟩ := ho
  obtain ⟨f, hf, hf'⟩ := reported_slot hK i5 hi
  obtain ⟨g, hg, hg'⟩ := reported_slot hK i5 hj
  obtain ⟨f1, f2⟩ := hf' t
  obtain ⟨g1, g2⟩ := hg' t
  obtain ⟨d1, d2⟩ := adjacent_dist hM i1 i2 i5 hadj t
  have t1 := dist_tri ((slotOrbit o x).position t) (f t) ((slotOrbit o y).position t)
  have t2 := dist_tri (f t) (g t) ((slotOrbit o y).position t)
  have t3 := dist_tri (f t) ((slotOrbit o x).position t) (g t)
  have t4 := dist_tri ((slotOrbit o x).position t) ((slotOrbit o y).position t) (g t)
  rw [dist_comm' ((slotOrbit o y).position t) (g t)] at t2
  rw [dist_comm' ((slotOrbit o x).position t) (f t)] at t3
  have lo : 0 < (f t - g t).len := by linarith
  have hi : (f t - g t).len ≤ W := by linarith
  have hR : islEarthRad ≤ radius o := by unfold islEarthRad radius; linarith
  have hlos := (C87_equal_height hR f1 g1).mpr ⟨lo, lt_of_le_of_lt (pow_le_pow_left₀ lo.le hi 2) hM.horizon⟩
  have hne : f t ≠ g t := by
    intro he
    rw [he, (C48_coincident _ 0).1] at hlos
    cases hlos
  exact ⟨f, g, hf, hg, hne, (C48_line_of_sight hne (Or.inl (by rw [f1]; exact hR))).mp hlos, by rw [dist_comm']; exact hi⟩

/-- A station has a satellite that stays in range for `τ` seconds. -/
theorem mesh_access {a : ExampleArgs} {X : ExampleNet} {K : Sky} (hK : SkyOf a X K) {o : OrbitRec} (ho : Installable o)
    (hs : 2 ≤ o.sats) (halt : 0.001 ≤ o.alt) {g : Vec} (hgl : g.len ≤ radius o) {δ : ℝ} (hδ : 0 ≤ δ)
    (hlat : |latOf g| ≤ tilt (rad o.inc) + δ) {e τ : ℝ}
    (hr : chord (radius o) g.len (hypotenuse (offTrack (rad o.inc) o.planes δ) (Real.pi / o.sats)) +
        groundRate o * (a.prec.toNat / 1000000000 + τ) ≤ slantRange propEarthRad (radius o) |sin (rad e)|) (t0 : Time) :
    ∃ x : Nat × Nat, x.1 < o.planes ∧ x.2 < o.sats ∧ ∀ i, (places a.orbits)[i]? = some (o, x.1, x.2) →
      ∃ f, K.pos i = some f ∧ ∀ t, |seconds t - seconds t0| ≤ τ →
        InSlantRange e g (f t) ∧ InSlantRange e (f t) g ∧ (g - f t).len ≤ slantRange propEarthRad (radius o) |sin (rad e)| := by
  obtain ⟨i1, i2, i3, i4, i5⟩ := ho
  obtain ⟨p, hp, k, hk, hd⟩ := C107_always_near (h := 6371.009 + o.alt) (by linarith) i1 hs hδ hlat t0
  refine ⟨(p, k), hp, hk, fun i hi => ?_⟩
  obtain ⟨f, hf, hf'⟩ := reported_slot hK i5 (x := (p, k)) hi
  refine ⟨f, hf, fun t ht => ?_⟩
  obtain ⟨f1, f2⟩ := hf' t
  have hrate := (slot_rate i5 (p, k) t0 t).trans (mul_le_mul_of_nonneg_left ((abs_sub_comm _ _).trans_le ht) (groundRate_nonneg i5))
  have t1 := dist_tri g ((slotOrbit o (p, k)).position t0) (f t)
  have t2 := dist_tri ((slotOrbit o (p, k)).position t0) ((slotOrbit o (p, k)).position t) (f t)
  have hd' : (g - (slotOrbit o (p, k)).position t0).len ≤
      chord (radius o) g.len (hypotenuse (offTrack (rad o.inc) o.planes δ) (Real.pi / o.sats)) := hd
  have hD : (g - f t).len ≤ slantRange propEarthRad (radius o) |sin (rad e)| := by
    rw [mul_add] at hr
    linarith
  have hrad : radius o = (6371.009 + o.alt) * 1000 := rfl
  have hmax : max g.len (f t).len = radius o := by rw [f1]; exact max_eq_right hgl
  have h1 : InSlantRange e g (f t) := by
    rw [slant_range_iff (by rw [hmax, hrad, propEarthRad]; linarith), hmax]
    first | exact hD | (rw [dist_comm']; exact hD)
  refine ⟨h1, ?_, hD⟩
  unfold InSlantRange at h1 ⊢
  rw [dist_comm', max_comm]
  exact h1

/-- Legs along a list of slots, and down to a station at the end. -/
def meshLegs (idx : Nat × Nat → Nat) (q : Bytes) (proto : UInt16) (u : Nat) : List (Nat × Nat) → List Leg
  | [] => []
  | [x] => [⟨false, idx x, u, q, proto⟩]
  | x :: y :: l => ⟨true, idx x, idx y, q, proto⟩ :: meshLegs idx q proto u (y :: l)

/-- A routing table: each device on the way has the next one send what it received. -/
def tableOf (s : Sys) : List Hop → Forwarder
  | h :: h' :: hs => fun x p proto sa =>
      if x = h.dst then some (h'.src, p, .mac (s.dev h'.dst).addr, proto) else tableOf s (h' :: hs) x p proto sa
  | _ => fun _ _ _ _ => none

theorem follows_of_table {s : Sys} {R : Forwarder} {q : Bytes} {pr : UInt16} : ∀ {hs : List Hop}, (hs.map Hop.dst).Nodup →
    (∀ h ∈ hs, h.packet = q ∧ h.proto = pr) →
    (∀ x ∈ hs.map Hop.dst, ∀ p proto sa, R x p proto sa = tableOf s hs x p proto sa) → Follows s R hs
  | [], _, _, _ => trivial
  | [h], _, _, hR => hR h.dst (by simp) _ _ _
  | h :: h' :: hs, hnd, hq, hR => by
    rw [List.map_cons, List.nodup_cons] at hnd
    refine ⟨?_, follows_of_table hnd.2 (fun h hh => hq h (List.mem_cons_of_mem _ hh)) ?_⟩
    · rw [hR h.dst (by simp), (hq h (by simp)).1, (hq h (by simp)).2, (hq h' (by simp)).1, (hq h' (by simp)).2]
      simp only [tableOf, if_true]
    · intro x hx p proto sa
      rw [hR x (List.mem_cons_of_mem _ hx)]
      simp only [tableOf]
      rw [if_neg]
      rintro rfl
      exact hnd.1 hx

theorem passes_table {s : Sys} : ∀ {hs : List Hop}, hs.IsChain (fun h h' => ∃ n, (s.dev h.dst).node = some n ∧ (s.dev h'.src).node = some n) →
    PassesOn s (tableOf s hs)
  | [], _ => fun _ _ _ _ _ _ _ _ h => by cases h
  | [_], _ => fun _ _ _ _ _ _ _ _ h => by cases h
  | h :: h' :: hs, hc => by
    rw [List.isChain_cons_cons] at hc
    intro x p proto sa d p' dest proto' hR
    simp only [tableOf] at hR
    split at hR
    · rename_i hx
      simp only [Option.some.injEq, Prod.mk.injEq] at hR
      obtain ⟨rfl, rfl, rfl, rfl⟩ := hR
      exact ⟨rfl, rfl, by simp, by rw [hx]; exact hc.1⟩
    · exact passes_table hc.2 _ _ _ _ _ _ _ _ hR

/-- The legs of a way go from node to node. -/
theorem hops_chain {K : Sky} {N base : Nat} {elev : ℝ} {s : Sys} (hut : ∀ k : Nat, k < base → (s.dev k).node = some k)
    (hisl : ∀ i : Nat, i < N → (s.dev (base + i : Nat)).node = some i) : ∀ (ls : List Leg) (t : Time), LegsOk K N base elev t ls →
    ls.IsChain (fun a b => a.dst = b.src) →
    (hopsOf K base t ls).IsChain (fun h h' => ∃ n, (s.dev h.dst).node = some n ∧ (s.dev h'.src).node = some n)
  | [], _, _, _ => by simp [hopsOf]
  | [l], _, _, _ => by simp [hopsOf]
  | l :: l' :: ls, t, hok, hc => by
    have hport : ∀ (m : Leg) (u : Time), LegOk K N base elev u m → (s.dev (port base m.isl m.src)).node = some m.src ∧
        (s.dev (port base m.isl m.dst)).node = some m.dst := by
      intro m u hm
      obtain ⟨_, f, g, _, _, hm⟩ := hm
      unfold port
      split at hm
      · rename_i hi
        rw [if_pos hi, if_pos hi]
        exact ⟨hisl _ hm.1, hisl _ hm.2.1⟩
      · rename_i hi
        rw [if_neg hi, if_neg hi]
        exact ⟨hut _ hm.1, hut _ hm.2.1⟩
    have ih := hops_chain hut hisl (l' :: ls) _ hok.2 (List.isChain_cons_cons.mp hc).2
    simp only [hopsOf] at ih ⊢
    rw [List.isChain_cons_cons]
    refine ⟨⟨l.dst, (hport l _ hok.1).2, ?_⟩, ih⟩
    rw [(List.isChain_cons_cons.mp hc).1]
    exact (hport l' _ hok.2.1).1

theorem meshLegs_chain (idx : Nat × Nat → Nat) (q : Bytes) (proto : UInt16) (u : Nat) : ∀ (l : List (Nat × Nat)) (x : Nat × Nat) (m : Leg),
    m.dst = idx x → (m :: meshLegs idx q proto u (x :: l)).IsChain (fun a b => a.dst = b.src)
  | [], x, m, h => by simp [meshLegs, h]
  | y :: l, x, m, h => by
    have := meshLegs_chain idx q proto u l y ⟨true, idx x, idx y, q, proto⟩ rfl
    simp only [meshLegs]
    rw [List.isChain_cons_cons]
    exact ⟨h, this⟩

/-- The delay model: the speed of the signal, times rounded to nanoseconds. -/
theorem light_bound {K : Sky} {v : ℝ} (hv : 0 < v) (hsp : K.speed = v) (hof : ∀ x, 0 ≤ x → (K.ofSeconds x : ℝ) ≤ x * 1000000000 + 1)
    {i j : Nat} {f g : Time → Vec} (hf : K.pos i = some f) (hg : K.pos j = some g) {t : Time} {D : ℝ} (hD : (g t - f t).len ≤ D) :
    seconds (t + lightTime K t i j) ≤ seconds t + D / v + 1 / 1000000000 := by
  have h0 := len_nonneg (g t - f t)
  have h1 := hof ((g t - f t).len / v) (by positivity)
  have h2 : (g t - f t).len / v ≤ D / v := div_le_div_of_nonneg_right hD hv.le
  simp only [lightTime, hf, hg, hsp]
  unfold seconds
  push_cast
  rw [add_div]
  have h3 : ((K.ofSeconds ((g t - f t).len / v) : Nat) : ℝ) / 1000000000 ≤ D / v + 1 / 1000000000 := by
    rw [div_le_iff₀ (by norm_num)]
    linarith
  linarith

theorem seconds_mono {t u : Time} (h : t ≤ u) : seconds t ≤ seconds u := by
  unfold seconds
  exact div_le_div_of_nonneg_right (by exact_mod_cast h) (by norm_num)

theorem meshLegs_ok {a : ExampleArgs} {X : ExampleNet} {K : Sky} (hK : SkyOf a X K) {o : OrbitRec} (ho : Installable o)
    (halt : 0 ≤ o.alt) {W : ℝ} (hM : Meshed o (2 * (groundRate o * (a.prec.toNat / 1000000000))) W)
    {v : ℝ} (hv : 0 < v) (hsp : K.speed = v) (hof : ∀ x, 0 ≤ x → (K.ofSeconds x : ℝ) ≤ x * 1000000000 + 1)
    {idx : Nat × Nat → Nat} {q : Bytes} (hlen : q.length ≤ 1492) {proto : UInt16} {u base : Nat} {e τ D : ℝ} (hD0 : 0 ≤ D) {t0 : Time} {y : Nat × Nat}
    {g : Time → Vec} (hg : K.pos u = some g) (hu1 : (places a.orbits).length ≤ u) (hu2 : u < base) (hb : (places a.orbits).length ≤ base)
    {f : Time → Vec} (hf : K.pos (idx y) = some f)
    (hacc : ∀ t, |seconds t - seconds t0| ≤ τ → InSlantRange e (f t) (g t) ∧ (g t - f t).len ≤ D) :
    ∀ (l : List (Nat × Nat)) (x : Nat × Nat), (x :: l).getLast? = some y → (x :: l).IsChain Adjacent →
      (∀ z ∈ x :: l, (places a.orbits)[idx z]? = some (o, z.1, z.2)) → ∀ t : Time, t0 ≤ t →
      seconds t + l.length * (W / v + 1 / 1000000000) + (D / v + 1 / 1000000000) ≤ seconds t0 + τ →
      LegsOk K (places a.orbits).length base e t (meshLegs idx q proto u (x :: l)) ∧
      seconds (t + ((hopsOf K base t (meshLegs idx q proto u (x :: l))).map Hop.delay).sum) ≤
        seconds t + l.length * (W / v + 1 / 1000000000) + (D / v + 1 / 1000000000) := by
  have hlt : ∀ z, (places a.orbits)[idx z]? = some (o, z.1, z.2) → idx z < (places a.orbits).length := by
    intro z hz
    rw [List.getElem?_eq_some_iff] at hz
    exact hz.1
  have hW : 0 ≤ W / v := by
    have h1 := hM.ringHi
    have h2 := hM.ringLo
    have h3 := groundRate_nonneg ho.2.2.2.2
    have h4 : 0 ≤ 2 * (groundRate o * ((a.prec.toNat : ℝ) / 1000000000)) := by positivity
    exact div_nonneg (by linarith) hv.le
  intro l
  induction l with
  | nil =>
    intro x hx _ hidx t ht hτ
    simp only [List.getLast?_singleton, Option.some.injEq] at hx
    subst hx
    simp only [List.length_nil, Nat.cast_zero, zero_mul, add_zero] at hτ ⊢
    have hx := hlt x (hidx x (by simp))
    have hm := seconds_mono ht
    have hD1 : 0 ≤ D / v := div_nonneg hD0 hv.le
    have hτ0 : |seconds t - seconds t0| ≤ τ := by
      rw [abs_of_nonneg (by linarith)]
      linarith
    obtain ⟨a1, a2⟩ := hacc t hτ0
    refine ⟨⟨⟨hlen, f, g, hf, hg, ?_⟩, trivial⟩, ?_⟩
    · rw [if_neg (by simp)]
      exact ⟨Nat.lt_of_lt_of_le hx hb, hu2, Or.inl ⟨hx, hu1⟩, a1⟩
    · simp only [meshLegs, hopsOf, List.map_cons, List.map_nil, List.sum_cons, List.sum_nil, Nat.add_zero]
      have := light_bound hv hsp hof hf hg a2
      linarith
  | cons z l ih =>
    intro x hx hch hidx t ht hτ
    rw [List.getLast?_cons_cons] at hx
    rw [List.isChain_cons_cons] at hch
    obtain ⟨f1, f2, k1, k2, k3, k4, k5⟩ := mesh_link hK ho halt hM (hidx x (by simp)) (hidx z (by simp)) hch.1 t
    have hlb := light_bound hv hsp hof k1 k2 k5
    obtain ⟨r1, r2⟩ := ih z hx hch.2 (fun w hw => hidx w (List.mem_cons_of_mem _ hw)) (t + lightTime K t (idx x) (idx z))
      (Nat.le_trans ht (Nat.le_add_right _ _)) (by
        rw [List.length_cons] at hτ
        push_cast at hτ
        linarith)
    refine ⟨⟨⟨hlen, f1, f2, k1, k2, ?_⟩, r1⟩, ?_⟩
    · rw [if_pos rfl]
      exact ⟨hlt x (hidx x (by simp)), hlt z (hidx z (by simp)), k3, k4⟩
    · simp only [meshLegs, hopsOf, List.map_cons, List.sum_cons, ← Nat.add_assoc]
      rw [List.length_cons]
      push_cast
      linarith

end Verif
