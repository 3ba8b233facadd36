import Verif.Lemmas.Fleet
/-! # C89, C90: the tracing program and satellites that share a simulation -/

namespace Verif
open Real Spec

/-! ## C89 -/

theorem fleet_empty (prec : Int) : Fleet.empty = fleetOf prec [] := by
  unfold Fleet.empty fleetOf
  simp

/-- Before the first event is dispatched. -/
theorem tracing_setup (junk : ℝ) (prec : Int) (D : Nat) {os : List OrbitRec} (h : ∀ o ∈ os, Installable o) (k : Nat) :
    ∃ F : Fleet, tracingMain junk prec D os k = F.exec junk (List.replicate k .run) ∧
      F.mobs = (fleetOf prec (places os)).mobs ∧ (∀ i, i < (places os).length → F.sinks i = 1) ∧ F.stopped = false ∧ F.out = [] ∧
      F.pending = insertFleetEv D .stop (fleetOf prec (places os)).pending := by
  unfold tracingMain
  rw [fleet_empty prec, fleetOrbits_eq junk prec h, List.nil_append]
  simp only [Outcome.ok_bind, Fleet.exec, Fleet.step]
  refine ⟨_, rfl, rfl, ?_, rfl, rfl, ?_⟩
  · intro i hi
    simp [fleetOf, hi]
  · simp [fleetOf]

/-- C89: with a positive precision the program prints, for every multiple of the precision before the end (and for the first one
also if it is the end), one line per satellite in the order of installation, with the exact position and the
circular speed at that time; it then stops at the end of the given duration. -/
theorem C89_trace (junk : ℝ) {prec : Int} (hp : 0 < prec) (D : Nat) {os : List OrbitRec} (h : ∀ o ∈ os, Installable o) {k : Nat}
    (hk : (sampleTimes prec.toNat D).length * (places os).length < k) :
    ∃ F, tracingMain junk prec D os k = .ok F ∧ F.stopped = true ∧ F.now = D ∧ F.out = trace prec.toNat D os := by
  obtain ⟨F0, e0, hm, hs, hst, hout, hpend⟩ := tracing_setup junk prec D h k
  obtain ⟨p, rfl⟩ := Int.eq_ofNat_of_zero_le hp.le
  have hp' : 0 < p := by omega
  simp only [Int.toNat_natCast] at hk ⊢
  obtain ⟨J, hJD, hJ⟩ := rounds_exist hp' D
  have hst' := sampleTimes_eq (p := p) hJD fun j _ => hJ j
  set O := (places os).map orbitOf with hO
  have hOl : O.length = (places os).length := by rw [hO, List.length_map]
  have g0 : Going p D O F0 (if 0 < J then (List.range O.length).map (fun i => (p, .update i)) else []) := by
    refine ⟨?_, ?_, ?_, hst, ?_⟩
    · rw [hm, hO]; simp [fleetOf]
    · intro m hmm
      rw [hm] at hmm
      obtain ⟨x, _, rfl⟩ := List.mem_map.mp hmm
      rfl
    · rw [hOl]; exact hs
    · have h0 := hJ 0
      simp only [Nat.zero_add, Nat.one_mul] at h0
      have hpe : (fleetOf (p : Int) (places os)).pending = (List.range O.length).map fun i => (p, .update i) := by
        simp only [fleetOf, hOl, Int.toNat_natCast]
        rw [if_pos (by omega)]
      rw [hpend, hpe]
      split
      · rename_i hJ0
        refine ⟨[], insertFleetEv_last ?_⟩
        intro u hu
        obtain ⟨i, _, rfl⟩ := List.mem_map.mp hu
        rcases h0.mpr hJ0 with h1 | ⟨h1, _⟩
        · exact h1.le
        · exact h1.le
      · rename_i hJ0
        have hlt : D < p := by
          by_contra hge
          rcases Nat.lt_or_eq_of_le (Nat.le_of_not_lt hge) with h1 | h1
          · exact hJ0 (h0.mp (Or.inl h1))
          · exact hJ0 (h0.mp (Or.inr (by simp [h1])))
        cases hr : (List.range O.length).map (fun i => (p, FleetEv.update i)) with
        | nil => exact ⟨[], rfl⟩
        | cons u us =>
          have hu : u ∈ (List.range O.length).map (fun i => (p, FleetEv.update i)) := by rw [hr]; simp
          obtain ⟨i, _, rfl⟩ := List.mem_map.mp hu
          refine ⟨(p, .update i) :: us, ?_⟩
          simp only [insertFleetEv, List.nil_append]
          rw [if_neg (by omega)]
  obtain ⟨F1, e1, g1, out1⟩ := going_rounds junk hp' (J := J) (by
    intro j hj hjJ
    rcases (hJ j).mpr hjJ with h1 | ⟨h1, h2⟩
    · exact h1
    · have : j + 1 = 1 := Nat.eq_of_mul_eq_mul_right hp' (by rw [h2, Nat.one_mul])
      omega) (by
    intro _ hlt
    exact absurd ((hJ J).mp (Or.inl hlt)) (Nat.lt_irrefl J)) J (Nat.le_refl J) F0 g0
  rw [if_neg (Nat.lt_irrefl J)] at g1
  obtain ⟨B, hB⟩ := g1.pend
  have hlen : (sampleTimes p D).length = J := by rw [hst', List.length_map, List.length_range]
  rw [hlen, ← hOl] at hk
  obtain ⟨r, rfl⟩ : ∃ r, k = J * O.length + (1 + r) := ⟨k - J * O.length - 1, by omega⟩
  have e2 : F1.exec junk (List.replicate (1 + r) .run) = .ok { F1 with now := D, pending := B, stopped := true } := by
    rw [Nat.add_comm, List.replicate_succ, Fleet.exec]
    simp only [Fleet.step, g1.stopped, hB, List.nil_append, Bool.false_eq_true, if_false, Outcome.ok_bind]
    exact stopped_exec junk rfl r
  refine ⟨_, by rw [e0, List.replicate_add, fleet_exec_append, e1, Outcome.ok_bind, e2], rfl, rfl, ?_⟩
  show F1.out = _
  rw [out1, hout, List.nil_append, trace, hst', List.flatMap_map]
  congr 1
  funext j
  rw [hO, round_lines h]

/-- Which times are sample times. -/
theorem C89_sample_times {p D t : Nat} (hp : 0 < p) :
    t ∈ sampleTimes p D ↔ ∃ j, 0 < j ∧ t = j * p ∧ (t < D ∨ t = D ∧ j = 1) := by
  unfold sampleTimes
  simp only [List.mem_filter, List.mem_map, List.mem_range, decide_eq_true_eq]
  constructor
  · rintro ⟨⟨j, _, rfl⟩, h⟩
    refine ⟨j + 1, by omega, rfl, h.imp id fun ⟨h1, h2⟩ => ⟨h1, ?_⟩⟩
    exact Nat.eq_of_mul_eq_mul_right hp (by rw [h2, Nat.one_mul])
  · rintro ⟨j, hj, rfl, h⟩
    have hle : j ≤ j * p := Nat.le_mul_of_pos_right _ hp
    refine ⟨⟨j - 1, by omega, by rw [Nat.sub_add_cancel hj]⟩, h.imp id fun ⟨h1, h2⟩ => ⟨h1, ?_⟩⟩
    rw [h2, Nat.one_mul]

/-- C89: every satellite is printed exactly once at every sample time, in order of time. -/
theorem C89_each_satellite (p D : Nat) (os : List OrbitRec) {i : Nat} (hi : i < (places os).length) :
    ((trace p D os).filter fun l => decide (l.node = i)).map (·.time) = sampleTimes p D := by
  have hone : ∀ (t : Nat) (L : List (OrbitRec × Nat × Nat)) (a : Nat), a ≤ i → i < a + L.length →
      ((L.mapIdx fun j x => (⟨t, a + j, track x.1 x.2.1 x.2.2 (t / 1000000000), orbitSpeed x.1⟩ : TrackLine)).filter
        fun l => decide (l.node = i)).map (·.time) = [t] := by
    intro t L
    induction L with
    | nil => intro a h1 h2; simp at h2; omega
    | cons x xs ih =>
      intro a h1 h2
      rw [List.mapIdx_cons, List.filter_cons]
      by_cases hai : a = i
      · subst hai
        simp only [Nat.add_zero, decide_true, if_true, List.map_cons]
        congr 1
        rw [List.map_eq_nil_iff, List.filter_eq_nil_iff]
        intro l hl
        obtain ⟨j, hj, rfl⟩ := List.mem_mapIdx.mp hl
        simp only [decide_eq_true_eq]
        omega
      · simp only [Nat.add_zero, hai, decide_false, Bool.false_eq_true, if_false]
        have := ih (a + 1) (by omega) (by simp only [List.length_cons] at h2; omega)
        simpa only [Nat.add_assoc, Nat.add_comm 1] using this
  have hsample : ∀ t, ((sample os t).filter fun l => decide (l.node = i)).map (·.time) = [t] := by
    intro t
    have := hone t (places os) 0 (Nat.zero_le _) (by omega)
    simp only [Nat.zero_add] at this
    exact this
  unfold trace
  generalize sampleTimes p D = T
  induction T with
  | nil => rfl
  | cons t ts ih => rw [List.flatMap_cons, List.filter_append, List.map_append, hsample, ih]; rfl

/-- C89: without a precision nothing is printed, whatever the duration. -/
theorem C89_silent (junk : ℝ) {prec : Int} (hp : prec ≤ 0) (D : Nat) {os : List OrbitRec} (h : ∀ o ∈ os, Installable o) (k : Nat) :
    ∃ F, tracingMain junk prec D os (k + 1) = .ok F ∧ F.stopped = true ∧ F.now = D ∧ F.out = [] := by
  obtain ⟨F0, e0, _, _, hst, hout, hpend⟩ := tracing_setup junk prec D h (k + 1)
  have hpe : F0.pending = [(D, .stop)] := by
    rw [hpend]
    simp only [fleetOf]
    rw [if_neg (by omega)]
    rfl
  refine ⟨{ F0 with now := D, pending := [], stopped := true }, ?_, rfl, rfl, hout⟩
  rw [e0, List.replicate_succ, Fleet.exec]
  simp only [Fleet.step, hst, hpe, Bool.false_eq_true, if_false, Outcome.ok_bind]
  exact stopped_exec junk rfl k

/-- The built-in orbits meet the hypotheses. -/
theorem builtin_installable (mem : Nat → Char × Char × Char) : ∀ o ∈ tracingOrbits mem none, Installable o := by
  intro o ho
  simp only [tracingOrbits, List.mem_cons, List.not_mem_nil, or_false] at ho
  rcases ho with rfl | rfl <;> exact ⟨by norm_num, by norm_num, by norm_num, by norm_num, by norm_num⟩

/-- C89: the number of lines. -/
theorem C89_line_count (p D : Nat) (os : List OrbitRec) : (trace p D os).length = (sampleTimes p D).length * (places os).length := by
  unfold trace
  generalize sampleTimes p D = T
  induction T with
  | nil => simp
  | cons t ts ih =>
    rw [List.flatMap_cons, List.length_append, ih, List.length_cons, Nat.succ_mul, Nat.add_comm]
    simp [sample]

/-- C89: the program without options prints 59 times 632 lines: the samples at the start and at the end are missing. -/
theorem C89_builtin_orbits (junk : ℝ) (mem : Nat → Char × Char × Char) : ∃ F, tracingMain junk 1000000000 60000000000 (tracingOrbits mem none) 37289 = .ok F ∧
    F.stopped = true ∧ F.out.length = 59 * 632 ∧ 60000000000 ∉ F.out.map (·.time) := by
  have hst : sampleTimes 1000000000 60000000000 = (List.range 59).map fun j => (j + 1) * 1000000000 :=
    sampleTimes_eq (by omega) fun j _ => by omega
  have hlen : (sampleTimes 1000000000 60000000000).length = 59 := by rw [hst]; simp
  have hpl : (places (tracingOrbits mem none)).length = 632 := by simp [tracingOrbits, places, List.length_flatMap]
  obtain ⟨F, e, hs, _, ho⟩ := C89_trace junk (prec := 1000000000) (by norm_num) 60000000000 (builtin_installable mem) (k := 37289) (by
    show (sampleTimes 1000000000 60000000000).length * _ < _
    rw [hlen, hpl]
    norm_num)
  have ho : F.out = trace 1000000000 60000000000 (tracingOrbits mem none) := ho
  refine ⟨F, e, hs, ?_, ?_⟩
  · rw [ho, C89_line_count, hlen, hpl]
  · rw [ho]
    intro hm
    obtain ⟨l, hl, ht⟩ := List.mem_map.mp hm
    obtain ⟨t, htm, hl⟩ := List.mem_flatMap.mp hl
    obtain ⟨i, hi, rfl⟩ := List.mem_mapIdx.mp hl
    obtain rfl : t = 60000000000 := ht
    rw [hst] at htm
    obtain ⟨j, hj, h⟩ := List.mem_map.mp htm
    have := List.mem_range.mp hj
    omega

/-! ## C90 -/

/-- States of simulations with any number of satellites. -/
def FleetReachable (junk : ℝ) (F : Fleet) : Prop := ∃ ops, Fleet.empty.exec junk ops = .ok F

theorem FleetReachable.inv {junk : ℝ} {F : Fleet} (h : FleetReachable junk F) : FleetInv F := by
  obtain ⟨ops, h⟩ := h
  exact fleet_exec_induct (P := FleetInv) (fun _ _ _ hi hs => fleetInv_step hi hs) fleetInv_empty h

/-- C90: what happens to a satellite in a simulation with others is what happens to it alone: there is a history of that one satellite,
with exactly the calls made on it in the same order, with the same result (parameters, position, clock, events still to come
and notifications). -/
theorem C90_alone {junk : ℝ} {F F' : Fleet} (hF : FleetReachable junk F) {ops : List FleetOp} (h : F.exec junk ops = .ok F') {i : Nat}
    {s : Sat} (hs : satOf F i = some s) :
    ∃ sops s', s.exec sops = .ok s' ∧ satOf F' i = some s' ∧ sops.filter isSetterCall = ops.filterMap (callOf i) :=
  satOf_exec hF.inv h hs

/-- C90: a call on one satellite leaves every other one exactly as it was. -/
theorem C90_calls_on_others {junk : ℝ} {F F' : Fleet} {op : FleetOp} (h : F.step junk op = .ok F') {i j : Nat} (hij : j ≠ i)
    (ho : (callOf j op).isSome) : satOf F' i = satOf F i := by
  cases op with
  | setPosition j' v =>
    simp only [callOf] at ho
    split at ho
    · rename_i e; subst e
      injection h with h; subst h
      rw [satOf_update_other hij, satOf_change_other hij]
    · cases ho
  | setAltitude j' v =>
    simp only [callOf] at ho
    split at ho
    · rename_i e; subst e
      injection h with h; subst h
      rw [satOf_update_other hij, satOf_change_other hij]
    · cases ho
  | setInclination j' v =>
    simp only [callOf] at ho
    split at ho
    · rename_i e; subst e
      simp only [Fleet.step] at h
      split at h
      · cases h
      · injection h with h; subst h
        rw [satOf_update_other hij, satOf_change_other hij]
    · cases ho
  | setPrecision j' v =>
    simp only [callOf] at ho
    split at ho
    · rename_i e; subst e
      injection h with h; subst h
      rw [satOf_change_other hij]
    · cases ho
  | create => cases ho
  | connect => cases ho
  | stopAfter => cases ho
  | run => cases ho
  | wait => cases ho

/-- C90: every satellite of every simulation is in a state that a satellite alone can be in; what is proved of those (C31, C32, C34,
C38) holds for it. -/
theorem C90_reachable {junk : ℝ} {F : Fleet} (hF : FleetReachable junk F) {i : Nat} {s : Sat} (hs : satOf F i = some s) : SatReachable s := by
  obtain ⟨ops, h⟩ := hF
  have key : FleetInv F ∧ ∀ i s, satOf F i = some s → SatReachable s := by
    refine fleet_exec_induct (P := fun F => FleetInv F ∧ ∀ i s, satOf F i = some s → SatReachable s) ?_ ⟨fleetInv_empty, ?_⟩ h
    · rintro F op F' ⟨hi, hall⟩ h
      refine ⟨fleetInv_step hi h, fun i s' hs' => ?_⟩
      cases hsi : satOf F i with
      | some s =>
        obtain ⟨sops, s'', he, hs'', _⟩ := satOf_step hi h hsi
        rw [hs'] at hs''
        injection hs'' with hs''
        subst hs''
        obtain ⟨j, n, a, x, p, s0, ops0, h1, h2⟩ := hall i s hsi
        exact ⟨j, n, a, x, p, s0, ops0 ++ sops, h1, by rw [sat_exec_append, h2, Outcome.ok_bind, he]⟩
      | none =>
        have hge : F.mobs.length ≤ i := by
          rw [satOf_eq, Option.map_eq_none_iff] at hsi
          exact List.getElem?_eq_none_iff.mp hsi
        have hlt : i < F'.mobs.length := by
          rw [satOf_eq] at hs'
          obtain ⟨m, hm, _⟩ := Option.map_eq_some_iff.mp hs'
          exact (List.getElem?_eq_some_iff.mp hm).1
        have hsame : F'.mobs.length = F.mobs.length → False := fun e => by omega
        cases op with
        | create alt inc prec =>
          simp only [Fleet.step] at h
          obtain ⟨s0, h0, h⟩ := Outcome.bind_eq_ok.mp h
          injection h with h
          subst h
          simp only [List.length_append, List.length_singleton] at hlt
          obtain rfl : i = F.mobs.length := by omega
          have hx : inc ≠ 0 := by
            rintro rfl
            simp [Sat.create, Sat.setInclination] at h0
          have hlog : notesOf F.mobs.length F.log = [] := by
            unfold notesOf
            rw [List.filterMap_eq_nil_iff]
            rintro ⟨t, j⟩ he
            have := hi.note t j he
            have : ¬ j = F.mobs.length := by omega
            simp [this]
          have hpend : timesOf F.mobs.length F.pending = [] := by
            unfold timesOf
            rw [List.filterMap_eq_nil_iff]
            rintro ⟨t, e⟩ he
            simp only [ite_eq_right_iff, reduceCtorEq, imp_false]
            rintro rfl
            exact absurd (hi.idx t _ he) (Nat.lt_irrefl _)
          have hmap : ∀ l : List Time, notesOf F.mobs.length (l.map fun t => (t, F.mobs.length)) = l := by
            intro l
            induction l with
            | nil => rfl
            | cons t ts ih => simp only [notesOf, List.map_cons, List.filterMap_cons, if_true] at ih ⊢; rw [ih]
          rw [satOf_eq] at hs'
          simp only [List.getElem?_concat_length, Option.map_some, Option.some.injEq, notesOf_append, hlog, hpend, hmap, List.nil_append] at hs'
          have h0' := h0
          rw [create_eq _ _ _ _ _ hx] at h0'
          injection h0' with h0'
          refine ⟨junk, F.now, alt, inc, prec, s0, [], h0, ?_⟩
          rw [← hs', ← h0']
          rfl
        | setPosition j v => injection h with h; subst h; exact (hsame (by rw [update_length, change_length])).elim
        | setAltitude j v => injection h with h; subst h; exact (hsame (by rw [update_length, change_length])).elim
        | setInclination j v =>
          simp only [Fleet.step] at h
          split at h
          · cases h
          · injection h with h; subst h; exact (hsame (by rw [update_length, change_length])).elim
        | setPrecision j v => injection h with h; subst h; exact (hsame (change_length _ _ _)).elim
        | connect => injection h with h; subst h; exact (hsame rfl).elim
        | stopAfter => injection h with h; subst h; exact (hsame rfl).elim
        | run =>
          simp only [Fleet.step] at h
          split at h
          · injection h with h; subst h; exact (hsame rfl).elim
          · split at h
            · injection h with h; subst h; exact (hsame rfl).elim
            · injection h with h; subst h; exact (hsame (update_length _ _)).elim
            · injection h with h; subst h; exact (hsame rfl).elim
        | wait =>
          simp only [Fleet.step] at h
          split at h
          · injection h with h; subst h; exact (hsame rfl).elim
          · split at h <;> (injection h with h; subst h; exact (hsame rfl).elim)
    · intro i s hs
      cases hs
  exact key.2 i s hs

/-- C90: so every position that any satellite of any simulation reports is at its altitude. -/
theorem C90_on_sphere {junk : ℝ} {F : Fleet} (hF : FleetReachable junk F) {i : Nat} {m : Mob} (hm : F.mobs[i]? = some m)
    (ha : -6371.009 ≤ m.orbit.height - earthRadKm) : (m.getPosition F.now).len = m.orbit.height * 1000 := by
  have hs : satOf F i = some ⟨m.orbit, m.pos, m.prec, F.now, timesOf i F.pending, notesOf i F.log⟩ := by
    rw [satOf_eq, hm]; rfl
  have := C31_on_sphere (C90_reachable hF hs) ha
  have e : 6371.009 + (m.orbit.height - earthRadKm) = m.orbit.height := by unfold earthRadKm; ring
  rw [← e]
  exact this

theorem orbitsInstall_places (junk : ℝ) {os : List OrbitRec} (h : ∀ o ∈ os, Installable o) :
    orbitsInstall junk 0 os = .ok ((places os).map fun x =>
      ⟨orbitOf x, (orbitOf x).position 0, 1000000000, 0, [1000000000], [0, 0, 0]⟩) := by
  induction os with
  | nil => rfl
  | cons o os ih =>
    obtain ⟨h1, h2, h3, h4, _⟩ := h o (by simp)
    rw [orbitsInstall, orbitInstall_eq h1 h2 (by rw [Nat.mul_comm]; exact h3) (create_eq _ _ _ _ _ h4), Outcome.ok_bind,
      ih fun x hx => h x (by simp [hx]), Outcome.ok_bind]
    have e : places (o :: os) = placesOf o ++ places os := by simp only [places, List.flatMap_cons]; rfl
    rw [e, List.map_append]
    congr 2
    have hm : placesOf o = (List.range (o.sats * o.planes)).map (fun i => (o, i / o.sats, i % o.sats)) :=
      (range_places o.sats h2 (fun p k => (o, p, k)) o.planes).symm
    rw [hm, List.map_map]
    refine List.map_congr_left fun i hi => ?_
    have hq : i / o.sats < o.planes := Nat.div_lt_of_lt_mul (List.mem_range.mp hi)
    simp only [Function.comp, Sat.setPosition, Sat.update, Spec.slot, Nat.mod_eq_of_lt hq, orbitOf, defaultPrecision,
      mul_div_assoc]
    rfl

/-- C90: installing a constellation into one simulation gives node by node the satellites of C53. -/
theorem C90_installed (junk : ℝ) {os : List OrbitRec} (h : ∀ o ∈ os, Installable o) :
    ∃ F l, fleetOrbits junk defaultPrecision Fleet.empty os = .ok F ∧ orbitsInstall junk 0 os = .ok l ∧
      F.mobs.length = l.length ∧ ∀ i, satOf F i = l[i]? := by
  refine ⟨_, _, by rw [fleet_empty defaultPrecision, fleetOrbits_eq junk defaultPrecision h], orbitsInstall_places junk h, by simp [fleetOf], ?_⟩
  intro i
  simp only [List.nil_append, satOf_eq, List.getElem?_map]
  generalize places os = L
  simp only [fleetOf, List.getElem?_map, Option.map_map, defaultPrecision]
  cases hx : L[i]? with
  | none => rfl
  | some x =>
    obtain ⟨hlt, _⟩ := List.getElem?_eq_some_iff.mp hx
    have hT : ∀ n, timesOf i ((List.range n).map fun j => (1000000000, FleetEv.update j)) = if i < n then [1000000000] else [] := by
      intro n
      induction n with
      | zero => rfl
      | succ n ih =>
        rw [List.range_succ, List.map_append, timesOf, List.filterMap_append]
        rw [timesOf] at ih
        rw [ih]
        by_cases h1 : i < n
        · simp [h1, show ¬ n = i by omega, show i < n + 1 by omega]
        · by_cases h2 : n = i
          · simp [h2]
          · simp [h1, h2, show ¬ i < n + 1 by omega]
    have hN : ∀ n, notesOf i ((List.range n).flatMap fun j => [(0, j), (0, j), (0, j)]) = if i < n then [0, 0, 0] else [] := by
      intro n
      induction n with
      | zero => rfl
      | succ n ih =>
        rw [List.range_succ, List.flatMap_append, notesOf_append, ih]
        by_cases h1 : i < n
        · simp [h1, notesOf, show ¬ n = i by omega, show i < n + 1 by omega]
        · by_cases h2 : n = i
          · simp [h2, notesOf]
          · simp [h1, h2, notesOf, show ¬ i < n + 1 by omega]
    simp only [Option.map_some, Function.comp]
    have e1 := hT L.length
    have e2 := hN L.length
    rw [if_pos hlt] at e1 e2
    simp only [show ((1000000000 : Int) > 0) by norm_num, if_true]
    rw [show (Int.toNat 1000000000) = 1000000000 from rfl, e1, e2]

/-- Two satellites; one is moved while the other has an event to come. -/
example : ∃ (F F' : Fleet) (s : Sat) (ops : List FleetOp), FleetReachable 0 F ∧ F.exec 0 ops = .ok F' ∧ satOf F 0 = some s ∧
    s.pending = [1000] ∧ (∃ op ∈ ops, (callOf 1 op).isSome) ∧ ops.filterMap (callOf 0) = [] ∧ F'.now = 1000 := by
  have h0 : ∃ F, Fleet.empty.exec 0 [.create 1000 60 1000, .create 1200 30 2000, .setPosition 0 ⟨1, 2, 0⟩] = .ok F ∧
      F.mobs.length = 2 ∧ F.pending = [(1000, .update 0)] ∧ F.stopped = false ∧ F.now = 0 ∧ F.mobs.map (·.prec) = [1000, 2000] := by
    refine ⟨_, by
      simp only [Fleet.exec, Fleet.step, create_eq _ _ _ _ _ (show (60 : ℝ) ≠ 0 by norm_num),
        create_eq _ _ _ _ _ (show (30 : ℝ) ≠ 0 by norm_num), Outcome.ok_bind]
      rfl, ?_, ?_, ?_, ?_, ?_⟩ <;>
    simp [Fleet.update, Fleet.change, Fleet.empty, insertFleetEv]
  obtain ⟨F, e, hl, hp, hst, hn0, hpr⟩ := h0
  obtain ⟨m0, m1, hm⟩ : ∃ m0 m1, F.mobs = [m0, m1] := by
    match hF : F.mobs with
    | [] => simp [hF] at hl
    | [_] => simp [hF] at hl
    | [a, b] => exact ⟨a, b, rfl⟩
    | _ :: _ :: _ :: _ => simp [hF] at hl
  have hp1 : m1.prec = 2000 := by rw [hm] at hpr; simp at hpr; exact hpr.2
  have h1 : ∃ F', F.exec 0 [.setAltitude 1 500, .run] = .ok F' ∧ F'.now = 1000 := by
    simp only [Fleet.exec, Fleet.step, Outcome.ok_bind]
    simp [Fleet.update, Fleet.change, hm, hst, hp, hn0, hp1, insertFleetEv]
  obtain ⟨F', e', hn⟩ := h1
  exact ⟨F, F', _, _, ⟨_, e⟩, e', by rw [satOf_eq, hm]; rfl, by rw [hp]; simp [timesOf], ⟨.setAltitude 1 500, by simp, rfl⟩, by simp [callOf], hn⟩

end Verif
