import Verif.Lemmas.Course
import Verif.Props.Fleet
/-!
# Calls from inside course-change sinks: C111
-/

namespace Verif
open Real Spec

/-- States of simulations in which the code connected to course changes makes calls. -/
def CourseReachable (junk : ℝ) (C : Course) : Prop := ∃ ops, Course.exec junk ⟨Fleet.empty, []⟩ ops = .ok C

theorem courseInv_empty : CourseInv ⟨Fleet.empty, []⟩ := ⟨fleetInv_empty, by intro i hi; cases hi⟩

theorem CourseReachable.inv {junk : ℝ} {C : Course} (h : CourseReachable junk C) : CourseInv C := by
  obtain ⟨ops, h⟩ := h
  exact course_exec_induct (P := CourseInv) (fun _ _ _ h0 h => courseInv_step h0 h) courseInv_empty h

/-- A created satellite. -/
theorem created {junk : ℝ} {F : Fleet} {st : List Nat} {alt inc : ℝ} {prec : Int} {C' : Course} (hi : CourseInv ⟨F, st⟩)
    (h : Course.step junk ⟨F, st⟩ (.op (.create alt inc prec)) = .ok C') :
    ∃ s0, Sat.create junk F.now alt inc prec = .ok s0 ∧ satOf C'.fleet F.mobs.length = some s0 ∧ C'.stack = st ∧
      C'.fleet.mobs.length = F.mobs.length + 1 := by
  simp only [Course.step, Fleet.step] at h
  obtain ⟨F1, h1, h⟩ := Outcome.bind_eq_ok.mp h
  obtain ⟨s0, h0, h1⟩ := Outcome.bind_eq_ok.mp h1
  injection h1 with h1
  injection h with h
  subst h h1
  have hx : inc ≠ 0 := by
    rintro rfl
    simp [Sat.create, Sat.setInclination] at h0
  have hlog : notesOf F.mobs.length F.log = [] := by
    unfold notesOf
    rw [List.filterMap_eq_nil_iff]
    rintro ⟨t, j⟩ he
    have := hi.fleet.note t j he
    have : ¬ j = F.mobs.length := by simp only at this; omega
    simp [this]
  have hpend : timesOf F.mobs.length F.pending = [] := by
    unfold timesOf
    rw [List.filterMap_eq_nil_iff]
    rintro ⟨t, e⟩ he
    simp only [ite_eq_right_iff, reduceCtorEq, imp_false]
    rintro rfl
    exact absurd (hi.fleet.idx t _ he) (Nat.lt_irrefl _)
  have hmap : ∀ l : List Time, notesOf F.mobs.length (l.map fun t => (t, F.mobs.length)) = l := by
    intro l
    induction l with
    | nil => rfl
    | cons t ts ih => simp only [notesOf, List.map_cons, List.filterMap_cons, if_true] at ih ⊢; rw [ih]
  refine ⟨s0, h0, ?_, rfl, by simp⟩
  rw [satOf_eq]
  simp only [List.getElem?_concat_length, Option.map_some, Option.some.injEq, notesOf_append, hlog, hpend, hmap, List.nil_append]
  rw [create_eq _ _ _ _ _ hx] at h0
  injection h0 with h0
  rw [← h0]

theorem enter_length (C : Course) (i : Nat) : (C.enter i).fleet.mobs.length = C.fleet.mobs.length := notify_length _ _

theorem course_length {junk : ℝ} {C C' : Course} {o : CourseOp} (hc : ∀ a x p, o ≠ .op (.create a x p)) (h : C.step junk o = .ok C') :
    C'.fleet.mobs.length = C.fleet.mobs.length := by
  cases o with
  | ret =>
    simp only [Course.step] at h
    split at h <;> (injection h with h; subst h)
    · rfl
    · simp only [arm_mobs]
  | op o =>
    cases o with
    | create a x p => exact absurd rfl (hc a x p)
    | setPosition j v => injection h with h; subst h; rw [enter_length]; exact change_length _ _ _
    | setAltitude j v => injection h with h; subst h; rw [enter_length]; exact change_length _ _ _
    | setInclination j v =>
      simp only [Course.step] at h
      split at h
      · cases h
      · injection h with h; subst h; rw [enter_length]; exact change_length _ _ _
    | setPrecision j v => injection h with h; subst h; exact change_length _ _ _
    | connect => injection h with h; subst h; rfl
    | stopAfter => injection h with h; subst h; rfl
    | run =>
      simp only [Course.step] at h
      split at h
      · injection h with h; subst h; rfl
      · split at h <;> (injection h with h; subst h)
        · rfl
        · rw [enter_length]
        · rfl
    | wait dt =>
      simp only [Course.step] at h
      split at h
      · injection h with h; subst h; rfl
      · simp only [Fleet.step] at h
        obtain ⟨F, h1, h⟩ := Outcome.bind_eq_ok.mp h
        injection h with h
        subst h
        split at h1
        · injection h1 with h1; subst h1; rfl
        · split at h1 <;> (injection h1 with h1; subst h1; rfl)

/-- Every satellite is one that could be on its own, with the notifications of the calls that wait for their sinks. -/
theorem course_held {junk : ℝ} {C : Course} (hC : CourseReachable junk C) : ∀ {i : Nat} {s : Sat}, satOf C.fleet i = some s →
    ∃ s0 ops, SatReachable s0 ∧ Held C i s0 ops := by
  obtain ⟨cops, h⟩ := hC
  have key : CourseInv C ∧ ∀ i s, satOf C.fleet i = some s → ∃ s0 ops, SatReachable s0 ∧ Held C i s0 ops := by
    refine course_exec_induct (P := fun C => CourseInv C ∧ ∀ i s, satOf C.fleet i = some s → ∃ s0 ops, SatReachable s0 ∧ Held C i s0 ops)
      ?_ ⟨courseInv_empty, by intro i s hs; cases hs⟩ h
    rintro C o C' ⟨hi, hall⟩ h
    refine ⟨courseInv_step hi h, fun i s' hs' => ?_⟩
    cases hsi : satOf C.fleet i with
    | some s =>
      obtain ⟨s0, ops, hr, hh⟩ := hall i s hsi
      obtain ⟨sops, s1, ops1, he, hh1, _⟩ := held_step hi h hh
      obtain ⟨j, n, a, x, p, z, ops0, h1, h2⟩ := hr
      exact ⟨s1, ops1, ⟨j, n, a, x, p, z, ops0 ++ sops, h1, by rw [sat_exec_append, h2, Outcome.ok_bind, he]⟩, hh1⟩
    | none =>
      have hge : C.fleet.mobs.length ≤ i := by
        rw [satOf_eq, Option.map_eq_none_iff] at hsi
        exact List.getElem?_eq_none_iff.mp hsi
      have hlt := satOf_lt hs'
      by_cases hc : ∀ a x p, o ≠ .op (.create a x p)
      · have := course_length hc h
        omega
      · simp only [not_forall, ne_eq, not_not] at hc
        obtain ⟨a, x, p, rfl⟩ := hc
        obtain ⟨s0, h0, hs0, hst, hlen⟩ := created hi h
        obtain rfl : i = C.fleet.mobs.length := by omega
        refine ⟨s0, [], ⟨junk, C.fleet.now, a, x, p, s0, [], h0, rfl⟩, hs0, ?_, trivial⟩
        rw [hst]
        symm
        rw [List.length_nil, List.count_eq_zero]
        intro hm
        exact absurd (hi.stack _ hm) (Nat.lt_irrefl _)
  exact fun {_ _} hs => key.2 _ _ hs

/-! ## What the satellites report, also to the sinks -/

theorem foldl_half_pos {ops : List SatOp} : ∀ {s : Sat}, ops ≠ [] → HeldFit s ops →
    (ops.foldl Sat.half s).pos = (ops.foldl Sat.half s).orbit.position (ops.foldl Sat.half s).now := by
  have one : ∀ {s : Sat} {o : SatOp}, (Sets o ∨ o = .run) → (s.half o).pos = (s.half o).orbit.position (s.half o).now := by
    intro s o h
    cases o with
    | setPrecision p => rcases h with h | h <;> [exact absurd h.1 (by simp [IsSetter]); cases h]
    | wait p => rcases h with h | h <;> [exact absurd h.1 (by simp [IsSetter]); cases h]
    | _ => rfl
  have rest : ∀ (ops : List SatOp) (s : Sat), (∀ x ∈ ops, Sets x) → s.pos = s.orbit.position s.now →
      (ops.foldl Sat.half s).pos = (ops.foldl Sat.half s).orbit.position (ops.foldl Sat.half s).now := by
    intro ops
    induction ops with
    | nil => intro s _ h; exact h
    | cons o os ih => intro s hall _; exact ih _ (fun x hx => hall x (by simp [hx])) (one (Or.inl (hall o (by simp))))
  intro s hne hf
  cases ops with
  | nil => exact absurd rfl hne
  | cons o os => exact rest os _ hf.2 (one (hf.1.imp id fun h => h.1))

/-- C111: whatever the code connected to the notifications does, at every moment, also while such code runs, every satellite reports the
exact position of its current orbit at a time that is not in the future; a satellite whose notification is being handled reports its
exact position at this time. -/
theorem C111_inside {junk : ℝ} {C : Course} (hC : CourseReachable junk C) {i : Nat} {s : Sat} (hs : satOf C.fleet i = some s) :
    (∃ u, u ≤ s.now ∧ s.getPosition = s.orbit.position u) ∧ (i ∈ C.stack → s.getPosition = s.orbit.position s.now) := by
  obtain ⟨s0, ops, hr, hh⟩ := course_held hC hs
  have e := hh.sat
  rw [hs] at e
  injection e with e
  by_cases hne : ops = []
  · subst hne
    have hl := hh.len
    rw [List.length_nil, eq_comm, List.count_eq_zero] at hl
    obtain rfl : s = s0 := e
    exact ⟨getPosition_exact hr.inv, fun hm => absurd hm hl⟩
  · have hp := foldl_half_pos hne hh.fit
    rw [← e] at hp
    have : s.getPosition = s.orbit.position s.now := by
      unfold Sat.getPosition
      split
      · rfl
      · exact hp
    exact ⟨⟨s.now, Nat.le_refl _, this⟩, fun _ => this⟩

/-- C111: so the reported positions are on the sphere of the current altitude, also for the code that is being notified. -/
theorem C111_on_sphere {junk : ℝ} {C : Course} (hC : CourseReachable junk C) {i : Nat} {s : Sat} (hs : satOf C.fleet i = some s)
    (ha : -6371.009 ≤ s.getAltitude) : s.getPosition.len = (6371.009 + s.getAltitude) * 1000 := by
  obtain ⟨⟨u, _, hp⟩, _⟩ := C111_inside hC hs
  have hh : 6371.009 + s.getAltitude = s.orbit.height := by
    unfold Sat.getAltitude earthRadKm; ring
  rw [hh, hp]
  apply len_eq
  · have : 0 ≤ s.orbit.height := by rw [← hh]; linarith
    linarith
  · exact position_dot _ _

/-! ## The satellites by themselves -/

theorem held_start {C : Course} {i : Nat} {s : Sat} (hs : satOf C.fleet i = some s) (hst : i ∉ C.stack) : Held C i s [] :=
  ⟨hs, (List.count_eq_zero.mpr hst).symm, trivial⟩

/-- C111: between two moments when no sink of node `i` runs its satellite does what a satellite on its own does in some history with the
same calls of the setters in the same order and the same precisions in the same order - whether the program made these calls or
code connected to notifications of this or of other satellites. -/
theorem C111_alone {junk : ℝ} {C C' : Course} (hC : CourseReachable junk C) {cops : List CourseOp} (h : C.exec junk cops = .ok C')
    {i : Nat} {s : Sat} (hs : satOf C.fleet i = some s) (h0 : i ∉ C.stack) (h1 : i ∉ C'.stack) :
    ∃ sops s', s.exec sops = .ok s' ∧ satOf C'.fleet i = some s' ∧ setters sops = setters (cops.filterMap (courseCall i)) ∧
      precs sops = precs (cops.filterMap (courseCall i)) := by
  obtain ⟨sops, s', ops', he, hh, f, g⟩ := held_exec hC.inv h (held_start hs h0)
  have hl := hh.len
  rw [List.count_eq_zero.mpr h1, List.length_eq_zero_iff] at hl
  subst hl
  exact ⟨sops, s', he, hh.sat, by simpa using f, by simpa using g⟩

/-- C111: when no sink of its node runs, a satellite is in a state that a satellite on its own can be in. -/
theorem C111_reachable {junk : ℝ} {C : Course} (hC : CourseReachable junk C) {i : Nat} {s : Sat} (hs : satOf C.fleet i = some s)
    (h : i ∉ C.stack) : SatReachable s := by
  obtain ⟨s0, ops, hr, hh⟩ := course_held hC hs
  have hl := hh.len
  rw [List.count_eq_zero.mpr h, List.length_eq_zero_iff] at hl
  subst hl
  have e := hh.sat
  rw [hs] at e
  injection e with e
  rw [e]
  exact hr

theorem lastAltitude_append (a : ℝ) (x y : List SatOp) : lastAltitude a (x ++ y) = lastAltitude (lastAltitude a x) y := by
  induction x generalizing a with
  | nil => rfl
  | cons o os ih => cases o <;> exact ih _

theorem lastInclination_append (a : ℝ) (x y : List SatOp) : lastInclination a (x ++ y) = lastInclination (lastInclination a x) y := by
  induction x generalizing a with
  | nil => rfl
  | cons o os ih => cases o <;> exact ih _

theorem lastAltitude_setters (a : ℝ) (x : List SatOp) : lastAltitude a (setters x) = lastAltitude a x := by
  induction x generalizing a with
  | nil => rfl
  | cons o os ih => cases o <;> exact ih _

theorem lastInclination_setters (a : ℝ) (x : List SatOp) : lastInclination a (setters x) = lastInclination a x := by
  induction x generalizing a with
  | nil => rfl
  | cons o os ih => cases o <;> exact ih _

theorem getters_exec {s s' : Sat} {ops : List SatOp} (h : s.exec ops = .ok s') :
    s'.getAltitude = lastAltitude s.getAltitude ops ∧ s'.getInclination = lastInclination s.getInclination ops := by
  induction ops generalizing s with
  | nil => injection h with h; subst h; exact ⟨rfl, rfl⟩
  | cons op ops ih =>
    simp only [Sat.exec] at h
    rw [Outcome.bind_eq_ok] at h
    obtain ⟨s1, h1, h2⟩ := h
    obtain ⟨e1, e2⟩ := ih h2
    obtain ⟨f1, f2⟩ := getters_step h1
    rw [e1, e2, f1, f2]
    cases op <;> exact ⟨rfl, rfl⟩

theorem getters_half {ops : List SatOp} : ∀ (s : Sat), (ops.foldl Sat.half s).getAltitude = lastAltitude s.getAltitude ops ∧
    (ops.foldl Sat.half s).getInclination = lastInclination s.getInclination ops := by
  have hpi : Real.pi ≠ 0 := Real.pi_ne_zero
  induction ops with
  | nil => intro s; exact ⟨rfl, rfl⟩
  | cons o os ih =>
    intro s
    obtain ⟨e1, e2⟩ := ih (s.half o)
    rw [List.foldl_cons, e1, e2]
    cases o with
    | setAltitude h =>
      refine ⟨?_, rfl⟩
      have : (s.half (.setAltitude h)).getAltitude = h := by simp [Sat.half, Sat.mark, Sat.getAltitude]
      rw [this]; rfl
    | setInclination x =>
      refine ⟨rfl, ?_⟩
      have : (s.half (.setInclination x)).getInclination = x := by
        simp only [Sat.half, Sat.mark, Sat.getInclination]; field_simp
      rw [this]; rfl
    | _ => exact ⟨rfl, rfl⟩

/-- C111: the getters return what was set last, by whomever, also while sinks run. -/
theorem C111_getters {junk : ℝ} {C C' : Course} (hC : CourseReachable junk C) {cops : List CourseOp} (h : C.exec junk cops = .ok C')
    {i : Nat} {s s' : Sat} (hs : satOf C.fleet i = some s) (hs' : satOf C'.fleet i = some s') :
    s'.getAltitude = lastAltitude s.getAltitude (cops.filterMap (courseCall i)) ∧
    s'.getInclination = lastInclination s.getInclination (cops.filterMap (courseCall i)) := by
  obtain ⟨s0, ops, _, hh⟩ := course_held hC hs
  obtain ⟨sops, s1, ops1, he, hh1, f, _⟩ := held_exec hC.inv h hh
  have e := hh.sat
  rw [hs] at e
  injection e with e
  have e' := hh1.sat
  rw [hs'] at e'
  injection e' with e'
  obtain ⟨a1, i1⟩ := getters_exec he
  obtain ⟨a2, i2⟩ := getters_half (ops := ops1) s1
  obtain ⟨a3, i3⟩ := getters_half (ops := ops) s0
  rw [e, e', a2, i2, a1, i1, a3, i3, ← lastAltitude_append, ← lastAltitude_append, ← lastInclination_append, ← lastInclination_append,
    ← lastAltitude_setters, ← lastInclination_setters, f, lastAltitude_setters, lastInclination_setters]
  exact ⟨rfl, rfl⟩

theorem prec_range {P : Time} {s s' : Sat} {ops : List SatOp} (hp : 0 < s.prec ∧ s.prec ≤ P) (hk : ∀ o ∈ ops, KeepsPrecision P o)
    (h : s.exec ops = .ok s') : 0 < s'.prec ∧ s'.prec ≤ P := by
  induction ops generalizing s with
  | nil => injection h with h; subst h; exact hp
  | cons o ops ih =>
    simp only [Sat.exec] at h
    rw [Outcome.bind_eq_ok] at h
    obtain ⟨s1, h1, h2⟩ := h
    refine ih ?_ (fun o ho => hk o (by simp [ho])) h2
    have hk1 := hk o (by simp)
    cases o with
    | setPosition v => injection h1 with h1; subst h1; exact hp
    | setAltitude v => injection h1 with h1; subst h1; exact hp
    | setInclination i =>
      simp only [Sat.step, Sat.setInclination] at h1
      split at h1
      · cases h1
      · injection h1 with h1; subst h1; exact hp
    | setPrecision p => injection h1 with h1; subst h1; exact hk1
    | run =>
      simp only [Sat.step] at h1
      split at h1 <;> (injection h1 with h1; subst h1; exact hp)
    | wait dt =>
      simp only [Sat.step] at h1
      split at h1
      · injection h1 with h1; subst h1; exact hp
      · split at h1 <;> (injection h1 with h1; subst h1; exact hp)

theorem keeps_of_precs {P : Time} {ops : List SatOp} (h : ∀ p ∈ precs ops, 0 < p ∧ p ≤ P) : ∀ o ∈ ops, KeepsPrecision P o := by
  intro o ho
  cases o with
  | setPrecision p => exact h p (List.mem_filterMap.mpr ⟨_, ho, rfl⟩)
  | _ => exact trivial

/-- C111: from a setter call on, as long as everybody sets precisions within `(0, P]`, the reported position is at most `P` old, whatever
else the sinks do; strictly less once all events due now have run. -/
theorem C111_age {junk : ℝ} {P : Time} {C C' : Course} (hC : CourseReachable junk C) {o : CourseOp} {x : SatOp} {cops : List CourseOp}
    (h : C.exec junk (o :: cops) = .ok C') {i : Nat} {s s' : Sat} (hs : satOf C.fleet i = some s) (h0 : i ∉ C.stack)
    (hp : 0 < s.prec) (hle : s.prec ≤ P) (ho : courseCall i o = some x) (hx : IsSetter x)
    (hkeep : ∀ p ∈ precs (cops.filterMap (courseCall i)), 0 < p ∧ p ≤ P) (hs' : satOf C'.fleet i = some s') :
    ∃ u, u ≤ s'.now ∧ s'.now ≤ u + P ∧ s'.getPosition = s'.orbit.position u ∧ ((∀ e ∈ s'.pending, s'.now < e) → s'.now < u + P) := by
  have hP : 0 < P := by
    have := hp.trans_le hle
    exact_mod_cast this
  by_cases h1 : i ∈ C'.stack
  · have hC' : CourseReachable junk C' := by
      obtain ⟨ops, hops⟩ := hC
      exact ⟨ops ++ o :: cops, by rw [course_exec_append, hops, Outcome.ok_bind, h]⟩
    have := (C111_inside hC' hs').2 h1
    exact ⟨s'.now, Nat.le_refl _, Nat.le_add_right _ _, this, fun _ => by omega⟩
  · obtain ⟨sops, s1, he, hs1, f, g⟩ := C111_alone hC h hs h0 h1
    rw [hs'] at hs1
    injection hs1 with hs1
    subst hs1
    have hcall : (o :: cops).filterMap (courseCall i) = x :: cops.filterMap (courseCall i) := by
      rw [List.filterMap_cons, ho]
    have hxp : precOf x = none := by cases x <;> [rfl; rfl; rfl; exact absurd hx (by simp [IsSetter]); rfl; rfl]
    have hk : ∀ y ∈ sops, KeepsPrecision P y := by
      refine keeps_of_precs ?_
      rw [g, hcall]
      unfold precs
      rw [List.filterMap_cons, hxp]
      exact hkeep
    have hmem : ∃ y ∈ sops, IsSetter y := by
      have : x ∈ setters sops := by
        rw [f, hcall]
        unfold setters
        rw [List.filter_cons, if_pos (by simpa using hx)]
        simp
      obtain ⟨h1, h2⟩ := List.mem_filter.mp this
      exact ⟨x, h1, by simpa using h2⟩
    obtain ⟨y, hy, hyset⟩ := hmem
    obtain ⟨pre, post, rfl⟩ := List.append_of_mem hy
    rw [sat_exec_append] at he
    obtain ⟨s2, he1, he2⟩ := Outcome.bind_eq_ok.mp he
    rw [Sat.exec] at he2
    obtain ⟨s3, he3, he4⟩ := Outcome.bind_eq_ok.mp he2
    have hr := C111_reachable hC hs h0
    have hr2 : SatReachable s2 := by
      obtain ⟨j, n, a, z, p, s00, ops0, q1, q2⟩ := hr
      exact ⟨j, n, a, z, p, s00, ops0 ++ pre, q1, by rw [sat_exec_append, q2, Outcome.ok_bind, he1]⟩
    obtain ⟨hp2, hle2⟩ := prec_range ⟨hp, hle⟩ (fun z hz => hk z (by simp [hz])) he1
    exact C38_bounded_age hr2 hp2 hle2 hyset (fun z hz => hk z (by simp [hz])) he3 he4

/-- C111: while nobody sets the precision of a node, every call of its setters, also from sinks, adds one chain of updates, and nothing
else adds or removes one. -/
theorem C111_chains {junk : ℝ} {C C' : Course} (hC : CourseReachable junk C) {cops : List CourseOp} (h : C.exec junk cops = .ok C')
    {i : Nat} {s s' : Sat} (hs : satOf C.fleet i = some s) (hs' : satOf C'.fleet i = some s') (h0 : i ∉ C.stack) (h1 : i ∉ C'.stack)
    (hp : 0 < s.prec) (hkeep : precs (cops.filterMap (courseCall i)) = []) :
    s'.pending.length = s.pending.length + (cops.filterMap (courseCall i)).length ∧ s'.prec = s.prec := by
  obtain ⟨sops, s1, he, hs1, f, g⟩ := C111_alone hC h hs h0 h1
  rw [hs'] at hs1
  injection hs1 with hs1
  subst hs1
  have hk : ∀ o ∈ sops, ∀ p, o ≠ SatOp.setPrecision p := by
    rintro o ho p rfl
    rw [hkeep] at g
    have := (List.filterMap_eq_nil_iff.mp g) _ ho
    cases this
  obtain ⟨e1, e2⟩ := C39_one_chain_per_setter hp hk he
  refine ⟨?_, e2⟩
  have hall : setters (cops.filterMap (courseCall i)) = cops.filterMap (courseCall i) := by
    unfold setters
    rw [List.filter_eq_self]
    intro x hx
    have hno := (List.filterMap_eq_nil_iff.mp hkeep) x hx
    obtain ⟨c, _, hc⟩ := List.mem_filterMap.mp hx
    have hcall : isSetterCall x = true := by
      cases c with
      | ret => cases hc
      | op c =>
        cases c with
        | setPosition j v => simp only [courseCall, callOf] at hc; split at hc <;> [(injection hc with hc; subst hc; rfl); cases hc]
        | setAltitude j v => simp only [courseCall, callOf] at hc; split at hc <;> [(injection hc with hc; subst hc; rfl); cases hc]
        | setInclination j v => simp only [courseCall, callOf] at hc; split at hc <;> [(injection hc with hc; subst hc; rfl); cases hc]
        | setPrecision j v => simp only [courseCall, callOf] at hc; split at hc <;> [(injection hc with hc; subst hc; rfl); cases hc]
        | _ => cases hc
    cases x with
    | setPrecision p => cases hno
    | run => cases hcall
    | wait d => cases hcall
    | _ => rfl
  rw [e1]
  change _ + (setters sops).length = _
  rw [f, hall]

/-! ## The model without calls from sinks -/

/-- C111: if the connected code makes no calls, the simulation is that of the fleet. -/
theorem C111_no_calls {junk : ℝ} {F F' : Fleet} {ops : List FleetOp} (h : F.exec junk ops = .ok F') :
    Course.exec junk ⟨F, []⟩ (ops.flatMap fun o => [.op o, .ret]) = .ok ⟨F', []⟩ := by
  induction ops generalizing F with
  | nil => injection h with h; subst h; rfl
  | cons o os ih =>
    rw [Fleet.exec] at h
    obtain ⟨F1, h1, h2⟩ := Outcome.bind_eq_ok.mp h
    rw [List.flatMap_cons, course_exec_append]
    have ent : ∀ (G : Fleet) (j : Nat), Course.step junk (Course.enter ⟨G, []⟩ j) .ret = .ok ⟨G.update j, []⟩ := by
      intro G j
      rw [update_halves]
      simp only [Course.enter]
      split
      · rfl
      · rename_i hlt
        have hn : G.mobs[j]? = none := List.getElem?_eq_none_iff.mpr (by omega)
        have e : G.notify j = G := by unfold Fleet.notify; rw [hn]
        rw [e]
        simp only [Course.step, Fleet.arm, hn]
    have : Course.exec junk ⟨F, []⟩ [.op o, .ret] = .ok ⟨F1, []⟩ := by
      simp only [Course.exec]
      have fin : ∀ {c : Outcome Course} {C1 : Course}, c = .ok C1 → C1.step junk .ret = .ok ⟨F1, []⟩ →
          (c >>= fun C' => C'.step junk .ret >>= fun C'' => Outcome.ok C'') = .ok ⟨F1, []⟩ := by
        intro c C1 e1 e2
        rw [e1, Outcome.ok_bind, e2]; rfl
      cases o with
      | setPosition j v => injection h1 with h1; subst h1; exact fin rfl (ent _ _)
      | setAltitude j v => injection h1 with h1; subst h1; exact fin rfl (ent _ _)
      | setInclination j v =>
        simp only [Fleet.step] at h1
        split at h1
        · cases h1
        · rename_i hv
          injection h1 with h1; subst h1
          refine fin (C1 := Course.enter ⟨F.change j _, []⟩ j) ?_ (ent _ _)
          simp only [Course.step, if_neg hv]
      | run =>
        simp only [Fleet.step] at h1
        split at h1
        · rename_i hst
          injection h1 with h1; subst h1
          refine fin (C1 := ⟨F, []⟩) ?_ rfl
          simp only [Course.step, hst, or_true, if_true]
        · rename_i hst
          have hno : ¬ (([] : List Nat) ≠ [] ∨ F.stopped = true) := by simp [hst]
          split at h1
          · rename_i hp
            injection h1 with h1; subst h1
            refine fin (C1 := ⟨F, []⟩) ?_ rfl
            simp only [Course.step, if_neg hno, hp]
          · rename_i t j rest hp
            injection h1 with h1; subst h1
            refine fin (C1 := Course.enter ⟨{ F with now := t, pending := rest }, []⟩ j) ?_ (ent _ _)
            simp only [Course.step, if_neg hno, hp]
          · rename_i t rest hp
            injection h1 with h1; subst h1
            refine fin (C1 := ⟨{ F with now := t, pending := rest, stopped := true }, []⟩) ?_ rfl
            simp only [Course.step, if_neg hno, hp]
      | wait dt =>
        refine fin (C1 := ⟨F1, []⟩) ?_ rfl
        simp only [Course.step, ne_eq, not_true_eq_false, if_false, h1, Outcome.ok_bind]
      | create a x p =>
        refine fin (C1 := ⟨F1, []⟩) ?_ rfl
        simp only [Course.step, h1, Outcome.ok_bind]
      | setPrecision j p =>
        refine fin (C1 := ⟨F1, []⟩) ?_ rfl
        simp only [Course.step, h1, Outcome.ok_bind]
      | connect =>
        refine fin (C1 := ⟨F1, []⟩) ?_ rfl
        simp only [Course.step, h1, Outcome.ok_bind]
      | stopAfter dt =>
        refine fin (C1 := ⟨F1, []⟩) ?_ rfl
        simp only [Course.step, h1, Outcome.ok_bind]
    rw [this, Outcome.ok_bind, ih h2]

/-! ## How often a sink that makes calls is called -/

/-- An update whose sink sets the position of the satellite and does nothing in the notification this causes. -/
def guardedUpdate (v : Vec) : List CourseOp := [.op .run, .op (.setPosition 0 v), .ret, .ret]

/-- All updates that are pending, `n` of them, and so on for `k` intervals. -/
def guardedRounds (v : Vec) : Nat → Nat → List CourseOp
  | _, 0 => []
  | n, k + 1 => (List.replicate n (guardedUpdate v)).flatten ++ guardedRounds v (2 * n) k

structure Pulsing (p : Nat) (a b : Nat) (T : Time) (C : Course) : Prop where
  idle : C.stack = []
  going : C.fleet.stopped = false
  one : ∃ m : Mob, C.fleet.mobs = [m] ∧ m.prec = p
  pend : C.fleet.pending = List.replicate a (T, .update 0) ++ List.replicate b (T + p, .update 0)

theorem pulse {junk : ℝ} {p a b : Nat} {T : Time} {C : Course} (hp : 0 < p) (v : Vec) (h : Pulsing p (a + 1) b T C) :
    ∃ C', C.exec junk (guardedUpdate v) = .ok C' ∧ Pulsing p a (b + 2) T C' ∧ C'.fleet.now = T ∧
      C'.fleet.log = C.fleet.log ++ List.replicate 2 (T, 0) := by
  obtain ⟨⟨now, mobs, pending, log, sinks, out, stopped⟩, stack⟩ := C
  obtain ⟨rfl, rfl, ⟨m, rfl, hm⟩, rfl⟩ := h
  have hpp : (0 : Int) < p := by exact_mod_cast hp
  have e1 : insertFleetEv (T + p) (.update 0) (List.replicate a (T, .update 0) ++ List.replicate b (T + p, .update 0)) =
      List.replicate a (T, .update 0) ++ List.replicate (b + 1) (T + p, .update 0) := by
    rw [insertFleetEv_last, List.append_assoc, List.replicate_succ' (n := b)]
    intro u hu
    rcases List.mem_append.mp hu with hu | hu
    · rw [List.eq_of_mem_replicate hu]; exact Nat.le_add_right _ _
    · rw [List.eq_of_mem_replicate hu]
  have e2 : insertFleetEv (T + p) (.update 0) (List.replicate a (T, .update 0) ++ List.replicate (b + 1) (T + p, .update 0)) =
      List.replicate a (T, .update 0) ++ List.replicate (b + 2) (T + p, .update 0) := by
    rw [insertFleetEv_last, List.append_assoc, List.replicate_succ' (n := b + 1)]
    intro u hu
    rcases List.mem_append.mp hu with hu | hu
    · rw [List.eq_of_mem_replicate hu]; exact Nat.le_add_right _ _
    · rw [List.eq_of_mem_replicate hu]
  have e0 : List.replicate (a + 1) (T, FleetEv.update 0) ++ List.replicate b (T + p, FleetEv.update 0) =
      (T, FleetEv.update 0) :: (List.replicate a (T, FleetEv.update 0) ++ List.replicate b (T + p, FleetEv.update 0)) := rfl
  have hno : ¬ (([] : List Nat) ≠ [] ∨ false = true) := by simp
  refine ⟨?C, ?h, ?p, ?n, ?l⟩
  case h =>
    simp only [guardedUpdate, Course.exec, Course.step, if_neg hno, e0, Course.enter, Fleet.notify,
      List.getElem?_cons_zero, List.set_cons_zero, List.length_singleton, Nat.lt_one_iff, if_true, Outcome.ok_bind, Fleet.change,
      List.modify_zero_cons, Fleet.arm, hm, gt_iff_lt, hpp, Int.toNat_natCast, e1, e2]
    rfl
  case p => exact ⟨rfl, rfl, ⟨_, rfl, rfl⟩, rfl⟩
  case n => rfl
  case l => simp

theorem pulse_round {junk : ℝ} {p : Nat} {T : Time} (hp : 0 < p) (v : Vec) : ∀ (a b : Nat) {C : Course}, Pulsing p a b T C →
    ∃ C', C.exec junk (List.replicate a (guardedUpdate v)).flatten = .ok C' ∧ Pulsing p 0 (b + 2 * a) T C' ∧
      (0 < a → C'.fleet.now = T) ∧ C'.fleet.log = C.fleet.log ++ List.replicate (2 * a) (T, 0) := by
  intro a
  induction a with
  | zero => intro b C h; exact ⟨C, rfl, by simpa using h, by simp, by simp⟩
  | succ a ih =>
    intro b C h
    obtain ⟨C1, h1, h2, h3, h4⟩ := pulse (junk := junk) hp v h
    obtain ⟨C2, g1, g2, g3, g4⟩ := ih (b + 2) h2
    refine ⟨C2, ?_, ?_, ?_, ?_⟩
    · rw [List.replicate_succ, List.flatten_cons, course_exec_append, h1, Outcome.ok_bind, g1]
    · have e : b + 2 * (a + 1) = b + 2 + 2 * a := by omega
      rw [e]; exact g2
    · intro _
      by_cases ha : 0 < a
      · exact g3 ha
      · obtain rfl : a = 0 := by omega
        injection g1 with g1
        rw [← g1]; exact h3
    · have e : 2 * (a + 1) = 2 + 2 * a := by omega
      rw [g4, h4, e, List.replicate_add, List.append_assoc]

theorem pulse_rounds {junk : ℝ} {p : Nat} (hp : 0 < p) (v : Vec) : ∀ (k n : Nat) {T : Time} {C : Course}, 0 < n → Pulsing p n 0 T C →
    C.fleet.now + p = T →
    ∃ C', C.exec junk (guardedRounds v n k) = .ok C' ∧ Pulsing p (2 ^ k * n) 0 (T + k * p) C' ∧ C'.fleet.now + p = T + k * p ∧
      C'.fleet.log.length + 2 * n = C.fleet.log.length + 2 ^ (k + 1) * n := by
  intro k
  induction k with
  | zero => intro n T C _ h hT; exact ⟨C, rfl, by simpa using h, by simpa using hT, by omega⟩
  | succ k ih =>
    intro n T C hn h hT
    obtain ⟨C1, h1, h2, h3, h4⟩ := pulse_round (junk := junk) hp v n 0 h
    have h2' : Pulsing p (2 * n) 0 (T + p) C1 := ⟨h2.idle, h2.going, h2.one, by rw [h2.pend]; simp⟩
    obtain ⟨C2, g1, g2, g3, g4⟩ := ih (2 * n) (by omega) h2' (by rw [h3 hn])
    refine ⟨C2, ?_, ?_, ?_, ?_⟩
    · rw [guardedRounds, course_exec_append, h1, Outcome.ok_bind, g1]
    · have e1 : 2 ^ (k + 1) * n = 2 ^ k * (2 * n) := by rw [pow_succ]; ring
      have e2 : T + (k + 1) * p = T + p + k * p := by ring
      rw [e1, e2]; exact g2
    · rw [g3]; ring
    · rw [h4, List.length_append, List.length_replicate] at g4
      have e : 2 ^ (k + 1 + 1) * n = 2 ^ (k + 1) * (2 * n) := by rw [pow_succ 2 (k + 1)]; ring
      rw [e]
      omega

/-- A program that creates a satellite and places it. -/
noncomputable def placeOne (alt inc : ℝ) (p : Nat) (v : Vec) : List CourseOp := [.op (.create alt inc p), .op (.setPosition 0 v), .ret]

/-- C111, what is false of the code: that the number of notifications per interval is that of the calls of the program.  A sink that
makes one call of a setter when an update notifies it (and none when this call notifies it) doubles the pending updates in
every interval: after `k` of them `2^k` are pending, and instead of `k + 3` there have been `2^(k+1) + 1` notifications. -/
theorem C111_doubles_partial (junk : ℝ) (alt : ℝ) {inc : ℝ} (hi : inc ≠ 0) {p : Nat} (hp : 0 < p) (v w : Vec) (k : Nat) :
    ∃ C, Course.exec junk ⟨Fleet.empty, []⟩ (placeOne alt inc p v ++ guardedRounds w 1 k) = .ok C ∧
      C.stack = [] ∧ C.fleet.now = k * p ∧ C.fleet.pending = List.replicate (2 ^ k) ((k + 1) * p, .update 0) ∧
      C.fleet.log.length = 2 ^ (k + 1) + 1 := by
  have hpp : (0 : Int) < p := by exact_mod_cast hp
  have start : ∃ C0, Course.exec junk ⟨Fleet.empty, []⟩ (placeOne alt inc p v) = .ok C0 ∧ Pulsing p 1 0 p C0 ∧ C0.fleet.now = 0 ∧
      C0.fleet.log.length = 3 := by
    refine ⟨?C, ?h, ?p, ?n, ?l⟩
    case h =>
      simp only [placeOne, Course.exec, Course.step, Fleet.step, Fleet.empty, create_eq _ _ _ _ _ hi, Outcome.ok_bind, Fleet.change,
        List.nil_append, List.modify_zero_cons, Course.enter, Fleet.notify, List.getElem?_cons_zero, List.set_cons_zero,
        List.length_singleton, Nat.lt_one_iff, if_true, Fleet.arm, gt_iff_lt, hpp, Int.toNat_natCast, insertFleetEv, Nat.zero_add]
      rfl
    case p => exact ⟨rfl, rfl, ⟨_, rfl, rfl⟩, rfl⟩
    case n => rfl
    case l => rfl
  obtain ⟨C0, h0, hP, hn, hl⟩ := start
  obtain ⟨C, h1, h2, h3, h4⟩ := pulse_rounds (junk := junk) hp w k 1 Nat.one_pos hP (by omega)
  refine ⟨C, by rw [course_exec_append, h0, Outcome.ok_bind, h1], h2.idle, by omega, ?_, by omega⟩
  rw [h2.pend]
  simp only [Nat.mul_one, List.replicate_zero, List.append_nil]
  congr 2
  ring

/-- C111, what else is false: that a sink which sets a parameter at every notification comes to an end.  Each of its calls is notified
before the one before has returned: after `k` calls `k` of them wait, nothing has been scheduled, no time has passed, no event can
be dispatched, and the `k` notifications are all at the same time. -/
theorem C111_endless (junk : ℝ) {C : Course} {i : Nat} (hi : i < C.fleet.mobs.length) (v : Vec) (k : Nat) (hk : 0 < k) :
    ∃ C', C.exec junk (List.replicate k (.op (.setPosition i v))) = .ok C' ∧ C'.stack = List.replicate k i ++ C.stack ∧
      C'.fleet.now = C.fleet.now ∧ C'.fleet.pending = C.fleet.pending ∧
      C'.fleet.log = C.fleet.log ++ List.replicate k (C.fleet.now, i) ∧
      C'.step junk (.op .run) = .ok C' ∧ ∀ dt, C'.step junk (.op (.wait dt)) = .ok C' := by
  have key : ∀ (k : Nat) (C : Course), i < C.fleet.mobs.length → ∃ C', C.exec junk (List.replicate k (.op (.setPosition i v))) = .ok C' ∧
      C'.stack = List.replicate k i ++ C.stack ∧ C'.fleet.now = C.fleet.now ∧ C'.fleet.pending = C.fleet.pending ∧
      C'.fleet.log = C.fleet.log ++ List.replicate k (C.fleet.now, i) := by
    intro k
    induction k with
    | zero => intro C _; exact ⟨C, rfl, rfl, rfl, rfl, by simp⟩
    | succ k ih =>
      intro C hi
      obtain ⟨m, hm⟩ : ∃ m, (C.fleet.change i fun m => { m with orbit := { m.orbit with lon := v.x, off := v.y } }).mobs[i]? = some m :=
        ⟨_, List.getElem?_eq_getElem (by rw [change_length]; exact hi)⟩
      obtain ⟨C', h1, h2, h3, h4, h5⟩ := ih (Course.enter ⟨C.fleet.change i fun m =>
        { m with orbit := { m.orbit with lon := v.x, off := v.y } }, C.stack⟩ i) (by rw [enter_length]; simp only; rw [change_length]; exact hi)
      refine ⟨C', ?_, ?_, ?_, ?_, ?_⟩
      · rw [List.replicate_succ, Course.exec]
        simp only [Course.step, Outcome.ok_bind]
        exact h1
      · rw [h2]
        simp only [Course.enter, change_length, if_pos hi]
        rw [List.replicate_succ', List.append_assoc]
        rfl
      · rw [h3]; simp only [Course.enter, Fleet.notify, hm]; rfl
      · rw [h4]; simp only [Course.enter, Fleet.notify, hm]; rfl
      · rw [h5]; simp only [Course.enter, Fleet.notify, hm]
        rw [List.replicate_succ, List.append_assoc]
        rfl
  obtain ⟨C', h1, h2, h3, h4, h5⟩ := key k C hi
  have hne : C'.stack ≠ [] := by
    rw [h2]
    obtain ⟨j, rfl⟩ := Nat.exists_eq_succ_of_ne_zero (by omega : k ≠ 0)
    simp [List.replicate_succ]
  refine ⟨C', h1, h2, h3, h4, h5, ?_, fun dt => ?_⟩
  · simp only [Course.step]; rw [if_pos (Or.inl hne)]
  · simp only [Course.step]; rw [if_pos hne]

/-! ## A case -/

/-- A satellite updated every second; the code connected to its first update raises the orbit by 100 km and changes the precision. -/
theorem course_example : ∃ C0 C1 C2 : Course, CourseReachable 0 C0 ∧ C0.stack = [] ∧
    (∃ s, satOf C0.fleet 0 = some s ∧ s.prec = 1000 ∧ s.getAltitude = 700) ∧
    C0.exec 0 [.op (.setPosition 0 ⟨1, 2, 0⟩), .ret, .op .run, .op (.setAltitude 0 800), .op (.setPrecision 0 500)] = .ok C1 ∧
    C1.stack = [0, 0] ∧ (∃ s, satOf C1.fleet 0 = some s) ∧
    C1.exec 0 [.ret, .ret, .op .run, .ret] = .ok C2 ∧ C2.stack = [] ∧ C2.fleet.now = 1500 ∧ (∃ s, satOf C2.fleet 0 = some s) := by
  have hno : ¬ (([] : List Nat) ≠ [] ∨ false = true) := by simp
  refine ⟨?C0, ?C1, ?C2, ⟨[.op (.create 700 60 1000)], ?h0⟩, ?s0, ⟨?s, ?p, ?q, ?r⟩, ?h1, ?s1, ⟨?t, ?t1⟩, ?h2, ?s2, ?n2, ⟨?w, ?w1⟩⟩
  case h0 =>
    simp only [Course.exec, Course.step, Fleet.step, Fleet.empty, create_eq 0 0 700 60 1000 (by norm_num), Outcome.ok_bind]
    rfl
  case s0 => rfl
  case p => rfl
  case q => rfl
  case r => simp [Sat.getAltitude]
  case h1 =>
    simp [Course.exec, Course.step, Outcome.ok_bind, Fleet.step, Fleet.change, Course.enter, Fleet.notify, Fleet.arm, insertFleetEv]
    rfl
  case s1 => rfl
  case t1 => rfl
  case h2 =>
    simp [Course.exec, Course.step, Outcome.ok_bind, Fleet.step, Fleet.change, Course.enter, Fleet.notify, Fleet.arm, insertFleetEv]
    rfl
  case s2 => rfl
  case n2 => rfl
  case w1 => rfl

/-- The hypotheses of `C111_inside`, `C111_on_sphere` and `C111_getters`: code connected to the update of a satellite runs, and
inside it code connected to the change of the altitude; the altitude reported is the new one and the position is on its sphere. -/
example : ∃ (C : Course) (s : Sat), CourseReachable 0 C ∧ satOf C.fleet 0 = some s ∧ C.stack = [0, 0] ∧ s.getAltitude = 800 ∧
    s.getPosition = s.orbit.position s.now ∧ s.getPosition.len = (6371.009 + 800) * 1000 := by
  obtain ⟨C0, C1, C2, hC, _, ⟨s, hs, _, ha⟩, h1, hst, ⟨t, ht⟩, _⟩ := course_example
  have hC1 : CourseReachable 0 C1 := by
    obtain ⟨ops, h⟩ := hC
    exact ⟨ops ++ _, by rw [course_exec_append, h, Outcome.ok_bind, h1]⟩
  have hg := (C111_getters hC h1 hs ht).1
  have e : t.getAltitude = 800 := by
    rw [hg]
    rfl
  refine ⟨C1, t, hC1, ht, hst, e, (C111_inside hC1 ht).2 (by rw [hst]; simp), ?_⟩
  rw [C111_on_sphere hC1 ht (by rw [e]; norm_num), e]

/-- The hypotheses of `C111_alone`, `C111_reachable` and `C111_age`. -/
example : ∃ (C C' : Course) (o : CourseOp) (cops : List CourseOp) (s s' : Sat) (x : SatOp), CourseReachable 0 C ∧
    C.exec 0 (o :: cops) = .ok C' ∧ satOf C.fleet 0 = some s ∧ 0 ∉ C.stack ∧ 0 ∉ C'.stack ∧ 0 < s.prec ∧ s.prec ≤ (1000 : Time) ∧
    courseCall 0 o = some x ∧ IsSetter x ∧ precs (cops.filterMap (courseCall 0)) = [500] ∧ satOf C'.fleet 0 = some s' ∧
    SatReachable s' := by
  obtain ⟨C0, C1, C2, hC, h0, ⟨s, hs, hp, _⟩, h1, hst, _, h2, hst2, _, ⟨w, hw⟩⟩ := course_example
  have hx : C0.exec 0 ([.op (.setPosition 0 ⟨1, 2, 0⟩), .ret, .op .run, .op (.setAltitude 0 800), .op (.setPrecision 0 500)] ++
      [.ret, .ret, .op .run, .ret]) = .ok C2 := by rw [course_exec_append, h1, Outcome.ok_bind, h2]
  have hC2 : CourseReachable 0 C2 := by
    obtain ⟨ops, h⟩ := hC
    exact ⟨ops ++ _, by rw [course_exec_append, h, Outcome.ok_bind, hx]⟩
  exact ⟨C0, C2, _, _, s, w, .setPosition ⟨1, 2, 0⟩, hC, hx, hs, by rw [h0]; simp, by rw [hst2]; simp, by rw [hp]; norm_num,
    by rw [hp]; norm_num, rfl, trivial, rfl, hw, C111_reachable hC2 hw (by rw [hst2]; simp)⟩

/-- The hypotheses of `C111_chains`: the updates of the sink that makes calls. -/
example : ∃ (C C' : Course) (cops : List CourseOp) (s s' : Sat), CourseReachable 0 C ∧ C.exec 0 cops = .ok C' ∧
    satOf C.fleet 0 = some s ∧ satOf C'.fleet 0 = some s' ∧ 0 ∉ C.stack ∧ 0 ∉ C'.stack ∧ 0 < s.prec ∧
    precs (cops.filterMap (courseCall 0)) = [] ∧ s'.pending.length = s.pending.length + 2 := by
  obtain ⟨C0, _, _, hC, h0, ⟨s, hs, hp, _⟩, _⟩ := course_example
  have hlt := satOf_lt hs
  obtain ⟨C1, h1, h2, _⟩ := C111_endless 0 hlt ⟨1, 2, 0⟩ 2 (by norm_num)
  have h3 : C0.exec 0 (List.replicate 2 (.op (.setPosition 0 ⟨1, 2, 0⟩)) ++ [.ret, .ret]) = .ok ⟨(C1.fleet.arm 0).arm 0, []⟩ := by
    rw [course_exec_append, h1, Outcome.ok_bind]
    simp only [Course.exec, Course.step, h2, h0, List.replicate_succ, List.replicate_zero, List.cons_append, List.nil_append, Outcome.ok_bind]
  obtain ⟨sops, s', _, hs', _⟩ := C111_alone hC h3 hs (by rw [h0]; simp) (by simp)
  have hpos : 0 < s.prec := by rw [hp]; norm_num
  exact ⟨C0, _, _, s, s', hC, h3, hs, hs', by rw [h0]; simp, by simp, hpos, rfl,
    (C111_chains hC h3 hs hs' (by rw [h0]; simp) (by simp) hpos rfl).1⟩

/-- The hypotheses of `C111_no_calls` and `C111_endless`. -/
example : ∃ F : Fleet, Fleet.empty.exec 0 [.create 700 60 1000, .setPosition 0 ⟨1, 2, 0⟩, .run] = .ok F ∧ 0 < F.mobs.length := by
  refine ⟨?F, ?h, ?l⟩
  case h =>
    simp only [Fleet.exec, Fleet.step, Fleet.empty, create_eq 0 0 700 60 1000 (by norm_num), Outcome.ok_bind]
    rfl
  case l =>
    rw [update_length, update_length, change_length]
    simp

end Verif
