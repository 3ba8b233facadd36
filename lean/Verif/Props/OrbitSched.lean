import Verif.Props.Orbit
/-!
# Setters and update events of the mobility model: C37-C39
-/

namespace Verif
open Real

/-! ## C37 -/

/-- C37: construction yields the requested attributes and an exact position, whatever the indeterminate
values the memory held before. -/
theorem C37_construction {junk : ℝ} {now : Time} {a i : ℝ} {p : Int} {s : Sat} (h : Sat.create junk now a i p = .ok s) :
    s.getAltitude = a ∧ s.getInclination = i ∧ s.prec = p ∧ s.getPosition = s.orbit.position now ∧ s.now = now ∧
    (∀ junk', Sat.create junk' now a i p = .ok s) := by
  by_cases hi : i = 0
  · rw [Sat.create, Sat.setInclination, if_pos hi] at h; cases h
  · have h' := h
    rw [create_eq _ _ _ _ _ hi] at h
    injection h with h
    subst h
    have hpi : Real.pi ≠ 0 := Real.pi_ne_zero
    refine ⟨by simp [Sat.getAltitude], by simp only [Sat.getInclination]; field_simp, rfl, ?_, rfl, fun j => create_eq _ _ _ _ _ hi⟩
    unfold Sat.getPosition; split <;> rfl

/-- C37: setting the altitude. -/
theorem C37_set_altitude {s s' : Sat} {h : ℝ} (hs : s.step (.setAltitude h) = .ok s') :
    s'.getAltitude = h ∧ s'.getInclination = s.getInclination ∧ s'.orbit.lon = s.orbit.lon ∧
    s'.orbit.off = s.orbit.off ∧ s'.prec = s.prec ∧ s'.now = s.now ∧ s'.getPosition = s'.orbit.position s'.now := by
  injection hs with hs; subst hs
  refine ⟨by simp [Sat.getAltitude, Sat.setAltitude, Sat.update], rfl, rfl, rfl, rfl, rfl, ?_⟩
  unfold Sat.getPosition; split <;> rfl

/-- C37: setting the inclination. Zero is refused by an assertion, everything else is accepted. -/
theorem C37_set_inclination {s : Sat} {i : ℝ} :
    (i = 0 → s.step (.setInclination i) = .fail .zeroInclination) ∧
    (i ≠ 0 → ∃ s', s.step (.setInclination i) = .ok s' ∧
      s'.getInclination = i ∧ s'.getAltitude = s.getAltitude ∧ s'.orbit.lon = s.orbit.lon ∧
      s'.orbit.off = s.orbit.off ∧ s'.prec = s.prec ∧ s'.now = s.now ∧ s'.getPosition = s'.orbit.position s'.now) := by
  constructor
  · intro hi; simp [Sat.step, Sat.setInclination, hi]
  · intro hi
    have hpi : Real.pi ≠ 0 := Real.pi_ne_zero
    refine ⟨({ s with orbit := { s.orbit with incl := i / 180 * Real.pi } } : Sat).update,
      by simp only [Sat.step, Sat.setInclination, if_neg hi], ?_, rfl, rfl, rfl, rfl, rfl, ?_⟩
    · simp only [Sat.getInclination, Sat.update]; field_simp
    · unfold Sat.getPosition; split <;> rfl

/-- C37: setting the position: the first two coordinates are taken as the longitude of the plane and the offset
along the orbit; altitude and inclination are kept. -/
theorem C37_set_position {s s' : Sat} {v : Vec} (hs : s.step (.setPosition v) = .ok s') :
    s'.orbit.lon = v.x ∧ s'.orbit.off = v.y ∧ s'.getAltitude = s.getAltitude ∧ s'.getInclination = s.getInclination ∧
    s'.prec = s.prec ∧ s'.now = s.now ∧ s'.getPosition = s'.orbit.position s'.now := by
  injection hs with hs; subst hs
  refine ⟨rfl, rfl, rfl, rfl, rfl, rfl, ?_⟩
  unfold Sat.getPosition; split <;> rfl

/-- The altitude the last operation of a history that sets it asked for. -/
def Spec.lastAltitude (a : ℝ) : List SatOp → ℝ
  | [] => a
  | .setAltitude h :: ops => lastAltitude h ops
  | _ :: ops => lastAltitude a ops

/-- The inclination the last operation of a history that sets it asked for. -/
def Spec.lastInclination (i : ℝ) : List SatOp → ℝ
  | [] => i
  | .setInclination j :: ops => lastInclination j ops
  | _ :: ops => lastInclination i ops

theorem getters_step {s s' : Sat} {op : SatOp} (h : s.step op = .ok s') :
    s'.getAltitude = Spec.lastAltitude s.getAltitude [op] ∧ s'.getInclination = Spec.lastInclination s.getInclination [op] := by
  cases op with
  | setPosition v => have := C37_set_position h; exact ⟨this.2.2.1, this.2.2.2.1⟩
  | setAltitude v => have := C37_set_altitude h; exact ⟨this.1, this.2.1⟩
  | setInclination i =>
    by_cases hi : i = 0
    · rw [C37_set_inclination.1 hi] at h; cases h
    · obtain ⟨s1, h1, h2, h3, _⟩ := C37_set_inclination.2 hi
      rw [h] at h1; injection h1 with h1; subst h1
      exact ⟨h3, h2⟩
  | setPrecision p => injection h with h; subst h; exact ⟨rfl, rfl⟩
  | run =>
    simp only [Sat.step] at h
    split at h <;> injection h with h <;> subst h <;> exact ⟨rfl, rfl⟩
  | wait dt =>
    simp only [Sat.step] at h
    split at h
    · injection h with h; subst h; exact ⟨rfl, rfl⟩
    · split at h <;> injection h with h <;> subst h <;> exact ⟨rfl, rfl⟩

/-- C37 over histories: the getters return what was set last, in any order of calls and whatever events ran in between. -/
theorem C37_getters_return_last_set {junk : ℝ} {now : Time} {a i : ℝ} {p : Int} {s s' : Sat} {ops : List SatOp}
    (h0 : Sat.create junk now a i p = .ok s) (h : s.exec ops = .ok s') :
    s'.getAltitude = Spec.lastAltitude a ops ∧ s'.getInclination = Spec.lastInclination i ops := by
  have key : ∀ (ops : List SatOp) (s : Sat), s.exec ops = .ok s' →
      s'.getAltitude = Spec.lastAltitude s.getAltitude ops ∧ s'.getInclination = Spec.lastInclination s.getInclination ops := by
    intro ops
    induction ops with
    | nil => intro s h; injection h with h; subst h; exact ⟨rfl, rfl⟩
    | cons op ops ih =>
      intro s h
      simp only [Sat.exec] at h
      rw [Outcome.bind_eq_ok] at h
      obtain ⟨s1, h1, h2⟩ := h
      obtain ⟨e1, e2⟩ := ih s1 h2
      obtain ⟨f1, f2⟩ := getters_step h1
      rw [e1, e2, f1, f2]
      cases op <;> exact ⟨rfl, rfl⟩
  obtain ⟨c1, c2, _⟩ := C37_construction h0
  have := key ops s h
  rw [c1, c2] at this
  exact this

example : ∃ s s' : Sat, Sat.create 0 0 700 60 1 = .ok s ∧
    s.exec [.setAltitude 900, .setPosition ⟨1, 2, 3⟩, .run, .setInclination 30] = .ok s' ∧ s'.getAltitude = 900 := by
  refine ⟨_, ?s', create_eq _ _ _ _ _ (by norm_num), ?h, ?g⟩
  case h =>
    simp only [Sat.exec, Sat.step, Sat.setAltitude, Sat.setPosition, Sat.update, Sat.setInclination]
    norm_num [insertTime]
    rfl
  case g => simp [Sat.getAltitude]

/-! ## C38 -/

/-- The operation does not set the precision outside `(0, P]`. -/
def Spec.KeepsPrecision (P : Time) : SatOp → Prop
  | .setPrecision p => 0 < p ∧ p ≤ P
  | _ => True

/-- The operation is one of the setters that starts a chain of updates. -/
def Spec.IsSetter : SatOp → Prop
  | .setPosition _ | .setAltitude _ | .setInclination _ => True
  | _ => False

instance (op : SatOp) : Decidable (Spec.IsSetter op) := by
  cases op <;> (unfold Spec.IsSetter; infer_instance)

/-- A chain of updates is running and bounds the age of the cached position. -/
structure ChainInv (P : Time) (s : Sat) : Prop where
  inv : SatInv s
  pos : 0 < s.prec
  le : s.prec ≤ P
  fresh : ∃ u, u ≤ s.now ∧ s.pos = s.orbit.position u ∧ ∃ e ∈ s.pending, e ≤ u + P

theorem chain_update {P : Time} {s : Sat} (h1 : s.pending.Pairwise (· ≤ ·)) (h2 : ∀ t ∈ s.pending, s.now ≤ t)
    (hp : 0 < s.prec) (hle : s.prec ≤ P) : ChainInv P s.update := by
  refine ⟨satInv_update h1 h2, hp, hle, s.now, Nat.le_refl _, rfl, s.now + s.prec.toNat, ?_, by omega⟩
  simp only [Sat.update]
  rw [if_pos hp]
  exact mem_insertTime.mpr (Or.inl rfl)

theorem chain_setter {P : Time} {s s' : Sat} {op : SatOp} (hi : SatInv s) (hp : 0 < s.prec) (hle : s.prec ≤ P)
    (hop : Spec.IsSetter op) (h : s.step op = .ok s') : ChainInv P s' := by
  cases op with
  | setPosition v => injection h with h; subst h; exact chain_update hi.sorted hi.future hp hle
  | setAltitude v => injection h with h; subst h; exact chain_update hi.sorted hi.future hp hle
  | setInclination i =>
    simp only [Sat.step, Sat.setInclination] at h
    split at h
    · cases h
    · injection h with h; subst h; exact chain_update hi.sorted hi.future hp hle
  | _ => exact absurd hop (by simp [Spec.IsSetter])

theorem chain_step {P : Time} {s s' : Sat} {op : SatOp} (hc : ChainInv P s) (hop : Spec.KeepsPrecision P op)
    (h : s.step op = .ok s') : ChainInv P s' := by
  have hi' := satInv_step hc.inv h
  by_cases hset : Spec.IsSetter op
  · exact chain_setter hc.inv hc.pos hc.le hset h
  · obtain ⟨u, hu, hpos, e, he, hle⟩ := hc.fresh
    cases op with
    | setPosition v => exact absurd trivial hset
    | setAltitude v => exact absurd trivial hset
    | setInclination i => exact absurd trivial hset
    | setPrecision p =>
      injection h with h; subst h
      exact ⟨hi', hop.1, hop.2, u, hu, hpos, e, he, hle⟩
    | run =>
      simp only [Sat.step] at h
      split at h
      · injection h with h; subst h; exact hc
      · rename_i t ts hp
        injection h with h; subst h
        have hs := hc.inv.sorted
        rw [hp, List.pairwise_cons] at hs
        exact chain_update (s := { s with now := t, pending := ts }) hs.2 hs.1 hc.pos hc.le
    | wait dt =>
      simp only [Sat.step] at h
      split at h
      · injection h with h; subst h
        exact ⟨hi', hc.pos, hc.le, u, Nat.le_trans hu (Nat.le_add_right _ _), hpos, e, he, hle⟩
      · split at h <;> injection h with h <;> subst h
        · exact ⟨hi', hc.pos, hc.le, u, Nat.le_trans hu (Nat.le_add_right _ _), hpos, e, he, hle⟩
        · exact hc

/-- C38: from a setter call with a positive precision on, as long as the precision stays within `(0, P]`, the
reported position is the exact one (for the current parameters) of an instant at most `P` ago, strictly less than
`P` once all events due now have run. -/
theorem C38_bounded_age {P : Time} {s s1 s' : Sat} {op : SatOp} {ops : List SatOp} (hr : SatReachable s)
    (hp : 0 < s.prec) (hle : s.prec ≤ P) (hset : Spec.IsSetter op) (hkeep : ∀ o ∈ ops, Spec.KeepsPrecision P o)
    (h1 : s.step op = .ok s1) (h2 : s1.exec ops = .ok s') :
    ∃ u, u ≤ s'.now ∧ s'.now ≤ u + P ∧ s'.getPosition = s'.orbit.position u ∧
      ((∀ e ∈ s'.pending, s'.now < e) → s'.now < u + P) := by
  have hc : ChainInv P s' := by
    have h0 := chain_setter hr.inv hp hle hset h1
    clear h1
    induction ops generalizing s1 with
    | nil => injection h2 with h2; subst h2; exact h0
    | cons o ops ih =>
      simp only [Sat.exec] at h2
      rw [Outcome.bind_eq_ok] at h2
      obtain ⟨s2, h3, h4⟩ := h2
      exact ih (fun o ho => hkeep o (by simp [ho])) h4 (chain_step h0 (hkeep o (by simp)) h3)
  obtain ⟨u, hu, hpos, e, he, hle'⟩ := hc.fresh
  refine ⟨u, hu, Nat.le_trans (hc.inv.future e he) hle', ?_, fun hdue => Nat.lt_of_lt_of_le (hdue e he) hle'⟩
  unfold Sat.getPosition
  have : s'.prec ≠ 0 := by have := hc.pos; omega
  rw [if_neg this, hpos]

example : ∃ (s s1 s' : Sat), SatReachable s ∧ 0 < s.prec ∧ s.prec ≤ (1000 : Time) ∧
    s.step (.setPosition ⟨1, 2, 0⟩) = .ok s1 ∧ s1.exec [.wait 400, .run, .wait 1000] = .ok s' ∧ s'.now = 2000 := by
  refine ⟨_, _, ?s', ⟨0, 0, 700, 60, 1000, _, [], create_eq _ _ _ _ _ (by norm_num), rfl⟩, by norm_num, by norm_num, rfl, ?h, ?g⟩
  case h =>
    simp [Sat.exec, Sat.step, Sat.setPosition, Sat.update, insertTime]
    rfl
  case g => rfl

/-- C38: with precision 0 the reported position is exact, in every state. -/
theorem C38_arbitrary_precision {s : Sat} (hp : s.prec = 0) : s.getPosition = s.orbit.position s.now := by
  unfold Sat.getPosition; rw [if_pos hp]

/-- Without a setter call after construction no update is ever scheduled: the position stays the one of the
instant of construction for good, whatever the precision. -/
theorem C38_no_update_without_setter {junk : ℝ} {now : Time} {a i : ℝ} {p : Int} {s s' : Sat} {ops : List SatOp}
    (h0 : Sat.create junk now a i p = .ok s) (hp : p ≠ 0)
    (hops : ∀ o ∈ ops, ∃ dt, o = SatOp.wait dt ∨ o = .run) (h : s.exec ops = .ok s') :
    s'.getPosition = s.orbit.position now ∧ s'.log = s.log := by
  obtain ⟨_, _, hprec, hpos, hnow, _⟩ := C37_construction h0
  have hpend : s.pending = [] := by
    by_cases hi : i = 0
    · rw [Sat.create, Sat.setInclination, if_pos hi] at h0; cases h0
    · rw [create_eq _ _ _ _ _ hi] at h0; injection h0 with h0; rw [← h0]
  have key : s'.prec = p ∧ s'.pending = [] ∧ s'.pos = s.pos ∧ s'.log = s.log := by
    suffices gen : ∀ (x : Vec) (y : List Time) (ops : List SatOp) (s : Sat), (∀ o ∈ ops, ∃ dt, o = SatOp.wait dt ∨ o = .run) →
        s.exec ops = .ok s' → (s.prec = p ∧ s.pending = [] ∧ s.pos = x ∧ s.log = y) →
        s'.prec = p ∧ s'.pending = [] ∧ s'.pos = x ∧ s'.log = y from
      gen _ _ ops s hops h ⟨hprec, hpend, rfl, rfl⟩
    intro x y ops
    induction ops with
    | nil => intro s _ h h'; injection h with h; subst h; exact h'
    | cons o ops ih =>
      intro s hops h h'
      simp only [Sat.exec] at h
      rw [Outcome.bind_eq_ok] at h
      obtain ⟨s1, h1, h2⟩ := h
      refine ih s1 (fun o ho => hops o (by simp [ho])) h2 ?_
      obtain ⟨dt, rfl | rfl⟩ := hops o (by simp)
      · simp only [Sat.step, h'.2.1] at h1
        injection h1 with h1; subst h1; exact ⟨h'.1, rfl, h'.2.2.1, h'.2.2.2⟩
      · simp only [Sat.step, h'.2.1] at h1
        injection h1 with h1; subst h1; exact h'
  refine ⟨?_, key.2.2.2⟩
  rw [← hpos]
  unfold Sat.getPosition
  rw [key.1, hprec, if_neg hp, if_neg hp, key.2.2.1]

example : ∃ s s' : Sat, Sat.create 0 0 700 60 1000000000 = .ok s ∧ s.exec [.wait 86400000000000] = .ok s' ∧
    s'.now = 86400000000000 := by
  refine ⟨_, _, create_eq _ _ _ _ _ (by norm_num), rfl, ?_⟩
  simp

/-! ## C39 -/

/-- What C39 asks for: with a constant precision `p > 0` no two notifications are caused by events less than `p` apart. -/
def Spec.OnePerInterval (p : Time) (times : List Time) : Prop := times.Pairwise (fun a b => a + p ≤ b)

/-- C39 is false: after two setter calls two chains run, and every interval sees two notifications. -/
theorem C39_chains_accumulate :
    ¬ ∀ (s s' : Sat) (ops : List SatOp) (k : Nat), SatReachable s → 0 < s.prec → (∀ o ∈ ops, Spec.IsSetter o) →
      s.exec (ops ++ List.replicate k .run) = .ok s' →
      Spec.OnePerInterval s.prec.toNat (s'.log.drop (s.log.length + ops.length)) := by
  intro hall
  have := hall _ _ [.setPosition ⟨0, 0, 0⟩, .setAltitude 500] 2
    ⟨0, 0, 700, 60, 1000, _, [], create_eq _ _ _ _ _ (by norm_num), rfl⟩ (by norm_num)
    (by intro o ho; simp at ho; rcases ho with rfl | rfl <;> trivial)
    (by
      simp [Sat.exec, Sat.step, Sat.setPosition, Sat.setAltitude, Sat.update, insertTime]
      rfl)
  simp [Spec.OnePerInterval] at this

/-- The number of chains: every setter call with a positive precision adds one pending update for good. -/
theorem C39_one_chain_per_setter {s s' : Sat} {ops : List SatOp} (hp : 0 < s.prec)
    (hkeep : ∀ o ∈ ops, ∀ p, o ≠ SatOp.setPrecision p) (h : s.exec ops = .ok s') :
    s'.pending.length = s.pending.length + (ops.filter (fun o => decide (Spec.IsSetter o))).length ∧ s'.prec = s.prec := by
  induction ops generalizing s with
  | nil => injection h with h; subst h; exact ⟨rfl, rfl⟩
  | cons o ops ih =>
    simp only [Sat.exec] at h
    rw [Outcome.bind_eq_ok] at h
    obtain ⟨s1, h1, h2⟩ := h
    have hstep : s1.prec = s.prec ∧ s1.pending.length = s.pending.length + (if Spec.IsSetter o then 1 else 0) := by
      cases o with
      | setPosition v =>
        injection h1 with h1; subst h1
        simp [Sat.setPosition, Sat.update, hp, length_insertTime, Spec.IsSetter]
      | setAltitude v =>
        injection h1 with h1; subst h1
        simp [Sat.setAltitude, Sat.update, hp, length_insertTime, Spec.IsSetter]
      | setInclination i =>
        simp only [Sat.step, Sat.setInclination] at h1
        split at h1
        · cases h1
        · injection h1 with h1; subst h1
          simp [Sat.update, hp, length_insertTime, Spec.IsSetter]
      | setPrecision p => exact absurd rfl (hkeep _ (by simp) p)
      | run =>
        simp only [Sat.step] at h1
        split at h1
        · injection h1 with h1; subst h1; simp [Spec.IsSetter]
        · rename_i t ts hpd
          injection h1 with h1; subst h1
          simp [Sat.update, hp, length_insertTime, Spec.IsSetter, hpd]
      | wait dt =>
        simp only [Sat.step] at h1
        split at h1
        · injection h1 with h1; subst h1; simp [Spec.IsSetter]
        · split at h1 <;> injection h1 with h1 <;> subst h1 <;> simp [Spec.IsSetter]
    obtain ⟨e1, e2⟩ := ih (by rw [hstep.1]; exact hp) (fun o ho => hkeep o (by simp [ho])) h2
    refine ⟨?_, e2.trans hstep.1⟩
    rw [e1, hstep.2, List.filter_cons]
    by_cases hset : Spec.IsSetter o
    · simp [hset]; omega
    · simp [hset]

/-- All chains are within one precision of the clock. -/
structure TickInv (s : Sat) : Prop where
  inv : SatInv s
  pos : 0 < s.prec
  near : ∀ t ∈ s.pending, t ≤ s.now + s.prec.toNat

theorem tick_update {s : Sat} (h1 : s.pending.Pairwise (· ≤ ·)) (h2 : ∀ t ∈ s.pending, s.now ≤ t) (hp : 0 < s.prec)
    (h3 : ∀ t ∈ s.pending, t ≤ s.now + s.prec.toNat) : TickInv s.update := by
  refine ⟨satInv_update h1 h2, hp, ?_⟩
  simp only [Sat.update, if_pos hp]
  intro t ht
  rcases mem_insertTime.mp ht with rfl | ht
  · exact Nat.le_refl _
  · exact h3 t ht

theorem tick_step {s s' : Sat} {op : SatOp} (hc : TickInv s) (hop : ∀ p, op ≠ .setPrecision p) (h : s.step op = .ok s') :
    TickInv s' := by
  cases op with
  | setPosition v => injection h with h; subst h; exact tick_update hc.inv.sorted hc.inv.future hc.pos hc.near
  | setAltitude v => injection h with h; subst h; exact tick_update hc.inv.sorted hc.inv.future hc.pos hc.near
  | setInclination i =>
    simp only [Sat.step, Sat.setInclination] at h
    split at h
    · cases h
    · injection h with h; subst h; exact tick_update hc.inv.sorted hc.inv.future hc.pos hc.near
  | setPrecision p => exact absurd rfl (hop p)
  | run =>
    simp only [Sat.step] at h
    split at h
    · injection h with h; subst h; exact hc
    · rename_i t ts hp
      injection h with h; subst h
      have hs := hc.inv.sorted
      rw [hp, List.pairwise_cons] at hs
      have ht := hc.inv.future t (by rw [hp]; simp)
      refine tick_update (s := { s with now := t, pending := ts }) hs.2 hs.1 hc.pos ?_
      intro x hx
      have := hc.near x (by rw [hp]; simp [hx])
      simp only; omega
  | wait dt =>
    have hi' := satInv_step hc.inv h
    simp only [Sat.step] at h
    have near' : ∀ t ∈ s.pending, t ≤ s.now + dt + s.prec.toNat := fun t ht => by have := hc.near t ht; omega
    split at h
    · injection h with h; subst h; exact ⟨hi', hc.pos, near'⟩
    · split at h <;> injection h with h <;> subst h
      · exact ⟨hi', hc.pos, near'⟩
      · exact hc

/-- C39, the rate the code has: letting every pending update run once appends exactly the pending times to the
notifications and moves every chain one precision ahead.  So there are as many notifications per precision interval
as there are chains, for ever. -/
theorem C39_rate {junk : ℝ} {now : Time} {a i : ℝ} {p : Int} {s0 s s' : Sat} {ops : List SatOp}
    (h0 : Sat.create junk now a i p = .ok s0) (hp : 0 < p) (hkeep : ∀ o ∈ ops, ∀ q, o ≠ SatOp.setPrecision q)
    (h : s0.exec ops = .ok s) (hrun : s.exec (List.replicate s.pending.length .run) = .ok s') :
    s'.log = s.log ++ s.pending ∧ s'.pending = s.pending.map (· + p.toNat) := by
  have ht : TickInv s ∧ s.prec = p := by
    have hprec := (C37_construction h0).2.2.1
    have hpend : s0.pending = [] := by
      by_cases hi : i = 0
      · rw [Sat.create, Sat.setInclination, if_pos hi] at h0; cases h0
      · rw [create_eq _ _ _ _ _ hi] at h0; injection h0 with h0; rw [← h0]
    have t0 : TickInv s0 := ⟨satInv_create h0, by rw [hprec]; exact hp, by rw [hpend]; intro t ht; cases ht⟩
    refine ⟨?_, ((C39_one_chain_per_setter t0.pos hkeep h).2).trans hprec⟩
    clear h0 hprec hpend hrun
    induction ops generalizing s0 with
    | nil => injection h with h; subst h; exact t0
    | cons o ops ih =>
      simp only [Sat.exec] at h
      rw [Outcome.bind_eq_ok] at h
      obtain ⟨s1, h1, h2⟩ := h
      exact ih (fun o ho => hkeep o (by simp [ho])) h2 (tick_step t0 (hkeep o (by simp)) h1)
  obtain ⟨ht, hprec⟩ := ht
  have key : ∀ (l m : List Time) (s : Sat), TickInv s → s.prec = p → s.pending = l ++ m →
      s.exec (List.replicate l.length .run) = .ok s' →
      s'.log = s.log ++ l ∧ s'.pending = m ++ l.map (· + p.toNat) := by
    intro l
    induction l with
    | nil =>
      intro m s _ _ hpd h
      injection h with h; subst h
      simpa using hpd
    | cons t l ih =>
      intro m s ht hprec hpd h
      simp only [List.length_cons, List.replicate_succ, Sat.exec] at h
      rw [Outcome.bind_eq_ok] at h
      obtain ⟨s1, h1, h2⟩ := h
      have ht1 := tick_step ht (by intro q; simp) h1
      simp only [Sat.step, hpd, List.cons_append] at h1
      injection h1 with h1
      have hall : ∀ u ∈ l ++ m, u ≤ t + p.toNat := by
        intro u hu
        have h3 := ht.near u (by rw [hpd]; exact List.mem_cons_of_mem _ hu)
        have h4 := ht.inv.future t (by rw [hpd]; simp)
        rw [hprec] at h3
        omega
      have hpd1 : s1.pending = l ++ (m ++ [t + p.toNat]) := by
        rw [← h1]
        simp only [Sat.update]
        rw [if_pos (by rw [hprec]; exact hp), hprec, insertTime_last hall, List.append_assoc]
      have hlog1 : s1.log = s.log ++ [t] := by rw [← h1]; rfl
      have hprec1 : s1.prec = p := by rw [← h1]; exact hprec
      obtain ⟨e1, e2⟩ := ih (m ++ [t + p.toNat]) s1 ht1 hprec1 hpd1 h2
      rw [e1, e2, hlog1]
      simp
  have := key s.pending [] s ht hprec (by simp) hrun
  simpa using this

example : ∃ s0 s s' : Sat, Sat.create 0 0 700 60 1000 = .ok s0 ∧
    s0.exec [.setPosition ⟨0, 0, 0⟩, .wait 300, .setAltitude 800] = .ok s ∧ s.pending = [1000, 1300] ∧
    s.exec (List.replicate s.pending.length .run) = .ok s' ∧ s'.pending = [2000, 2300] := by
  refine ⟨_, ?s, ?s', create_eq _ _ _ _ _ (by norm_num), ?h, ?p, ?r, ?q⟩
  case h =>
    simp [Sat.exec, Sat.step, Sat.setPosition, Sat.setAltitude, Sat.update, insertTime]
    rfl
  case p => rfl
  case r =>
    simp [Sat.exec, Sat.step, Sat.update, insertTime, List.replicate]
    rfl
  case q => rfl

/-- What holds of C39: after construction and exactly one setter call (what `MobilityHelper::Install` does) there is
one notification per precision interval: at `t0 + p, t0 + 2p, ...`.  Missing: histories with more setter calls, for
which it is false. -/
theorem C39_one_setter_partial {junk : ℝ} {now : Time} {a i : ℝ} {p : Int} {s0 s1 s' : Sat} {op : SatOp} (k : Nat)
    (h0 : Sat.create junk now a i p = .ok s0) (hp : 0 < p) (hset : Spec.IsSetter op) (h1 : s0.step op = .ok s1)
    (h : s1.exec (List.replicate k .run) = .ok s') :
    s'.log = s1.log ++ (List.range k).map (fun j => now + (j + 1) * p.toNat) := by
  obtain ⟨_, _, hprec, _, hnow, _⟩ := C37_construction h0
  have hpend : s0.pending = [] := by
    by_cases hi : i = 0
    · rw [Sat.create, Sat.setInclination, if_pos hi] at h0; cases h0
    · rw [create_eq _ _ _ _ _ hi] at h0; injection h0 with h0; rw [← h0]
  have upd : ∀ o : Orbit, ({ s0 with orbit := o } : Sat).update.pending = [now + p.toNat] ∧
      ({ s0 with orbit := o } : Sat).update.prec = p := by
    intro o
    refine ⟨?_, hprec⟩
    simp only [Sat.update, hpend, hprec, hnow]
    rw [if_pos hp]; rfl
  have hs1 : s1.pending = [now + p.toNat] ∧ s1.prec = p := by
    cases op with
    | setPosition v => injection h1 with h1; subst h1; exact upd _
    | setAltitude v => injection h1 with h1; subst h1; exact upd _
    | setInclination i =>
      simp only [Sat.step, Sat.setInclination] at h1
      split at h1
      · cases h1
      · injection h1 with h1; subst h1; exact upd _
    | _ => exact absurd hset (by simp [Spec.IsSetter])
  have key : ∀ (k b : Nat) (s : Sat), s.pending = [now + (b + 1) * p.toNat] → s.prec = p →
      s.exec (List.replicate k .run) = .ok s' →
      s'.log = s.log ++ (List.range k).map (fun j => now + (b + j + 1) * p.toNat) := by
    intro k
    induction k with
    | zero => intro b s _ _ h; injection h with h; subst h; simp
    | succ k ih =>
      intro b s hpd hpr h
      simp only [List.replicate_succ, Sat.exec, Sat.step, hpd] at h
      rw [Outcome.bind_eq_ok] at h
      obtain ⟨s1, h1, h⟩ := h
      injection h1 with h1
      subst h1
      have := ih (b + 1) ({ s with now := now + (b + 1) * p.toNat, pending := [] } : Sat).update (by
        simp only [Sat.update, hpr]
        rw [if_pos hp]
        simp only [insertTime]
        congr 1
        rw [Nat.add_mul (b + 1) 1]; omega) hpr h
      rw [this]
      simp only [Sat.update]
      rw [List.range_succ_eq_map, List.map_cons, List.map_map, List.append_assoc]
      congr 1
      simp only [List.singleton_append, List.cons.injEq, Nat.add_zero, true_and]
      apply List.map_congr_left
      intro j _
      simp only [Function.comp_apply]
      congr 2
      omega
  have := key k 0 s1 (by rw [hs1.1]; congr 1; omega) hs1.2 h
  rw [this]
  congr 1
  apply List.map_congr_left
  intro j _
  congr 2
  omega

example : ∃ s0 s1 s' : Sat, Sat.create 0 0 700 60 1000 = .ok s0 ∧ s0.step (.setPosition ⟨0, 0, 0⟩) = .ok s1 ∧
    s1.exec (List.replicate 2 .run) = .ok s' ∧ s'.log.length = 5 := by
  refine ⟨_, _, ?s', create_eq _ _ _ _ _ (by norm_num), rfl, ?h, ?g⟩
  case h =>
    simp [Sat.exec, Sat.step, Sat.setPosition, Sat.update, insertTime]
    rfl
  case g => rfl

end Verif
