import Verif.Spec.Course
import Verif.Lemmas.Fleet
/-! Calls from inside course-change sinks: every satellite by itself does what it does without them. -/

namespace Verif
open Real Spec

/-! ### The two halves of `Update` -/

theorem update_halves (F : Fleet) (i : Nat) : F.update i = (F.notify i).arm i := by
  unfold Fleet.update Fleet.notify
  cases hm : F.mobs[i]? with
  | none => simp only [Fleet.arm, hm]
  | some m =>
    obtain ⟨hlt, _⟩ := List.getElem?_eq_some_iff.mp hm
    simp only [Fleet.arm, List.getElem?_set_self hlt]

noncomputable def Sat.mark (s : Sat) : Sat := { s with pos := s.orbit.position s.now, log := s.log ++ [s.now] }

def Sat.arm (s : Sat) : Sat := { s with pending := if s.prec > 0 then insertTime (s.now + s.prec.toNat) s.pending else s.pending }

theorem sat_update_halves (s : Sat) : s.update = s.mark.arm := rfl

/-- An operation up to the notification. -/
noncomputable def Sat.half (s : Sat) : SatOp → Sat
  | .setPosition v => { s with orbit := { s.orbit with lon := v.x, off := v.y } }.mark
  | .setAltitude h => { s with orbit := { s.orbit with height := earthRadKm + h } }.mark
  | .setInclination x => { s with orbit := { s.orbit with incl := (x / 180) * Real.pi } }.mark
  | .run => { s with now := s.pending.headD s.now, pending := s.pending.tail }.mark
  | _ => s

/-- Setter calls that do not fail. -/
def Sets (o : SatOp) : Prop := IsSetter o ∧ o ≠ .setInclination 0

theorem step_half {s : Sat} {o : SatOp} (h : Sets o ∨ (o = .run ∧ s.pending ≠ [])) : s.step o = .ok (s.half o).arm := by
  rcases h with ⟨h1, h2⟩ | ⟨rfl, h⟩
  · cases o with
    | setPosition v => rfl
    | setAltitude v => rfl
    | setInclination x =>
      have hx : x ≠ 0 := by rintro rfl; exact h2 rfl
      simp only [Sat.step, Sat.setInclination, if_neg hx]
      rfl
    | _ => exact absurd h1 (by simp [IsSetter])
  · cases hp : s.pending with
    | nil => exact absurd hp h
    | cons t ts =>
      simp only [Sat.step, Sat.half, hp, List.headD_cons, List.tail_cons]
      rfl

theorem half_arm {s : Sat} {o : SatOp} (h : Sets o) : s.arm.half o = (s.half o).arm := by
  cases o with
  | setPosition v => rfl
  | setAltitude v => rfl
  | setInclination x => rfl
  | _ => exact absurd h.1 (by simp [IsSetter])

theorem half_prec (s : Sat) (o : SatOp) (p : Int) : ({ s with prec := p } : Sat).half o = { s.half o with prec := p } := by
  cases o <;> rfl

theorem foldl_half_arm {ops : List SatOp} : ∀ (s : Sat), (∀ o ∈ ops, Sets o) → ops.foldl Sat.half s.arm = (ops.foldl Sat.half s).arm := by
  induction ops with
  | nil => intro s _; rfl
  | cons o os ih =>
    intro s h
    rw [List.foldl_cons, List.foldl_cons, half_arm (h o (by simp)), ih _ fun x hx => h x (by simp [hx])]

theorem foldl_half_prec {ops : List SatOp} (p : Int) : ∀ (s : Sat),
    ops.foldl Sat.half ({ s with prec := p } : Sat) = { ops.foldl Sat.half s with prec := p } := by
  induction ops with
  | nil => intro s; rfl
  | cons o os ih =>
    intro s
    rw [List.foldl_cons, List.foldl_cons, half_prec, ih]

/-! ### The halves for one node -/

theorem notify_length (F : Fleet) (i : Nat) : (F.notify i).mobs.length = F.mobs.length := by
  unfold Fleet.notify
  split <;> simp

theorem arm_mobs (F : Fleet) (i : Nat) : (F.arm i).mobs = F.mobs := by
  unfold Fleet.arm
  split <;> rfl

theorem satOf_notify_other {F : Fleet} {i j : Nat} (hij : j ≠ i) : satOf (F.notify j) i = satOf F i := by
  unfold Fleet.notify
  split
  · rfl
  · simp only [satOf_eq, notesOf_append]
    rw [List.getElem?_set_ne hij]
    have e1 : notesOf i [(F.now, j)] = [] := by simp [notesOf, hij]
    rw [e1, List.append_nil]

theorem satOf_notify_self {F : Fleet} {i : Nat} {s : Sat} (h : satOf F i = some s) : satOf (F.notify i) i = some s.mark := by
  rw [satOf_eq] at h
  obtain ⟨m, hm, rfl⟩ := Option.map_eq_some_iff.mp h
  obtain ⟨hlt, _⟩ := List.getElem?_eq_some_iff.mp hm
  unfold Fleet.notify
  simp only [hm, satOf_eq, List.getElem?_set_self hlt, Option.map_some, Sat.mark, notesOf_append]
  have e1 : notesOf i [(F.now, i)] = [F.now] := by simp [notesOf]
  rw [e1]

theorem satOf_arm_other {F : Fleet} {i j : Nat} (hij : j ≠ i) : satOf (F.arm j) i = satOf F i := by
  unfold Fleet.arm
  split
  · rfl
  · simp only [satOf_eq]
    split
    · rw [timesOf_insert_other (by simp [hij])]
    · rfl

theorem satOf_arm_self {F : Fleet} {i : Nat} {s : Sat} (hi : F.pending.Pairwise fun a b => a.1 ≤ b.1) (h : satOf F i = some s) :
    satOf (F.arm i) i = some s.arm := by
  rw [satOf_eq] at h
  obtain ⟨m, hm, rfl⟩ := Option.map_eq_some_iff.mp h
  unfold Fleet.arm
  simp only [hm, satOf_eq, Option.map_some, Sat.arm]
  split
  · rw [timesOf_insert_self hi]
  · rfl

theorem satOf_lt {F : Fleet} {i : Nat} {s : Sat} (h : satOf F i = some s) : i < F.mobs.length := by
  rw [satOf_eq] at h
  obtain ⟨m, hm, _⟩ := Option.map_eq_some_iff.mp h
  exact (List.getElem?_eq_some_iff.mp hm).1

/-! ### Invariant -/

structure CourseInv (C : Course) : Prop where
  fleet : FleetInv C.fleet
  stack : ∀ i ∈ C.stack, i < C.fleet.mobs.length

theorem fleetInv_notify {F : Fleet} (h : FleetInv F) (i : Nat) : FleetInv (F.notify i) := by
  unfold Fleet.notify
  split
  · exact h
  · rename_i m hm
    obtain ⟨hlt, _⟩ := List.getElem?_eq_some_iff.mp hm
    refine ⟨h.sorted, h.future, ?_, ?_⟩
    · simp only [List.length_set]; exact h.idx
    · simp only [List.length_set]
      intro t j hj
      rcases List.mem_append.mp hj with hj | hj
      · exact h.note t j hj
      · simp only [List.mem_singleton, Prod.mk.injEq] at hj
        rw [hj.2]; exact hlt

theorem fleetInv_arm {F : Fleet} (h : FleetInv F) (i : Nat) : FleetInv (F.arm i) := by
  unfold Fleet.arm
  split
  · exact h
  · rename_i m hm
    obtain ⟨hlt, _⟩ := List.getElem?_eq_some_iff.mp hm
    refine ⟨?_, ?_, ?_, h.note⟩
    · simp only
      split
      · exact sorted_insertFleetEv h.sorted
      · exact h.sorted
    · simp only
      split
      · intro e he
        rcases mem_insertFleetEv.mp he with rfl | he
        · exact Nat.le_add_right _ _
        · exact h.future e he
      · exact h.future
    · simp only
      split
      · intro t j hj
        rcases mem_insertFleetEv.mp hj with e | hj
        · simp only [Prod.mk.injEq, FleetEv.update.injEq] at e
          rw [e.2]; exact hlt
        · exact h.idx t j hj
      · exact h.idx

theorem courseInv_enter {F : Fleet} {st : List Nat} (h : FleetInv F) (hs : ∀ i ∈ st, i < F.mobs.length) (i : Nat) :
    CourseInv (Course.enter ⟨F, st⟩ i) := by
  refine ⟨fleetInv_notify h i, ?_⟩
  simp only [Course.enter, notify_length]
  split
  · rename_i hlt
    intro j hj
    rcases List.mem_cons.mp hj with rfl | hj
    · exact hlt
    · exact hs j hj
  · exact hs

theorem step_length {junk : ℝ} {F F' : Fleet} {o : FleetOp} (h : F.step junk o = .ok F') : F.mobs.length ≤ F'.mobs.length := by
  cases o with
  | create alt inc prec =>
    simp only [Fleet.step] at h
    obtain ⟨s0, _, h⟩ := Outcome.bind_eq_ok.mp h
    injection h with h
    subst h
    simp
  | setPosition j v => injection h with h; subst h; rw [update_length, change_length]
  | setAltitude j v => injection h with h; subst h; rw [update_length, change_length]
  | setInclination j v =>
    simp only [Fleet.step] at h
    split at h
    · cases h
    · injection h with h; subst h; rw [update_length, change_length]
  | setPrecision j v => injection h with h; subst h; rw [change_length]
  | connect => injection h with h; subst h; exact Nat.le_refl _
  | stopAfter => injection h with h; subst h; exact Nat.le_refl _
  | run =>
    simp only [Fleet.step] at h
    split at h
    · injection h with h; subst h; exact Nat.le_refl _
    · split at h
      · injection h with h; subst h; exact Nat.le_refl _
      · injection h with h; subst h; rw [update_length]
      · injection h with h; subst h; exact Nat.le_refl _
  | wait =>
    simp only [Fleet.step] at h
    split at h
    · injection h with h; subst h; exact Nat.le_refl _
    · split at h <;> (injection h with h; subst h; exact Nat.le_refl _)

theorem courseInv_plain {junk : ℝ} {C C' : Course} {o : FleetOp} (hi : CourseInv C)
    (h : (C.fleet.step junk o >>= fun F => Outcome.ok (⟨F, C.stack⟩ : Course)) = .ok C') : CourseInv C' := by
  obtain ⟨F, h1, h⟩ := Outcome.bind_eq_ok.mp h
  injection h with h
  subst h
  exact ⟨fleetInv_step hi.fleet h1, fun i hs => Nat.lt_of_lt_of_le (hi.stack i hs) (step_length h1)⟩

theorem courseInv_step {junk : ℝ} {C C' : Course} {o : CourseOp} (hi : CourseInv C) (h : C.step junk o = .ok C') : CourseInv C' := by
  cases o with
  | ret =>
    simp only [Course.step] at h
    split at h
    · injection h with h; subst h; exact hi
    · rename_i i st hst
      injection h with h
      subst h
      refine ⟨fleetInv_arm hi.fleet i, ?_⟩
      simp only [arm_mobs]
      exact fun j hj => hi.stack j (by rw [hst]; exact List.mem_cons_of_mem _ hj)
  | op o =>
    cases o with
    | setPosition j v =>
      injection h with h; subst h
      exact courseInv_enter (fleetInv_change hi.fleet _ _) (by rw [change_length]; exact hi.stack) _
    | setAltitude j v =>
      injection h with h; subst h
      exact courseInv_enter (fleetInv_change hi.fleet _ _) (by rw [change_length]; exact hi.stack) _
    | setInclination j v =>
      simp only [Course.step] at h
      split at h
      · cases h
      · injection h with h; subst h
        exact courseInv_enter (fleetInv_change hi.fleet _ _) (by rw [change_length]; exact hi.stack) _
    | run =>
      simp only [Course.step] at h
      split at h
      · injection h with h; subst h; exact hi
      · split at h
        · injection h with h; subst h; exact hi
        · rename_i hp
          injection h with h; subst h
          exact courseInv_enter (fleetInv_pop hi.fleet hp) (by intro i hi; cases hi) _
        · rename_i hp
          injection h with h; subst h
          have := fleetInv_pop hi.fleet hp
          exact ⟨⟨this.sorted, this.future, this.idx, this.note⟩, by intro i hi; cases hi⟩
    | wait dt =>
      simp only [Course.step] at h
      split at h
      · injection h with h; subst h; exact hi
      · rename_i hst
        rw [not_not] at hst
        exact courseInv_plain hi (by rw [hst]; exact h)
    | create => exact courseInv_plain hi h
    | setPrecision => exact courseInv_plain hi h
    | connect => exact courseInv_plain hi h
    | stopAfter => exact courseInv_plain hi h

/-! ### One satellite -/

/-- The first of the operations that wait for their sinks may be an event, the others are calls from the sinks. -/
def HeldFit (s : Sat) : List SatOp → Prop
  | [] => True
  | o :: os => (Sets o ∨ (o = .run ∧ s.pending ≠ [])) ∧ ∀ x ∈ os, Sets x

/-- Node `i` is the satellite `s` with the notifications of `ops` done and their updates not yet scheduled. -/
structure Held (C : Course) (i : Nat) (s : Sat) (ops : List SatOp) : Prop where
  sat : satOf C.fleet i = some (ops.foldl Sat.half s)
  len : ops.length = C.stack.count i
  fit : HeldFit s ops

theorem fit_append {s : Sat} {ops : List SatOp} {o : SatOp} (h : HeldFit s ops) (ho : Sets o) : HeldFit s (ops ++ [o]) := by
  cases ops with
  | nil => exact ⟨Or.inl ho, by simp⟩
  | cons a as =>
    refine ⟨h.1, fun x hx => ?_⟩
    rcases List.mem_append.mp hx with hx | hx
    · exact h.2 x hx
    · rw [List.mem_singleton.mp hx]; exact ho

theorem setters_append (a b : List SatOp) : setters (a ++ b) = setters a ++ setters b := List.filter_append a b
theorem precs_append (a b : List SatOp) : precs (a ++ b) = precs a ++ precs b := List.filterMap_append

theorem held_setter {F : Fleet} {st : List Nat} {i j : Nat} {s : Sat} {ops : List SatOp} {o : SatOp} {f : Mob → Mob} {g : Sat → Sat}
    (hh : Held ⟨F, st⟩ i s ops) (ho : Sets o)
    (hfg : ∀ m n t l, (⟨(f m).orbit, (f m).pos, (f m).prec, n, t, l⟩ : Sat) = g ⟨m.orbit, m.pos, m.prec, n, t, l⟩)
    (hg : ∀ s, Sat.half s o = (g s).mark) :
    Held (Course.enter ⟨F.change j f, st⟩ j) i s (if j = i then ops ++ [o] else ops) := by
  have hlt := satOf_lt hh.sat
  split
  · rename_i hji
    subst hji
    refine ⟨?_, ?_, fit_append hh.fit ho⟩
    · rw [List.foldl_append, List.foldl_cons, List.foldl_nil, hg]
      exact satOf_notify_self (satOf_change_self hh.sat hfg)
    · simp only [Course.enter, change_length]
      rw [if_pos hlt, List.length_append, hh.len, List.count_cons_self]
      rfl
  · rename_i hji
    refine ⟨?_, ?_, hh.fit⟩
    · simp only [Course.enter]
      rw [satOf_notify_other hji, satOf_change_other hji]
      exact hh.sat
    · rw [hh.len]
      simp only [Course.enter]
      split
      · rw [List.count_cons_of_ne hji]
      · rfl

/-- One step, for one satellite: at most one operation of the satellite by itself. -/
theorem held_step {junk : ℝ} {C C' : Course} {o : CourseOp} {i : Nat} {s : Sat} {ops : List SatOp} (hi : CourseInv C)
    (h : C.step junk o = .ok C') (hh : Held C i s ops) :
    ∃ sops s' ops', s.exec sops = .ok s' ∧ Held C' i s' ops' ∧
      setters (sops ++ ops') = setters (ops ++ (courseCall i o).toList) ∧
      precs (sops ++ ops') = precs (ops ++ (courseCall i o).toList) := by
  have hlt := satOf_lt hh.sat
  have same : ∀ {C1 : Course}, satOf C1.fleet i = satOf C.fleet i → C1.stack = C.stack → courseCall i o = none →
      ∃ sops s' ops', s.exec sops = .ok s' ∧ Held C1 i s' ops' ∧
      setters (sops ++ ops') = setters (ops ++ (courseCall i o).toList) ∧
      precs (sops ++ ops') = precs (ops ++ (courseCall i o).toList) := by
    intro C1 e1 e2 e3
    exact ⟨[], s, ops, rfl, ⟨by rw [e1]; exact hh.sat, by rw [e2]; exact hh.len, hh.fit⟩, by rw [e3]; simp, by rw [e3]; simp⟩
  cases o with
  | ret =>
    simp only [Course.step] at h
    split at h
    · injection h with h; subst h; exact same rfl rfl rfl
    · rename_i j st hst
      injection h with h
      subst h
      by_cases hji : j = i
      · subst hji
        have hl := hh.len
        rw [hst, List.count_cons_self] at hl
        cases hops : ops with
        | nil => rw [hops] at hl; simp at hl
        | cons a as =>
          rw [hops] at hl
          have hf := hh.fit
          rw [hops] at hf
          refine ⟨[a], (s.half a).arm, as, sat_exec_one (step_half hf.1), ⟨?_, ?_, ?_⟩, ?_, ?_⟩
          · rw [foldl_half_arm _ hf.2]
            have := hh.sat
            rw [hops, List.foldl_cons] at this
            exact satOf_arm_self hi.fleet.sorted this
          · simpa using hl
          · cases as with
            | nil => exact trivial
            | cons b bs => exact ⟨Or.inl (hf.2 b (by simp)), fun x hx => hf.2 x (by simp [hx])⟩
          · simp [courseCall]
          · simp [courseCall]
      · refine ⟨[], s, ops, rfl, ⟨?_, ?_, hh.fit⟩, by simp [courseCall], by simp [courseCall]⟩
        · simp only [satOf_arm_other hji]; exact hh.sat
        · rw [hh.len, hst, List.count_cons_of_ne hji]
  | op o =>
    have setter : ∀ {j : Nat} {f : Mob → Mob} {g : Sat → Sat} {x : SatOp}, Sets x → callOf i o = (if j = i then some x else none) →
        (∀ m n t l, (⟨(f m).orbit, (f m).pos, (f m).prec, n, t, l⟩ : Sat) = g ⟨m.orbit, m.pos, m.prec, n, t, l⟩) →
        (∀ s, Sat.half s x = (g s).mark) →
        ∃ sops s' ops', s.exec sops = .ok s' ∧ Held (Course.enter ⟨C.fleet.change j f, C.stack⟩ j) i s' ops' ∧
          setters (sops ++ ops') = setters (ops ++ (courseCall i (.op o)).toList) ∧
          precs (sops ++ ops') = precs (ops ++ (courseCall i (.op o)).toList) := by
      intro j f g x hx hc hfg hg
      refine ⟨[], s, _, rfl, held_setter hh hx hfg hg, ?_, ?_⟩ <;>
      · simp only [courseCall, hc]
        split <;> simp
    cases o with
    | setPosition j v =>
      injection h with h; subst h
      exact setter (g := fun s => { s with orbit := { s.orbit with lon := v.x, off := v.y } }) (x := .setPosition v)
        ⟨trivial, by simp⟩ rfl (fun _ _ _ _ => rfl) (fun _ => rfl)
    | setAltitude j v =>
      injection h with h; subst h
      exact setter (g := fun s => { s with orbit := { s.orbit with height := earthRadKm + v } }) (x := .setAltitude v)
        ⟨trivial, by simp⟩ rfl (fun _ _ _ _ => rfl) (fun _ => rfl)
    | setInclination j v =>
      simp only [Course.step] at h
      split at h
      · cases h
      · rename_i hv
        injection h with h; subst h
        exact setter (g := fun s => { s with orbit := { s.orbit with incl := (v / 180) * Real.pi } }) (x := .setInclination v)
          ⟨trivial, by simpa using hv⟩ rfl (fun _ _ _ _ => rfl) (fun _ => rfl)
    | setPrecision j v =>
      injection h with h
      subst h
      by_cases hji : j = i
      · subst hji
        refine ⟨[.setPrecision v], { s with prec := v }, ops, sat_exec_one rfl, ⟨?_, hh.len, ?_⟩, ?_, ?_⟩
        · rw [foldl_half_prec]
          exact satOf_change_self (g := fun s => { s with prec := v }) hh.sat (fun _ _ _ _ => rfl)
        · have hf := hh.fit
          cases ops with
          | nil => exact trivial
          | cons a as => exact hf
        · rw [setters_append, setters_append]
          have e1 : setters [.setPrecision v] = [] := rfl
          have e2 : (courseCall j (.op (.setPrecision j v))).toList = [.setPrecision v] := by simp [courseCall, callOf]
          rw [e2, e1, List.append_nil, List.nil_append]
        · have hf := hh.fit
          have none : precs ops = [] := by
            unfold precs
            rw [List.filterMap_eq_nil_iff]
            intro x hx
            have hx' : Sets x ∨ x = .run := by
              cases ops with
              | nil => cases hx
              | cons a as =>
                rcases List.mem_cons.mp hx with rfl | hx
                · exact hf.1.imp id fun h => h.1
                · exact Or.inl (hf.2 x hx)
            rcases hx' with hx' | rfl
            · cases x with
              | setPrecision p => exact absurd hx'.1 (by simp [IsSetter])
              | _ => rfl
            · rfl
          rw [precs_append, precs_append, none]
          simp [courseCall, callOf]
      · exact same (satOf_change_other hji _) rfl (by simp [courseCall, callOf, hji])
    | create alt inc prec =>
      simp only [Course.step, Fleet.step] at h
      obtain ⟨F, h1, h⟩ := Outcome.bind_eq_ok.mp h
      obtain ⟨s0, _, h1⟩ := Outcome.bind_eq_ok.mp h1
      injection h1 with h1
      injection h with h
      subst h h1
      refine same ?_ rfl rfl
      simp only [satOf_eq, notesOf_append]
      rw [List.getElem?_append_left hlt]
      have : notesOf i (s0.log.map fun t => (t, C.fleet.mobs.length)) = [] := by
        unfold notesOf
        rw [List.filterMap_eq_nil_iff]
        intro e he
        obtain ⟨t, _, rfl⟩ := List.mem_map.mp he
        have : ¬ C.fleet.mobs.length = i := by omega
        simp [this]
      rw [this, List.append_nil]
    | connect => injection h with h; subst h; exact same rfl rfl rfl
    | stopAfter dt =>
      injection h with h
      subst h
      refine same ?_ rfl rfl
      simp only [satOf_eq]
      rw [timesOf_insert_other (by simp)]
    | run =>
      simp only [Course.step] at h
      split at h
      · injection h with h; subst h; exact same rfl rfl rfl
      · rename_i hc
        rw [not_or, not_not] at hc
        have hl := hh.len
        rw [hc.1, List.count_nil, List.length_eq_zero_iff] at hl
        subst hl
        have hs : satOf C.fleet i = some s := hh.sat
        split at h
        · injection h with h; subst h; exact same rfl rfl rfl
        · rename_i t j rest hp
          injection h with h
          subst h
          have hle : C.fleet.now ≤ t := hi.fleet.future (t, .update j) (by rw [hp]; simp)
          by_cases hji : j = i
          · subst hji
            have e : timesOf j C.fleet.pending = t :: timesOf j rest := by rw [hp]; simp [timesOf]
            have hsp : s.pending = t :: timesOf j rest := by
              rw [satOf_eq] at hs
              obtain ⟨m, hm, rfl⟩ := Option.map_eq_some_iff.mp hs
              exact e
            refine ⟨[], s, [.run], rfl, ⟨?_, ?_, ⟨Or.inr ⟨rfl, by rw [hsp]; simp⟩, by simp⟩⟩, rfl, rfl⟩
            · simp only [Course.enter, List.foldl_cons, List.foldl_nil, Sat.half, hsp, List.headD_cons, List.tail_cons]
              refine satOf_notify_self ?_
              rw [satOf_eq] at hs ⊢
              obtain ⟨m, hm, rfl⟩ := Option.map_eq_some_iff.mp hs
              simp only [hm, Option.map_some]
            · simp only [Course.enter]
              rw [if_pos hlt]
              simp
          · refine ⟨[.wait (t - C.fleet.now)], { s with now := t }, [],
              sat_exec_one (sat_wait hs hle (wait_le hi.fleet hp (Nat.le_refl t))), ⟨?_, ?_, trivial⟩, rfl, rfl⟩
            · simp only [Course.enter, List.foldl_nil]
              rw [satOf_notify_other hji, ← satOf_now hs t]
              simp only [satOf_eq]
              have e : timesOf i C.fleet.pending = timesOf i rest := by rw [hp]; simp [timesOf, hji]
              rw [e]
            · simp only [Course.enter]
              split
              · rw [List.count_cons_of_ne hji]; rfl
              · rfl
        · rename_i t rest hp
          injection h with h
          subst h
          have hle : C.fleet.now ≤ t := hi.fleet.future (t, .stop) (by rw [hp]; simp)
          refine ⟨[.wait (t - C.fleet.now)], { s with now := t }, [],
            sat_exec_one (sat_wait hs hle (wait_le hi.fleet hp (Nat.le_refl t))), ⟨?_, rfl, trivial⟩, rfl, rfl⟩
          simp only [List.foldl_nil]
          rw [← satOf_now hs t]
          simp only [satOf_eq]
          have e : timesOf i C.fleet.pending = timesOf i rest := by rw [hp]; simp [timesOf]
          rw [e]
    | wait dt =>
      simp only [Course.step] at h
      split at h
      · injection h with h; subst h; exact same rfl rfl rfl
      · rename_i hc
        rw [not_not] at hc
        have hl := hh.len
        rw [hc, List.count_nil, List.length_eq_zero_iff] at hl
        subst hl
        have hs : satOf C.fleet i = some s := hh.sat
        simp only [Fleet.step] at h
        obtain ⟨F, h1, h⟩ := Outcome.bind_eq_ok.mp h
        injection h with h
        subst h
        have adv : (∀ e ∈ C.fleet.pending, C.fleet.now + dt ≤ e.1) → F = { C.fleet with now := C.fleet.now + dt } →
            ∃ sops s' ops', s.exec sops = .ok s' ∧ Held ⟨F, []⟩ i s' ops' ∧
            setters (sops ++ ops') = setters ([] ++ (courseCall i (.op (.wait dt))).toList) ∧
            precs (sops ++ ops') = precs ([] ++ (courseCall i (.op (.wait dt))).toList) := by
          intro hall e
          subst e
          exact ⟨[.wait (C.fleet.now + dt - C.fleet.now)], _, [], sat_exec_one (sat_wait hs (Nat.le_add_right _ _) hall),
            ⟨satOf_now hs _, rfl, trivial⟩, rfl, rfl⟩
        split at h1
        · rename_i hp
          injection h1 with h1
          exact adv (by rw [hp]; intro e he; cases he) h1.symm
        · rename_i hp
          split at h1
          · rename_i hle
            injection h1 with h1
            exact adv (wait_le hi.fleet hp hle) h1.symm
          · injection h1 with h1; subst h1; exact same rfl hc.symm rfl

theorem course_exec_induct {junk : ℝ} {P : Course → Prop} (hstep : ∀ C o C', P C → C.step junk o = .ok C' → P C') {C C' : Course}
    {ops : List CourseOp} (h0 : P C) (h : C.exec junk ops = .ok C') : P C' := by
  induction ops generalizing C with
  | nil => injection h with h; exact h ▸ h0
  | cons o ops ih =>
    rw [Course.exec] at h
    obtain ⟨C1, h1, h2⟩ := Outcome.bind_eq_ok.mp h
    exact ih (hstep _ _ _ h0 h1) h2

theorem course_exec_append {junk : ℝ} {C : Course} {o1 o2 : List CourseOp} :
    C.exec junk (o1 ++ o2) = C.exec junk o1 >>= fun C' => C'.exec junk o2 := by
  induction o1 generalizing C with
  | nil => rfl
  | cons o os ih =>
    simp only [List.cons_append, Course.exec]
    cases C.step junk o with
    | fail e => rfl
    | ok C1 => simp only [Outcome.ok_bind]; exact ih

/-- A whole history. -/
theorem held_exec {junk : ℝ} {i : Nat} {cops : List CourseOp} : ∀ {C C' : Course} {s : Sat} {ops : List SatOp}, CourseInv C →
    C.exec junk cops = .ok C' → Held C i s ops →
    ∃ sops s' ops', s.exec sops = .ok s' ∧ Held C' i s' ops' ∧
      setters (sops ++ ops') = setters (ops ++ cops.filterMap (courseCall i)) ∧
      precs (sops ++ ops') = precs (ops ++ cops.filterMap (courseCall i)) := by
  induction cops with
  | nil =>
    intro C C' s ops _ h hh
    injection h with h
    subst h
    exact ⟨[], s, ops, rfl, hh, by simp, by simp⟩
  | cons o os ih =>
    intro C C' s ops hi h hh
    rw [Course.exec] at h
    obtain ⟨C1, h1, h2⟩ := Outcome.bind_eq_ok.mp h
    obtain ⟨a, s1, p1, ha, hh1, f1, g1⟩ := held_step hi h1 hh
    obtain ⟨b, s2, p2, hb, hh2, f2, g2⟩ := ih (courseInv_step hi h1) h2 hh1
    have e : (o :: os).filterMap (courseCall i) = (courseCall i o).toList ++ os.filterMap (courseCall i) := by
      rw [List.filterMap_cons]
      cases courseCall i o <;> rfl
    refine ⟨a ++ b, s2, p2, by rw [sat_exec_append, ha, Outcome.ok_bind, hb], hh2, ?_, ?_⟩
    · rw [List.append_assoc, setters_append, f2, ← setters_append, ← List.append_assoc, setters_append, f1, ← setters_append, e,
        List.append_assoc]
    · rw [List.append_assoc, precs_append, g2, ← precs_append, ← List.append_assoc, precs_append, g1, ← precs_append, e,
        List.append_assoc]

end Verif
