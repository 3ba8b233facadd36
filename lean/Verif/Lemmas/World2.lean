import Verif.Lemmas.World
/-!
# Lemmas about network and satellites in one simulation (C109), continued
-/

namespace Verif
open Spec Real

/-- A satellite with precision `P` is where it was at a multiple of `P`, and its next update comes `P` later. -/
theorem flown_next {junk : ℝ} {a : ExampleArgs} {s : Sys} {X : ExampleNet} (h : exampleMain junk a s = .ok X)
    (ho : ∀ o ∈ a.orbits, Installable o) {P : Nat} (hP : a.prec = P) (hpos : 0 < P) {F : Fleet} (hF : Flown junk X F) {i : Nat} {o : OrbitRec}
    {p k : Nat} (hi : (places a.orbits)[i]? = some (o, p, k)) :
    ∃ m u, F.mobs[i]? = some m ∧ P ∣ u ∧ u ≤ F.now ∧ timesOf i F.pending = [u + P] ∧ m.getPosition F.now = track o p k (u / 1000000000) ∧
      m.prec = P := by
  obtain ⟨ops, hops, hex⟩ := hF.calls
  have hX := example_fleet h ho
  have halt : -6371.009 < o.alt := (ho o (places_orbit (List.mem_of_getElem? hi)).1).2.2.2.2
  have hlt : i < (places a.orbits).length := (List.getElem?_eq_some_iff.mp hi).1
  have hs0 : satOf X.fleet i = some ⟨orbitOf (o, p, k), (orbitOf (o, p, k)).position 0, a.prec, 0,
      timesOf i X.fleet.pending, notesOf i X.fleet.log⟩ := by
    rw [satOf_eq, hX]
    simp only [fleetOf, List.getElem?_map, hi, Option.map_some]
  obtain ⟨sops, s', e1, e2, e3⟩ := satOf_exec (by rw [hX]; exact fleetInv_fleetOf _) hex hs0
  have hset : ∀ x ∈ sops, isSetterCall x = false := by
    intro x hx
    have hnil : ops.filterMap (callOf i) = [] := by
      rw [List.filterMap_eq_nil_iff]
      exact fun op hop => hops op hop i
    rw [hnil, List.filter_eq_nil_iff] at e3
    simpa using e3 x hx
  rw [satOf_eq] at e2
  obtain ⟨m, hm, hs'⟩ := Option.map_eq_some_iff.mp e2
  obtain ⟨q1, q2, j, q3, q4, q5, q6⟩ := sat_periodic hpos (o := orbitOf (o, p, k)) hset e1
    ⟨rfl, hP, 0, by simp, by
      simp only [hX, fleetOf]
      rw [if_pos (by omega), times_range _ _ _ hlt, hP]
      simp, by simp, by simp⟩
  rw [← hs'] at q1 q2 q3 q4 q5 q6
  simp only at q2 q3 q4
  refine ⟨m, j * P, hm, Nat.dvd_mul_left _ _, q5, ?_, ?_, q2⟩
  · rw [q4, Nat.add_mul, Nat.one_mul]
  · unfold Mob.getPosition
    rw [if_neg (by rw [q2]; exact_mod_cast hpos.ne'), q3, track_eq halt]

/-- The last multiple of the precision. -/
def lastUpdate (P t : Nat) : Nat := if P = 0 then t else t / P * P

theorem reported_last (P t : Nat) : Reported P t (lastUpdate P t) := by
  unfold Reported lastUpdate
  split
  · rfl
  · rename_i h
    refine ⟨Nat.dvd_mul_left _ _, Nat.div_mul_le_self _ _, ?_⟩
    have := Nat.div_add_mod t P
    have h2 := Nat.mod_lt t (Nat.pos_of_ne_zero h)
    rw [Nat.mul_comm] at this
    omega

theorem last_unique {P t u : Nat} (h1 : P ∣ u) (h2 : u ≤ t) (h3 : t < u + P) : u = t / P * P := by
  obtain ⟨c, rfl⟩ := h1
  have hP : 0 < P := by omega
  have : t / P = c := by
    rw [Nat.div_eq_iff hP]
    rw [Nat.mul_comm P c] at h2 h3
    omega
  rw [this, Nat.mul_comm]

open Classical in
/-- The sky of a run: satellites are where the list says they were seen, and at other times where they were at the last multiple of the
precision. -/
noncomputable def skyWith (a : ExampleArgs) (X : ExampleNet) (v : ℝ) (r : ℝ → Time) (S : List (Time × List Vec)) : Sky where
  pos n := match (places a.orbits)[n]? with
    | some x => some fun t =>
      if h : ∃ l, (t, l) ∈ S then ((h.choose)[n]?).getD ⟨0, 0, 0⟩
      else track x.1 x.2.1 x.2.2 ((lastUpdate a.prec.toNat t : Nat) / 1000000000)
    | none => (X.ground[n - (places a.orbits).length]?).join.map fun v _ => v
  budget c := match X.build.lossOf c with
    | some (.leo l) => some ⟨l.elev, l.atm, l.fspl, l.margin⟩
    | _ => none
  speed := v
  ofSeconds := r

/-- Every entry of the list is what satellites of the program reported at one time. -/
def Witnessed (junk : ℝ) (X : ExampleNet) (S : List (Time × List Vec)) : Prop :=
  ∀ t l, (t, l) ∈ S → ∃ F, Flown junk X F ∧ F.now = t ∧ l = F.mobs.map fun m => m.getPosition t

theorem skyWith_of {junk : ℝ} {a : ExampleArgs} {s : Sys} {X : ExampleNet} (h : exampleMain junk a s = .ok X)
    (ho : ∀ o ∈ a.orbits, Installable o) (hprec : 0 ≤ a.prec) {S : List (Time × List Vec)} (hS : Witnessed junk X S) (v : ℝ) (r : ℝ → Time) :
    SkyOf a X (skyWith a X v r S) := by
  refine ⟨?_, ?_, ?_, ?_⟩
  · intro i o p k hi
    refine ⟨_, by simp only [skyWith, hi]; rfl, ?_⟩
    intro t
    by_cases hl : ∃ l, (t, l) ∈ S
    · simp only [hl, dif_pos]
      obtain ⟨F, hF, rfl, hlF⟩ := hS t _ hl.choose_spec
      obtain ⟨ops, hops, hex⟩ := hF.calls
      obtain ⟨m, u, hm, hu, hpos⟩ := C91_reported h ho hprec hops hex hi
      refine ⟨u, hu, ?_⟩
      rw [hlF, List.getElem?_map, hm]
      exact hpos
    · simp only [hl, dif_neg, not_false_eq_true]
      exact ⟨_, reported_last _ _, rfl⟩
  · intro j w hj
    have : (places a.orbits)[(places a.orbits).length + j]? = none := List.getElem?_eq_none (Nat.le_add_right _ _)
    simp only [skyWith, this, Nat.add_sub_cancel_left, hj, Option.join_some, Option.map_some]
  · intro c l hl
    simp only [skyWith, hl]
  · intro c hl
    simp only [skyWith, hl]

/-- The sky of a run agrees with the satellites at a time at which they were seen. -/
theorem skyWith_seen {a : ExampleArgs} {X : ExampleNet} {S : List (Time × List Vec)} (hst : SeenOnce S) {F : Fleet}
    (hlen : F.mobs.length = (places a.orbits).length) {t : Time} (hm : (t, F.mobs.map fun m => m.getPosition t) ∈ S) (v : ℝ) (r : ℝ → Time) :
    AgreeAt t (X.sky v r F) (skyWith a X v r S) := by
  refine ⟨fun n => ?_, rfl, rfl, rfl⟩
  simp only [ExampleNet.sky, skyWith]
  by_cases hn : n < (places a.orbits).length
  · have hn' : n < F.mobs.length := hlen ▸ hn
    rw [List.getElem?_eq_getElem hn', List.getElem?_eq_getElem hn]
    have hl : ∃ l, (t, l) ∈ S := ⟨_, hm⟩
    have e := hst t _ _ hl.choose_spec hm
    simp only [hl, dif_pos, e, Option.map_some, List.getElem?_map, List.getElem?_eq_getElem hn', Option.getD_some]
  · have e1 : F.mobs[n]? = none := List.getElem?_eq_none (hlen ▸ Nat.le_of_not_lt hn)
    have e2 : (places a.orbits)[n]? = none := List.getElem?_eq_none (Nat.le_of_not_lt hn)
    rw [e1, e2, hlen]

/-- Satellites whose updates up to a time are done are where they were at the last multiple of the precision. -/
theorem skyWith_drained {junk : ℝ} {a : ExampleArgs} {s : Sys} {X : ExampleNet} (h : exampleMain junk a s = .ok X)
    (ho : ∀ o ∈ a.orbits, Installable o) (hprec : 0 ≤ a.prec) {F : Fleet} (hF : Flown junk X F) {t : Time} (h1 : F.now ≤ t)
    (h2 : ∀ e ∈ F.pending, t < e.1) (v : ℝ) (r : ℝ → Time) : AgreeAt t (X.sky v r F) (skyWith a X v r []) := by
  have hfl := flight_of h ho hF
  have hF' := hF.now h1 fun e he => (h2 e he).le
  refine ⟨fun n => ?_, rfl, rfl, rfl⟩
  simp only [ExampleNet.sky, skyWith]
  by_cases hn : n < (places a.orbits).length
  · have hx := List.getElem?_eq_getElem hn
    obtain ⟨⟨o, p, k⟩, hi⟩ : ∃ x, (places a.orbits)[n]? = some x := ⟨_, hx⟩
    have : ¬ ∃ l, (t, l) ∈ ([] : List (Time × List Vec)) := by simp
    rw [hi]
    simp only [this, dif_neg, not_false_eq_true, Option.map_some]
    obtain ⟨P, hP⟩ := Int.eq_ofNat_of_zero_le hprec
    have hPn : a.prec.toNat = P := by rw [hP]; rfl
    rw [hPn]
    by_cases hP0 : P = 0
    · obtain ⟨ops, hops, hex⟩ := hF'.calls
      obtain ⟨m, u, hm, hu, hpos⟩ := C91_reported h ho hprec hops hex hi
      simp only at hm hpos hu
      rw [hm]
      simp only [Reported, hPn, hP0, if_true] at hu
      subst hu
      simp only [Option.map_some, hpos, hP0, lastUpdate, if_true]
    · obtain ⟨m, u, hm, u1, u2, u3, u4, _⟩ := flown_next h ho hP (Nat.pos_of_ne_zero hP0) hF' hi
      simp only at hm u2 u3 u4
      rw [hm]
      have hmem : u + P ∈ timesOf n F.pending := by rw [u3]; simp
      have hgt : t < u + P := by
        obtain ⟨e, he, he2⟩ := List.mem_filterMap.mp hmem
        split at he2
        · injection he2 with he2
          rw [← he2]
          exact h2 e he
        · cases he2
      have hu : u = lastUpdate P t := by
        unfold lastUpdate
        rw [if_neg hP0]
        exact last_unique u1 u2 hgt
      simp only [Option.map_some, u4, ← hu]
  · have e1 : F.mobs[n]? = none := List.getElem?_eq_none (hfl.len ▸ Nat.le_of_not_lt hn)
    have e2 : (places a.orbits)[n]? = none := List.getElem?_eq_none (Nat.le_of_not_lt hn)
    rw [e1, e2, hfl.len]

end Verif
