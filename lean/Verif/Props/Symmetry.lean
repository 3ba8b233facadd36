import Verif.Lemmas.Symmetry
import Verif.Props.Placement
import Verif.Demo
import Mathlib.Logic.Equiv.Basic
/-!
# Names, the origin of time and the frame of reference do not matter: C115
-/

namespace Verif
open Real Spec

/-- **C115**: if all devices and channels get other names, all devices other nodes and the clock another origin, and every call is
made for the objects with the new names, then the outcome (also a fault) is the one of the calls before the change in the
environment seen through the change, with the new names and times. -/
theorem C115_runs (R : Recast) (E : Env) (s : Sys) (ops : List Op) :
    exec E (R.onSys s) (ops.map R.onOp) = (exec (R.envSeen E) s ops).mapOk R.onSys := R.exec ops s

/-- **C115** for links over moving nodes: what is seen of their environment is the environment of the positions seen. -/
theorem C115_sky (R : Recast) (K : Sky) (E : Env) : R.envSeen (K.env E) = (R.skySeen K).env (R.envSeen E) := by
  unfold Recast.envSeen Sky.env Recast.skySeen
  simp only [Option.map_some, Env.mk.injEq, and_true]
  refine ⟨by funext n; cases K.pos (R.node n) <;> rfl, ?_, ?_⟩
  · funext c
    congr 1
    funext tx a b t
    cases K.pos (R.node a) <;> cases K.pos (R.node b) <;> rfl
  · funext c
    congr 1
    funext a b t
    cases K.pos (R.node a) <;> cases K.pos (R.node b) <;> rfl

/-- **C115**: nothing depends on the frame of reference: turning or mirroring all positions around the centre of the Earth, at each
time in another way, changes no reachability, no received power and no delay. -/
theorem C115_frame {T : Time → Vec → Vec} (hT : ∀ t, Frame (T t)) (K : Sky) (E : Env) : (inFrame T K).env E = K.env E := by
  unfold inFrame Sky.env
  simp only [Env.mk.injEq, and_true]
  refine ⟨by funext n; cases K.pos n <;> rfl, ?_, ?_⟩
  · funext c
    congr 1
    funext tx a b t
    cases K.pos a with
    | none => cases K.pos b <;> rfl
    | some p =>
      cases K.pos b with
      | none => rfl
      | some q => exact (hT t).loss _ _ _ _
  · funext c
    congr 1
    funext a b t
    cases K.pos a with
    | none => cases K.pos b <;> rfl
    | some p =>
      cases K.pos b with
      | none => rfl
      | some q => simp only [Option.map_some, (hT t).dist]

/-- **C115**: links are the same in both directions: power and delay between two nodes do not depend on which of them sends. -/
theorem C115_mutual (K : Sky) (E : Env) (c : ChanId) : ∃ l g, (K.env E).loss c = some l ∧ (K.env E).delay c = some g ∧
    ∀ tx a b t, l tx a b t = l tx b a t ∧ g a b t = g b a t := by
  refine ⟨_, _, rfl, rfl, fun tx a b t => ?_⟩
  cases K.pos a with
  | none => cases K.pos b <;> exact ⟨rfl, rfl⟩
  | some p =>
    cases K.pos b with
    | none => exact ⟨rfl, rfl⟩
    | some q =>
      simp only
      refine ⟨?_, by rw [dist_comm']⟩
      unfold Sky.loss
      cases K.budget c with
      | none => simp only [(C49_symmetric (p t) (q t) 0).1]
      | some m =>
        simp only [dist_comm' (p t) (q t)]
        have : (LeoLoss.create m.elev m.atm m.fspl m.margin).cutoff (if (p t).len > (q t).len then p t else q t) =
            (LeoLoss.create m.elev m.atm m.fspl m.margin).cutoff (if (q t).len > (p t).len then q t else p t) := by
          apply cutoff_len
          rcases lt_trichotomy (p t).len (q t).len with h | h | h
          · rw [if_neg h.not_gt, if_pos h]
          · rw [if_neg h.ge.not_gt, if_neg h.le.not_gt, h]
          · rw [if_pos h, if_neg h.not_gt]
        rw [this]

/-- **C115** for networks of satellites only: the longitude from which the planes are counted has no influence: all longitudes may
be changed by one angle. -/
theorem C115_longitude {q : Time → Time} {orbit orbit' : NodeId → Option Orbit} {α : ℝ} (K : Sky) (E : Env)
    (h : ∀ n, orbit' n = (orbit n).map fun o => { o with lon := o.lon + α }) :
    (satellitesOnly q orbit' K).env E = (satellitesOnly q orbit K).env E := by
  rw [← C115_frame (T := fun _ => turn α) (fun _ => turn_frame α) (satellitesOnly q orbit K)]
  congr 1
  unfold inFrame satellitesOnly
  simp only [Sky.mk.injEq, and_true]
  funext n
  rw [h n]
  cases orbit n with
  | none => rfl
  | some o =>
    simp only [Option.map_some, Option.some.injEq]
    funext t
    exact position_of rfl rfl (by unfold Orbit.latitude; ring) rfl

/-- **C115** for networks of satellites only: everything that happens to a network that starts `dt` later happens to one that starts
at once with satellites that are ahead in their planes by the angle they move in `dt`; that the Earth turns meanwhile is
immaterial.  `dt` is a multiple of the interval of the updates. -/
theorem C115_later {R : Recast} {q : Time → Time} {orbit : NodeId → Option Orbit} {K : Sky} {E : Env}
    (hq : ∀ t, q (t + R.dt) = q t + R.dt) (s : Sys) (ops : List Op) (hc : K.budget ∘ R.chan = K.budget) :
    exec ((satellitesOnly q orbit K).env E) (R.onSys s) (ops.map R.onOp) =
      (exec ((satellitesOnly q (fun n => (orbit (R.node n)).map (advanced R.dt)) K).env (R.envSeen E)) s ops).mapOk R.onSys := by
  rw [C115_runs, C115_sky]
  congr 2
  rw [← C115_frame (T := fun _ => turn ((R.dt : ℝ) / 86400000000000 * 2 * Real.pi)) (fun _ => turn_frame _) (satellitesOnly q _ K)]
  congr 1
  unfold inFrame satellitesOnly Recast.skySeen
  simp only [Sky.mk.injEq, and_true]
  refine ⟨?_, hc⟩
  funext n
  cases orbit (R.node n) with
  | none => rfl
  | some o =>
    simp only [Option.map_some, Option.some.injEq]
    funext t
    rw [hq]
    refine position_of (o := advanced R.dt o) (o' := o) rfl rfl ?_ ?_
    · unfold Orbit.latitude advanced
      push_cast
      ring
    · unfold Orbit.progress advanced Orbit.speed seconds
      push_cast
      ring

/-- The satellites of an evenly spread constellation in the next plane are the satellites turned by the angle between planes. -/
theorem evenly_next {P S : ℕ} {h i : ℝ} (hP : 0 < P) (hS : 0 < S) (n : ℕ) (t : Time) :
    (evenly P S h i (nextPlane P S n)).map (fun o => o.position t) =
      (evenly P S h i n).map fun o => turn (2 * Real.pi / P) (o.position t) := by
  have hP' : (P : ℝ) ≠ 0 := by exact_mod_cast hP.ne'
  have hPS : 0 < P * S := Nat.mul_pos hP hS
  by_cases hn : n < P * S
  · have hm : nextPlane P S n < P * S := by
      unfold nextPlane
      rw [if_pos hn]
      exact Nat.mod_lt _ hPS
    unfold evenly
    rw [if_pos hn, if_pos hm]
    simp only [Option.map_some, Option.some.injEq]
    have hrow : n / S < P := Nat.div_lt_of_lt_mul (by rw [Nat.mul_comm]; exact hn)
    by_cases hw : n + S < P * S
    · have e : nextPlane P S n = n + S := by unfold nextPlane; rw [if_pos hn, Nat.mod_eq_of_lt hw]
      rw [e, Nat.add_div_right _ hS, Nat.add_mod_right]
      refine position_of (o := ⟨h, i, 2 * Real.pi * ((n / S : ℕ) / (P : ℝ)), 2 * Real.pi * ((n % S : ℕ) / (S : ℝ))⟩)
        (o' := ⟨h, i, 2 * Real.pi * ((n / S + 1 : ℕ) / (P : ℝ)), 2 * Real.pi * ((n % S : ℕ) / (S : ℝ))⟩) rfl rfl ?_ ?_
      · unfold Orbit.latitude
        push_cast
        field_simp
        ring
      · unfold Orbit.progress Orbit.speed; rfl
    · have hk : n + S = nextPlane P S n + P * S := by
        unfold nextPlane
        rw [if_pos hn, Nat.mod_eq_sub_mod (by omega), Nat.mod_eq_of_lt]
        · omega
        · have : S ≤ P * S := Nat.le_mul_of_pos_left _ hP
          omega
      have h1 : nextPlane P S n / S + P = n / S + 1 := by
        rw [← Nat.add_div_right _ hS, hk, Nat.add_mul_div_right _ _ hS]
      have h2 : nextPlane P S n % S = n % S := by
        rw [← Nat.add_mod_right n, hk, Nat.add_mul_mod_self_right]
      rw [h2]
      have h1' : ((nextPlane P S n / S : ℕ) : ℝ) + P = (n / S : ℕ) + 1 := by exact_mod_cast h1
      rw [← position_turns (k := 1) (o := ⟨h, i, 2 * Real.pi * ((nextPlane P S n / S : ℕ) / (P : ℝ)), 2 * Real.pi * ((n % S : ℕ) / (S : ℝ))⟩)
        (o' := ⟨h, i, 2 * Real.pi * (((n / S : ℕ) + 1) / (P : ℝ)), 2 * Real.pi * ((n % S : ℕ) / (S : ℝ))⟩) rfl rfl rfl]
      · refine position_of (o := ⟨h, i, 2 * Real.pi * ((n / S : ℕ) / (P : ℝ)), 2 * Real.pi * ((n % S : ℕ) / (S : ℝ))⟩)
          (o' := ⟨h, i, 2 * Real.pi * (((n / S : ℕ) + 1) / (P : ℝ)), 2 * Real.pi * ((n % S : ℕ) / (S : ℝ))⟩) rfl rfl ?_ ?_
        · unfold Orbit.latitude
          field_simp
          ring
        · unfold Orbit.progress Orbit.speed; rfl
      · rw [← h1']
        push_cast
        field_simp
  · have hm : nextPlane P S n = n := by unfold nextPlane; rw [if_neg hn]
    unfold evenly
    rw [hm, if_neg hn]
    rfl

/-- What `LeoOrbitNodeHelper::Install` installs is evenly spread. -/
theorem C115_installed {junk : ℝ} {now : Time} {o : OrbitRec} (hp : 0 < o.planes) (hs : 0 < o.sats)
    (hn : o.planes * o.sats ≤ 2147483647) (hi : o.inc ≠ 0) :
    ∃ l, orbitInstall junk now o = .ok l ∧
      ∀ n, (l[n]?).map (·.orbit) = evenly o.planes o.sats (earthRadKm + o.alt) (o.inc / 180 * Real.pi) n := by
  obtain ⟨s0, hc⟩ : ∃ s0, Sat.create junk now o.alt o.inc defaultPrecision = .ok s0 := ⟨_, create_eq _ _ _ _ _ hi⟩
  rw [Nat.mul_comm] at hn
  refine ⟨_, orbitInstall_eq hp hs hn hc, fun n => ?_⟩
  obtain ⟨c1, c2, _⟩ := C37_construction hc
  unfold evenly
  by_cases h : n < o.planes * o.sats
  · have hrow : n / o.sats < o.planes := Nat.div_lt_of_lt_mul (by rw [Nat.mul_comm]; exact h)
    have h' : n < o.sats * o.planes := by rw [Nat.mul_comm]; exact h
    rw [if_pos h, List.getElem?_map, List.getElem?_range h']
    simp only [Option.map_some, Option.some.injEq]
    have a1 : s0.orbit.height = earthRadKm + o.alt := by unfold Sat.getAltitude at c1; linarith
    have a2 : s0.orbit.incl = o.inc / 180 * Real.pi := by
      unfold Sat.getInclination at c2
      have := Real.pi_ne_zero
      rw [← c2]
      field_simp
    rw [Nat.mod_eq_of_lt hrow]
    show (⟨s0.orbit.height, s0.orbit.incl, _, _⟩ : Orbit) = _
    rw [a1, a2]
    simp only [Spec.slot, mul_div_assoc]
  · have h' : ¬ n < o.sats * o.planes := by rw [Nat.mul_comm]; exact h
    rw [if_neg h, List.getElem?_eq_none (by simp only [List.length_map, List.length_range]; exact Nat.le_of_not_lt h')]
    rfl

/-- **C115** for an installed constellation: all planes are alike.  Whatever is done with satellites of some planes, the same happens
if it is done with the satellites of the next planes instead. -/
theorem C115_planes {R : Recast} {q : Time → Time} {junk : ℝ} {now : Time} {o : OrbitRec} {l : List Sat} {K : Sky} {E : Env}
    (hp : 0 < o.planes) (hs : 0 < o.sats) (hn : o.planes * o.sats ≤ 2147483647) (hi : o.inc ≠ 0)
    (hl : orbitInstall junk now o = .ok l) (hR : R.node = nextPlane o.planes o.sats) (ht : R.dt = 0)
    (hc : K.budget ∘ R.chan = K.budget) (s : Sys) (ops : List Op) :
    exec ((satellitesOnly q (fun n => (l[n]?).map (·.orbit)) K).env E) (R.onSys s) (ops.map R.onOp) =
      (exec ((satellitesOnly q (fun n => (l[n]?).map (·.orbit)) K).env (R.envSeen E)) s ops).mapOk R.onSys := by
  obtain ⟨l', hl', he⟩ := C115_installed (junk := junk) (now := now) hp hs hn hi
  obtain rfl := Outcome.ok.inj (hl.symm.trans hl')
  rw [C115_runs, C115_sky]
  congr 2
  rw [← C115_frame (T := fun _ => turn (2 * Real.pi / o.planes)) (fun _ => turn_frame _) (satellitesOnly q _ K)]
  congr 1
  unfold inFrame satellitesOnly Recast.skySeen
  simp only [Sky.mk.injEq, and_true]
  refine ⟨?_, hc⟩
  funext n
  simp only [hR, ht, Nat.add_zero, he]
  have key := evenly_next (h := earthRadKm + o.alt) (i := o.inc / 180 * Real.pi) hp hs n
  generalize evenly o.planes o.sats (earthRadKm + o.alt) (o.inc / 180 * Real.pi) (nextPlane o.planes o.sats n) = x at *
  generalize evenly o.planes o.sats (earthRadKm + o.alt) (o.inc / 180 * Real.pi) n = y at *
  cases x with
  | none =>
    cases y with
    | none => rfl
    | some y => exact absurd (key 0) (by simp)
  | some x =>
    cases y with
    | none => exact absurd (key 0) (by simp)
    | some y =>
      simp only [Option.map_some, Option.some.injEq] at key ⊢
      funext t
      exact key (q t)

/-- Devices 0 and 1 exchanged, the clock ahead by 7. -/
def swapped : Recast := ⟨7, id, Equiv.swap 0 1, Equiv.refl _⟩

/-- A run with a delivery in the system with exchanged names. -/
example : ∃ s, exec Demo.env Demo.sys [.attach 0 1, .attach 1 1, .send 0 [1] (.mac (Demo.mac 2)) 1, .run, .run] = .ok s ∧
    exec Demo.env (swapped.onSys Demo.sys) [.attach 1 1, .attach 0 1, .send 1 [1] (.mac (Demo.mac 2)) 1, .run, .run] = .ok (swapped.onSys s) ∧
    (∃ t, (t, Ev.rxCallback 1 [1] 1 (Demo.mac 1)) ∈ s.log) := by
  obtain ⟨s, hs, ht⟩ := Demo.exists_of_check (E := Demo.env) (s := Demo.sys)
    (ops := [.attach 0 1, .attach 1 1, .send 0 [1] (.mac (Demo.mac 2)) 1, .run, .run])
    (test := fun s => s.log.any fun e => decide (e.2 = Ev.rxCallback 1 [1] 1 (Demo.mac 1))) (by decide +kernel)
  refine ⟨s, hs, ?_, ?_⟩
  · have h := C115_runs swapped Demo.env Demo.sys [.attach 0 1, .attach 1 1, .send 0 [1] (.mac (Demo.mac 2)) 1, .run, .run]
    have e : swapped.envSeen Demo.env = Demo.env := rfl
    rw [e, hs] at h
    simpa [Recast.onOp, swapped, Outcome.mapOk] using h
  · rw [List.any_eq_true] at ht
    obtain ⟨⟨t, e⟩, he, hm⟩ := ht
    obtain rfl := of_decide_eq_true hm
    exact ⟨t, he⟩

/-- The shipped constellations have planes to change. -/
example : nextPlane 72 22 3 = 25 ∧ nextPlane 72 22 1580 = 18 := by decide +kernel

/-- A start one hour later, as in `C115_later`, with updates every second. -/
example : ∀ t : ℕ, (t + 3600000000000) / 1000000000 * 1000000000 = t / 1000000000 * 1000000000 + 3600000000000 := by omega

end Verif
