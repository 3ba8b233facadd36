import Verif.Model.Fleet
/-!
# What the tracing program should print (C89), and satellites on their own (C90)
-/

namespace Verif
namespace Spec
open Real

/-- The satellites of a list of orbits, in the order of their installation: orbit, number of the plane, number in the plane. -/
def places (os : List OrbitRec) : List (OrbitRec × Nat × Nat) :=
  os.flatMap fun o => (List.range o.planes).flatMap fun p => (List.range o.sats).map fun k => (o, p, k)

/-- Radius of the orbit in metres. -/
noncomputable def radius (o : OrbitRec) : ℝ := (6371.009 + o.alt) * 1000

/-- Speed on the orbit in metres per second: its square is the gravitational parameter of the Earth divided by the radius. -/
noncomputable def orbitSpeed (o : OrbitRec) : ℝ := √(398600.436e9 / radius o)

/-- Position of the satellite number `k` of plane `p` after `t` seconds.  `lam` is where the plane is (it turns with the
Earth, once in 86400 seconds), `th` the angle from its northernmost point; beyond 90 degrees of inclination
satellites go the other way. -/
noncomputable def track (o : OrbitRec) (p k : Nat) (t : ℝ) : Vec :=
  let i := o.inc * (Real.pi / 180)
  let lam := 2 * Real.pi * p / o.planes + 2 * Real.pi * t / 86400
  let th := 2 * Real.pi * k / o.sats + (if o.inc ≤ 90 then 1 else -1) * (orbitSpeed o * t / 6371009)
  ⟨radius o * (cos th * cos i * cos lam - sin th * sin lam), radius o * (cos th * cos i * sin lam + sin th * cos lam),
    radius o * (cos th * sin i)⟩

/-- The times of samples: the multiples of the precision before the end, and the first one also if it is the end. -/
def sampleTimes (prec duration : Nat) : List Nat :=
  ((List.range duration).map fun j => (j + 1) * prec).filter fun t => decide (t < duration ∨ t = duration ∧ t = prec)

/-- What is to be printed at one time: a line for every satellite. -/
noncomputable def sample (os : List OrbitRec) (t : Nat) : List TrackLine :=
  (places os).mapIdx fun i x => ⟨t, i, track x.1 x.2.1 x.2.2 (t / 1000000000), orbitSpeed x.1⟩

/-- The whole trace. -/
noncomputable def trace (prec duration : Nat) (os : List OrbitRec) : List TrackLine :=
  (sampleTimes prec duration).flatMap (sample os)

/-- Orbits that can be installed and have a positive radius. -/
def Installable (o : OrbitRec) : Prop :=
  0 < o.planes ∧ 0 < o.sats ∧ o.planes * o.sats ≤ 2147483647 ∧ o.inc ≠ 0 ∧ -6371.009 < o.alt

/-- What a fleet is for its node `i`: a satellite with its own events and notifications only. -/
def satOf (F : Fleet) (i : Nat) : Option Sat :=
  (F.mobs[i]?).map fun m => ⟨m.orbit, m.pos, m.prec, F.now,
    F.pending.filterMap fun e => if e.2 = .update i then some e.1 else none,
    F.log.filterMap fun e => if e.2 = i then some e.1 else none⟩

/-- The call of a setter of node `i`, as a call on a satellite on its own. -/
def callOf (i : Nat) : FleetOp → Option SatOp
  | .setPosition j v => if j = i then some (.setPosition v) else none
  | .setAltitude j h => if j = i then some (.setAltitude h) else none
  | .setInclination j x => if j = i then some (.setInclination x) else none
  | .setPrecision j p => if j = i then some (.setPrecision p) else none
  | _ => none

/-- Calls of setters, as opposed to events and time passing. -/
def isSetterCall : SatOp → Bool
  | .run => false
  | .wait _ => false
  | _ => true

end Spec
end Verif
