import Verif.Spec.Fleet
import Verif.Spec.ExampleRoute
/-!
# The mesh of a constellation (C108)
-/

namespace Verif.Spec
open Real

/-- The satellite of slot `k` of plane `p` has the four neighbours `k ± 1` in its plane and slot `k` of the planes `p ± 1`. -/
def Adjacent (x y : Nat × Nat) : Prop :=
  (x.1 = y.1 ∧ (x.2 + 1 = y.2 ∨ y.2 + 1 = x.2)) ∨ (x.2 = y.2 ∧ (x.1 + 1 = y.1 ∨ y.1 + 1 = x.1))

/-- Steps between two slots of the grid of planes and slots, without going around. -/
def gridDist (x y : Nat × Nat) : Nat := (x.1 - y.1) + (y.1 - x.1) + ((x.2 - y.2) + (y.2 - x.2))

/-- The constellation is tight enough for neighbours to see each other although their positions may be off by `m` metres in all: they
are further apart than that, nearer than `W`, and `W` is less than twice the way to the horizon. -/
structure Meshed (o : OrbitRec) (m W : ℝ) : Prop where
  ringLo : m < 2 * radius o * sin (Real.pi / o.sats)
  ringHi : 2 * radius o * sin (Real.pi / o.sats) + m ≤ W
  planeLo : m < 2 * radius o * sin (Real.pi / o.planes) * |cos (rad o.inc)|
  planeHi : 2 * radius o * sin (Real.pi / o.planes) + m ≤ W
  horizon : W ^ 2 < 4 * (radius o ^ 2 - islEarthRad ^ 2)

/-- How far a satellite of the orbit moves per second at most, in the coordinates the model reports. -/
noncomputable def groundRate (o : OrbitRec) : ℝ := radius o * (orbitSpeed o / 6371009 + 2 * Real.pi / 86400)

/-- The forwarding code passes packets on as they are, and only on devices of the node that received them. -/
def PassesOn (s : Sys) (R : Forwarder) : Prop :=
  ∀ x p proto sa d p' dest proto', R x p proto sa = some (d, p', dest, proto') →
    p' = p ∧ proto' = proto ∧ dest ≠ .other ∧ ∃ n, (s.dev x).node = some n ∧ (s.dev d).node = some n

end Verif.Spec
