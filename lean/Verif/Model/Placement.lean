import Verif.Model.OrbitSched
/-!
# Position allocators and the placement of nodes
(model/leo-circular-orbit-position-allocator.cc, model/leo-polar-position-allocator.cc,
helper/ground-node-helper.cc, helper/leo-orbit-node-helper.cc)

Positions are `Option Vec`: `none` stands for a vector with a NaN coordinate.
-/

namespace Verif
open Real

/-- `n` calls in a row of a member function that returns a value and changes the object, as
`MobilityHelper::Install (NodeContainer)` does with `PositionAllocator::GetNext` (ns-3 core). -/
def takeN {α σ : Type} (next : σ → Outcome (α × σ)) : Nat → σ → Outcome (List α × σ)
  | 0, s => .ok ([], s)
  | n + 1, s => next s >>= fun r => takeN next n r.2 >>= fun q => .ok (r.1 :: q.1, q.2)

/-- `LeoCircularOrbitAllocator`, members of model/leo-circular-orbit-position-allocator.h:65-72.  The counters are
`uint64_t`; they stay below `sats` and `orbits`, which are `uint16_t` by their checkers, so they do not wrap. -/
structure CircAlloc where
  orbits : Nat
  sats : Nat
  lastOrbit : Nat
  lastSat : Nat

/-- Constructor and attributes, lines 28-30 and 42-51. -/
def CircAlloc.create (orbits sats : Nat) : CircAlloc := ⟨orbits, sats, 0, 0⟩

/-- `GetNext`, lines 62-76.  A coordinate is 0/0 when there are no orbits or no satellites; the remainders of lines
71 and 73 are undefined then. -/
noncomputable def CircAlloc.next (a : CircAlloc) : Outcome (Option Vec × CircAlloc) :=
  let next : Option Vec :=
    if a.orbits = 0 ∨ a.sats = 0 then none
    else some ⟨2 * Real.pi * (a.lastOrbit / a.orbits), 2 * Real.pi * (a.lastSat / a.sats), 0⟩
  if a.sats = 0 then .fail .divByZero
  else if a.lastSat + 1 = a.sats then
    if a.orbits = 0 then .fail .divByZero
    else .ok (next, { a with lastOrbit := (a.lastOrbit + 1) % a.orbits, lastSat := (a.lastSat + 1) % a.sats })
  else .ok (next, { a with lastSat := (a.lastSat + 1) % a.sats })

/-- `LEO_GND_RAD_EARTH`, model/leo-polar-position-allocator.h:24. -/
noncomputable def gndRad : ℝ := 6.371e6

/-- `LeoPolarPositionAllocator`, members of model/leo-polar-position-allocator.h:58-65, all `uint32_t`. -/
structure PolarAlloc where
  latNum : Nat
  lonNum : Nat
  lat : Nat
  lon : Nat

/-- Constructor and attributes, lines 33-35 and 47-56. -/
def PolarAlloc.create (latNum lonNum : Nat) : PolarAlloc := ⟨latNum, lonNum, 0, 0⟩

/-- `GetNext`, lines 69-90.  With `latNum` or `lonNum` zero a factor is infinite and a coordinate 0 times
infinity.  The counters wrap at 2^32. -/
noncomputable def PolarAlloc.next (a : PolarAlloc) : Outcome (Option Vec × PolarAlloc) :=
  let lat : ℝ := a.lat * (Real.pi / a.latNum)
  let lon : ℝ := a.lon * (2 * Real.pi / a.lonNum)
  let next : Option Vec :=
    if a.latNum = 0 ∨ a.lonNum = 0 then none
    else some ⟨gndRad * sin lat * cos lon, gndRad * sin lat * sin lon, gndRad * cos lat⟩
  let lat' := (a.lat + 1) % 2 ^ 32
  if lat' > a.latNum then
    if a.lonNum = 0 then .fail .divByZero
    else .ok (next, { a with lat := 0, lon := (a.lon + 1) % 2 ^ 32 % a.lonNum })
  else .ok (next, { a with lat := lat' })

/-- `LeoGndNodeHelper::Install (uint32_t, uint32_t)`, helper/ground-node-helper.cc:79-96: the positions of the nodes.
The product of line 83 is a product of `uint32_t`. -/
noncomputable def gridInstall (latNodes lonNodes : Nat) : Outcome (List (Option Vec)) :=
  takeN PolarAlloc.next (lonNodes * latNodes % 2 ^ 32) (PolarAlloc.create latNodes lonNodes) >>= fun r => .ok r.1

/-- `LeoLatLong`, model/leo-lat-long.h, with real coordinates. -/
structure LatLong where
  latitude : ℝ
  longitude : ℝ

/-- `LeoGndNodeHelper::GetEarthPosition`, helper/ground-node-helper.cc:98-107. -/
noncomputable def earthPosition (l : LatLong) : Vec :=
  let lat := l.latitude * (Real.pi / 90)
  let lon := l.longitude * (Real.pi / 180)
  ⟨gndRad * sin lat * cos lon, gndRad * sin lat * sin lon, gndRad * cos lat⟩

/-- `LeoGndNodeHelper::Install (LeoLatLong, LeoLatLong)`, helper/ground-node-helper.cc:109-131: the positions. -/
noncomputable def gndInstallPair (l1 l2 : LatLong) : List Vec := [l1, l2].map earthPosition

/-- `LeoOrbit`, model/leo-orbit.h, with real altitude and inclination; `planes` and `sats` are `uint16_t`. -/
structure OrbitRec where
  alt : ℝ
  inc : ℝ
  planes : Nat
  sats : Nat

/-- Default of the `Precision` attribute, model/leo-circular-orbit-mobility-model.cc:53: one second. -/
def defaultPrecision : Int := 1000000000

/-- One round of `MobilityHelper::Install` (ns-3 core) in `LeoOrbitNodeHelper::Install (LeoOrbit)`: create the mobility
model, ask the allocator for a position and set it.  A NaN position does not occur: nodes exist only if there are
planes and satellites. -/
noncomputable def placeSat (junk : ℝ) (now : Time) (o : OrbitRec) (a : CircAlloc) : Outcome (Sat × CircAlloc) :=
  Sat.create junk now o.alt o.inc defaultPrecision >>= fun s =>
    a.next >>= fun r => .ok (s.setPosition (r.1.getD ⟨0, 0, 0⟩), r.2)

/-- `LeoOrbitNodeHelper::Install (LeoOrbit)`, helper/leo-orbit-node-helper.cc:52-70.  The product of line 66 is an
`int` product of two `uint16_t`. -/
noncomputable def orbitInstall (junk : ℝ) (now : Time) (o : OrbitRec) : Outcome (List Sat) :=
  if o.sats * o.planes > 2147483647 then .fail .signedOverflow
  else takeN (placeSat junk now o) (o.sats * o.planes) (CircAlloc.create o.planes o.sats) >>= fun r => .ok r.1

/-- `LeoOrbitNodeHelper::Install (vector<LeoOrbit>)`, helper/leo-orbit-node-helper.cc:93-108. -/
noncomputable def orbitsInstall (junk : ℝ) (now : Time) : List OrbitRec → Outcome (List Sat)
  | [] => .ok []
  | o :: os => orbitInstall junk now o >>= fun l => orbitsInstall junk now os >>= fun ls => .ok (l ++ ls)

end Verif
