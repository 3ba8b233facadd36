import Mathlib.Analysis.SpecialFunctions.Trigonometric.Deriv
import Mathlib.Analysis.SpecialFunctions.Trigonometric.Basic
import Mathlib.Analysis.Real.Sqrt
import Verif.Base
/-!
# Geometry of `LeoCircularOrbitMobilityModel` (model/leo-circular-orbit-mobility-model.cc)

`double` is idealised by the real numbers: no rounding, no infinities, no NaN.
-/

namespace Verif
open Real

/-- `ns3::Vector3D` (ns-3 core). -/
@[ext] structure Vec where
  x : ℝ
  y : ℝ
  z : ℝ

/-- `operator+ (Vector3D, Vector3D)` (ns-3 core). -/
instance : Add Vec := ⟨fun l r => ⟨l.x + r.x, l.y + r.y, l.z + r.z⟩⟩
/-- `operator- (Vector3D, Vector3D)` (ns-3 core). -/
instance : Sub Vec := ⟨fun l r => ⟨l.x - r.x, l.y - r.y, l.z - r.z⟩⟩

/-- `Vector3D::GetLength` (ns-3 core). -/
noncomputable def Vec.len (v : Vec) : ℝ := √(v.x * v.x + v.y * v.y + v.z * v.z)

/-- `CrossProduct`, lines 70-76. -/
def cross (l r : Vec) : Vec :=
  ⟨l.y * r.z - l.z * r.y, l.z * r.x - l.x * r.z, l.x * r.y - l.y * r.x⟩

/-- `Product`, lines 78-84. -/
def smul (l : ℝ) (r : Vec) : Vec := ⟨l * r.x, l * r.y, l * r.z⟩

/-- `DotProduct`, lines 86-90. -/
def dot (l r : Vec) : ℝ := l.x * r.x + l.y * r.y + l.z * r.z

/-- `LEO_EARTH_RAD_KM`, model/leo-circular-orbit-mobility-model.h:35. -/
noncomputable def earthRadKm : ℝ := 6371.0090
/-- `LEO_EARTH_GM_KM_E10`, model/leo-circular-orbit-mobility-model.h:36. -/
noncomputable def earthGm : ℝ := 39.8600436

/-- The parameters of the model, model/leo-circular-orbit-mobility-model.h:94-109: `m_orbitHeight` (km
from the centre of the Earth), `m_inclination` (radians), `m_longitude`, `m_offset` (radians). -/
structure Orbit where
  height : ℝ
  incl : ℝ
  lon : ℝ
  off : ℝ

/-- Seconds of a time in nanoseconds: `Time::GetSeconds` (ns-3 core). -/
noncomputable def seconds (t : Time) : ℝ := (t : ℝ) / 1000000000

/-- `GetSpeed`, lines 92-96. -/
noncomputable def Orbit.speed (o : Orbit) : ℝ := √(earthGm / o.height) * 100000

/-- `CalcLatitude`, lines 140-144: `Now ().GetDouble ()` and `Hours (24).GetDouble ()` are both in
nanoseconds. -/
noncomputable def Orbit.latitude (o : Orbit) (now : Time) : ℝ :=
  o.lon + ((now : ℝ) / 86400000000000) * 2 * Real.pi

/-- `PlaneNorm`, lines 107-114. -/
noncomputable def Orbit.norm (o : Orbit) (now : Time) : Vec :=
  ⟨sin (-o.incl) * cos (o.latitude now), sin (-o.incl) * sin (o.latitude now), cos o.incl⟩

/-- `GetProgress`, lines 116-128. -/
noncomputable def Orbit.progress (o : Orbit) (t : Time) : ℝ :=
  let sign : ℝ := if o.incl > Real.pi / 2 then -1 else 1
  sign * ((o.speed * seconds t) / (earthRadKm * 1000)) + o.off

/-- `RotatePlane`, lines 130-138; `n` is `PlaneNorm ()`. -/
noncomputable def rotatePlane (n : Vec) (a : ℝ) (x : Vec) : Vec :=
  smul (dot n x) n + smul (cos a) (cross (cross n x) n) + smul (sin a) (cross n x)

/-- `CalcPosition`, lines 146-156.  The code always passes `Simulator::Now ()` as `t`; so does the model. -/
noncomputable def Orbit.position (o : Orbit) (now : Time) : Vec :=
  let lat := o.latitude now
  let x := smul (o.height * 1000) ⟨cos o.incl * cos lat, cos o.incl * sin lat, sin o.incl⟩
  rotatePlane (o.norm now) (o.progress now) x

/-- `DoGetVelocity`, lines 98-105, for the position `pos` that `DoGetPosition` returned. -/
noncomputable def Orbit.velocity (o : Orbit) (now : Time) (pos : Vec) : Vec :=
  smul o.speed (cross (o.norm now) ⟨pos.x / pos.len, pos.y / pos.len, pos.z / pos.len⟩)

end Verif
