import Verif.Model.Orbit
/-!
# `LeoPropagationLossModel` and `IslPropagationLossModel`
(model/leo-propagation-loss-model.cc, model/isl-propagation-loss-model.cc)

`double` is idealised by the real numbers.  The models take the positions `GetPosition ()` returned.
-/

namespace Verif
open Real

/-- `LEO_PROP_EARTH_RAD`, model/leo-propagation-loss-model.h:25. -/
noncomputable def propEarthRad : ℝ := 6.37101e6

/-- Members of `LeoPropagationLossModel` (model/leo-propagation-loss-model.h): `m_elevationAngle` (radians),
`m_atmosphericLoss`, `m_freeSpacePathLoss`, `m_linkMargin`. -/
structure LeoLoss where
  angle : ℝ
  atm : ℝ
  fspl : ℝ
  margin : ℝ

/-- Construction with attribute values, lines 40-60: the elevation angle goes through its setter, the others
write the members. -/
noncomputable def LeoLoss.create (elev atm fspl margin : ℝ) : LeoLoss := ⟨elev * (Real.pi / 180), atm, fspl, margin⟩

/-- `SetElevationAngle`, lines 73-77. -/
noncomputable def LeoLoss.setElevationAngle (m : LeoLoss) (a : ℝ) : LeoLoss := { m with angle := a * (Real.pi / 180) }

/-- `GetElevationAngle`, lines 108-112. -/
noncomputable def LeoLoss.getElevationAngle (m : LeoLoss) : ℝ := m.angle * (180 / Real.pi)

/-- `Vector2D::GetLength` (ns-3 core). -/
noncomputable def len2 (x y : ℝ) : ℝ := √(x * x + y * y)

/-- `GetCutoffDistance`, lines 79-106.  Simplified: at angles with cosine 0 the idealised `tan` is 0, in C++ it is
huge; no theorem speaks about these angles. -/
noncomputable def LeoLoss.cutoff (m : LeoLoss) (sat : Vec) : ℝ :=
  let hs := sat.len
  let a := 1 + tan m.angle * tan m.angle
  let b := 2 * tan m.angle * hs
  let c := hs * hs - propEarthRad * propEarthRad
  let disc := b * b + 4 * a * c
  if disc < 0 then -1
  else
    let t1 := (-b - √disc) / (2 * a)
    let t2 := (-b + √disc) / (2 * a)
    min (len2 t1 (-tan m.angle * t1)) (len2 t2 (-tan m.angle * t2))

/-- `DoCalcRxPower`, lines 114-136; `GetDistanceFrom` is the length of the difference (ns-3 core). -/
noncomputable def LeoLoss.rxPower (m : LeoLoss) (tx : ℝ) (a b : Vec) : ℝ :=
  let sat := if a.len > b.len then a else b
  let distance := (b - a).len
  if distance > m.cutoff sat then -1000
  else tx - m.atm - m.fspl - m.margin

/-- `LEO_EARTH_RAD`, model/isl-propagation-loss-model.h:32. -/
noncomputable def islEarthRad : ℝ := 6.371009e6

open Classical in
/-- `GetLos`, lines 51-97.  For coincident positions the direction is 0/0: all following numbers are NaN, the test
of the discriminant and both final comparisons are false, so the result is false.  The other quotients have
non-zero divisors.  `abs` is the overload for `double` (`math.h` is included). -/
noncomputable def islLos (apos bpos : Vec) : Bool :=
  let oc := if apos.len > bpos.len then apos else bpos
  let bp := if apos.len > bpos.len then bpos else apos
  let d := bp - oc
  let s2 := d.len
  if s2 = 0 then false
  else
    let u : Vec := ⟨d.x / s2, d.y / s2, d.z / s2⟩
    let a := u.x * u.x + u.y * u.y + u.z * u.z
    let b := 2 * (oc.x * u.x + oc.y * u.y + oc.z * u.z)
    let c := (oc.x * oc.x + oc.y * oc.y + oc.z * oc.z) - islEarthRad * islEarthRad
    let disc := b * b - 4 * a * c
    if disc < 0 then true
    else
      let t1 := (-b - √disc) / (2 * a)
      let t2 := (-b + √disc) / (2 * a)
      decide (s2 < |t1|) && decide (s2 < |t2|)

/-- `IslPropagationLossModel::DoCalcRxPower`, lines 99-111. -/
noncomputable def islRxPower (tx : ℝ) (a b : Vec) : ℝ :=
  if islLos a b = false then -1000 else tx

end Verif
