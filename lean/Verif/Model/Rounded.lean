import Verif.Model.Propagation
import Verif.Model.Placement
/-!
# The geometry with rounding

The same functions as in `Model/Orbit` and `Model/Propagation`, but with every operation on `double` rounded and with the library
functions `sin`, `cos`, `tan`, `sqrt` as some approximations.  The rounding and the library are a parameter; nothing is
assumed about them here (`Spec/Rounded` says what is assumed in the theorems).  Simplified: NaN and infinities do not
exist (the theorems are about ranges without overflow; the one division by zero of `GetLos` is a case of its own),
the compiler does not fuse operations nor keep excess precision.  Literals that are no `double` are rounded; integers
are exact, also 6.37101e6, 6.371009e6 and 1e5.
-/

namespace Verif
open Real

/-- Rounding of a result to `double`, the functions of `<cmath>` and `M_PI`. -/
structure Arith where
  rnd : ℝ → ℝ
  sin : ℝ → ℝ
  cos : ℝ → ℝ
  tan : ℝ → ℝ
  sqrt : ℝ → ℝ
  pi : ℝ

namespace Arith

/-- `operator+` on `double`. -/
def add (F : Arith) (x y : ℝ) : ℝ := F.rnd (x + y)
/-- `operator-` on `double`. -/
def sub (F : Arith) (x y : ℝ) : ℝ := F.rnd (x - y)
/-- `operator*` on `double`. -/
def mul (F : Arith) (x y : ℝ) : ℝ := F.rnd (x * y)
/-- `operator/` on `double`. -/
noncomputable def div (F : Arith) (x y : ℝ) : ℝ := F.rnd (x / y)

/-- `operator+ (Vector3D, Vector3D)` (ns-3 core). -/
def addV (F : Arith) (l r : Vec) : Vec := ⟨F.add l.x r.x, F.add l.y r.y, F.add l.z r.z⟩
/-- `operator- (Vector3D, Vector3D)` (ns-3 core). -/
def subV (F : Arith) (l r : Vec) : Vec := ⟨F.sub l.x r.x, F.sub l.y r.y, F.sub l.z r.z⟩

/-- The sum of three products as C++ evaluates `a*b + c*d + e*f`. -/
def sum3 (F : Arith) (a b c d e f : ℝ) : ℝ := F.add (F.add (F.mul a b) (F.mul c d)) (F.mul e f)

/-- `Vector3D::GetLength` (ns-3 core). -/
def len (F : Arith) (v : Vec) : ℝ := F.sqrt (F.sum3 v.x v.x v.y v.y v.z v.z)

/-- `Vector2D::GetLength` (ns-3 core). -/
def len2 (F : Arith) (x y : ℝ) : ℝ := F.sqrt (F.add (F.mul x x) (F.mul y y))

/-- `SetElevationAngle`, model/leo-propagation-loss-model.cc:73-77. -/
noncomputable def elevationAngle (F : Arith) (e : ℝ) : ℝ := F.mul e (F.div F.pi 180)

open Classical in
/-- `LeoPropagationLossModel::GetCutoffDistance`, model/leo-propagation-loss-model.cc:79-106. -/
noncomputable def cutoff (F : Arith) (angle : ℝ) (sat : Vec) : ℝ :=
  let hs := F.len sat
  let a := F.add 1 (F.mul (F.tan angle) (F.tan angle))
  let b := F.mul (F.mul 2 (F.tan angle)) hs
  let c := F.sub (F.mul hs hs) (F.mul propEarthRad propEarthRad)
  let disc := F.add (F.mul b b) (F.mul (F.mul 4 a) c)
  if disc < 0 then -1
  else
    let t1 := F.div (F.sub (-b) (F.sqrt disc)) (F.mul 2 a)
    let t2 := F.div (F.add (-b) (F.sqrt disc)) (F.mul 2 a)
    min (F.len2 t1 (F.mul (-F.tan angle) t1)) (F.len2 t2 (F.mul (-F.tan angle) t2))

open Classical in
/-- `LeoPropagationLossModel::DoCalcRxPower`, model/leo-propagation-loss-model.cc:114-136, with the attributes of the model
(elevation angle in degrees). -/
noncomputable def leoRxPower (F : Arith) (elev atm fspl margin tx : ℝ) (a b : Vec) : ℝ :=
  let sat := if F.len a > F.len b then a else b
  let distance := F.len (F.subV b a)
  if distance > F.cutoff (F.elevationAngle elev) sat then -1000
  else F.sub (F.sub (F.sub tx atm) fspl) margin

open Classical in
/-- `IslPropagationLossModel::GetLos`, model/isl-propagation-loss-model.cc:51-97 (a length of 0 gives NaN, as in `islLos`). -/
noncomputable def los (F : Arith) (apos bpos : Vec) : Bool :=
  let oc := if F.len apos > F.len bpos then apos else bpos
  let bp := if F.len apos > F.len bpos then bpos else apos
  let d := F.subV bp oc
  let s2 := F.len d
  if s2 = 0 then false
  else
    let u : Vec := ⟨F.div d.x s2, F.div d.y s2, F.div d.z s2⟩
    let a := F.sum3 u.x u.x u.y u.y u.z u.z
    let b := F.mul 2 (F.sum3 oc.x u.x oc.y u.y oc.z u.z)
    let c := F.sub (F.sum3 oc.x oc.x oc.y oc.y oc.z oc.z) (F.mul islEarthRad islEarthRad)
    let disc := F.sub (F.mul b b) (F.mul (F.mul 4 a) c)
    if disc < 0 then true
    else
      let t1 := F.div (F.sub (-b) (F.sqrt disc)) (F.mul 2 a)
      let t2 := F.div (F.add (-b) (F.sqrt disc)) (F.mul 2 a)
      decide (s2 < |t1|) && decide (s2 < |t2|)

/-- `IslPropagationLossModel::DoCalcRxPower`, model/isl-propagation-loss-model.cc:99-111. -/
noncomputable def islRxPower (F : Arith) (tx : ℝ) (a b : Vec) : ℝ :=
  if F.los a b = false then -1000 else tx

/-- `ConstantSpeedPropagationDelayModel::GetDelay` (ns-3), in seconds, before the conversion to `Time`. -/
noncomputable def delaySeconds (F : Arith) (speed : ℝ) (a b : Vec) : ℝ := F.div (F.len (F.subV b a)) speed

/-! ## `LeoCircularOrbitMobilityModel` -/

/-- `CrossProduct`, model/leo-circular-orbit-mobility-model.cc:70-76. -/
def crossV (F : Arith) (l r : Vec) : Vec :=
  ⟨F.sub (F.mul l.y r.z) (F.mul l.z r.y), F.sub (F.mul l.z r.x) (F.mul l.x r.z), F.sub (F.mul l.x r.y) (F.mul l.y r.x)⟩

/-- `Product`, lines 78-84. -/
def smulV (F : Arith) (l : ℝ) (r : Vec) : Vec := ⟨F.mul l r.x, F.mul l r.y, F.mul l r.z⟩

/-- `DotProduct`, lines 86-90. -/
def dotV (F : Arith) (l r : Vec) : ℝ := F.sum3 l.x r.x l.y r.y l.z r.z

/-- `GetSpeed`, lines 92-96; `LEO_EARTH_GM_KM_E10` is rounded. -/
noncomputable def speed (F : Arith) (o : Orbit) : ℝ := F.mul (F.sqrt (F.div (F.rnd earthGm) o.height)) 100000

/-- `CalcLatitude`, lines 140-144; `GetDouble` rounds the number of nanoseconds. -/
noncomputable def latitude (F : Arith) (o : Orbit) (now : Time) : ℝ :=
  F.add o.lon (F.mul (F.mul (F.div (F.rnd now) 86400000000000) 2) F.pi)

/-- `PlaneNorm`, lines 107-114. -/
noncomputable def planeNorm (F : Arith) (o : Orbit) (now : Time) : Vec :=
  ⟨F.mul (F.sin (-o.incl)) (F.cos (F.latitude o now)), F.mul (F.sin (-o.incl)) (F.sin (F.latitude o now)), F.cos o.incl⟩

open Classical in
/-- `GetProgress`, lines 116-128; `LEO_EARTH_RAD_KM` is rounded, `GetSeconds` is the rounded quotient. -/
noncomputable def progress (F : Arith) (o : Orbit) (t : Time) : ℝ :=
  let sign : ℝ := if o.incl > F.div F.pi 2 then -1 else 1
  F.add (F.mul sign (F.div (F.mul (F.speed o) (F.rnd ((t : ℝ) / 1000000000))) (F.mul (F.rnd earthRadKm) 1000))) o.off

/-- `RotatePlane`, lines 130-138. -/
noncomputable def rotatePlane (F : Arith) (n : Vec) (a : ℝ) (x : Vec) : Vec :=
  F.addV (F.addV (F.smulV (F.dotV n x) n) (F.smulV (F.cos a) (F.crossV (F.crossV n x) n))) (F.smulV (F.sin a) (F.crossV n x))

/-- `CalcPosition`, lines 146-156. -/
noncomputable def position (F : Arith) (o : Orbit) (now : Time) : Vec :=
  let lat := F.latitude o now
  let x := F.smulV (F.mul o.height 1000)
    ⟨F.mul (F.cos o.incl) (F.cos lat), F.mul (F.cos o.incl) (F.sin lat), F.sin o.incl⟩
  F.rotatePlane (F.planeNorm o now) (F.progress o now) x

/-- `DoGetVelocity`, lines 98-105, for the position `pos` that `DoGetPosition` returned. -/
noncomputable def velocity (F : Arith) (o : Orbit) (now : Time) (pos : Vec) : Vec :=
  F.smulV (F.speed o) (F.crossV (F.planeNorm o now) ⟨F.div pos.x (F.len pos), F.div pos.y (F.len pos), F.div pos.z (F.len pos)⟩)

/-- The members after `SetAltitude`, `SetInclination` and `DoSetPosition`, lines 182-203 and 210-215, with the position that
`LeoCircularOrbitAllocator::GetNext` (model/leo-circular-orbit-position-allocator.cc:62-76) returns for satellite `s` of `S` in plane
`p` of `P`: altitude in km, inclination in degrees. -/
noncomputable def slot (F : Arith) (alt inc : ℝ) (p P s S : Nat) : Orbit :=
  ⟨F.add (F.rnd earthRadKm) alt, F.mul (F.div inc 180) F.pi, F.mul (F.mul 2 F.pi) (F.div p P), F.mul (F.mul 2 F.pi) (F.div s S)⟩

/-- `LeoGndNodeHelper::GetEarthPosition`, helper/ground-node-helper.cc:98-107. -/
noncomputable def earthPosition (F : Arith) (l : LatLong) : Vec :=
  let lat := F.mul l.latitude (F.div F.pi 90)
  let lon := F.mul l.longitude (F.div F.pi 180)
  ⟨F.mul (F.mul gndRad (F.sin lat)) (F.cos lon), F.mul (F.mul gndRad (F.sin lat)) (F.sin lon), F.mul gndRad (F.cos lat)⟩

/-- `LeoPolarPositionAllocator::GetNext`, model/leo-polar-position-allocator.cc:69-90: the position for the counters `lat` and `lon`
of a grid of `latNum` and `lonNum`. -/
noncomputable def gridPosition (F : Arith) (lat latNum lon lonNum : Nat) : Vec :=
  let la := F.mul lat (F.div F.pi latNum)
  let lo := F.mul lon (F.div (F.mul 2 F.pi) lonNum)
  ⟨F.mul (F.mul gndRad (F.sin la)) (F.cos lo), F.mul (F.mul gndRad (F.sin la)) (F.sin lo), F.mul gndRad (F.cos la)⟩

end Arith

end Verif
