import Verif.Model.Orbit
/-!
# State and update events of `LeoCircularOrbitMobilityModel`
(model/leo-circular-orbit-mobility-model.cc)

One satellite with the pending `Update` events of the simulator that belong to it.
-/

namespace Verif
open Real

/-- A satellite: members of model/leo-circular-orbit-mobility-model.h:94-119, the clock, the times of the
pending `Update` events (in dispatch order) and the times of all course-change notifications so far. `Time`
is signed in ns-3 and the precision attribute is unchecked, hence `Int`. -/
structure Sat where
  orbit : Orbit
  pos : Vec
  prec : Int
  now : Time
  pending : List Time
  log : List Time

/-- Insert an event: after all events at the same or an earlier time (`Simulator::Schedule`). -/
def insertTime (t : Time) : List Time → List Time
  | [] => [t]
  | u :: us => if u ≤ t then u :: insertTime t us else t :: u :: us

/-- `Update`, lines 158-169. -/
noncomputable def Sat.update (s : Sat) : Sat :=
  { s with
    pos := s.orbit.position s.now
    log := s.log ++ [s.now]
    pending := if s.prec > 0 then insertTime (s.now + s.prec.toNat) s.pending else s.pending }

/-- `DoGetPosition`, lines 171-180. -/
noncomputable def Sat.getPosition (s : Sat) : Vec :=
  if s.prec = 0 then s.orbit.position s.now else s.pos

/-- `DoSetPosition`, lines 182-192. -/
noncomputable def Sat.setPosition (s : Sat) (v : Vec) : Sat :=
  { s with orbit := { s.orbit with lon := v.x, off := v.y } }.update

/-- `GetAltitude`, lines 194-197. -/
noncomputable def Sat.getAltitude (s : Sat) : ℝ := s.orbit.height - earthRadKm

/-- `SetAltitude`, lines 199-203. -/
noncomputable def Sat.setAltitude (s : Sat) (h : ℝ) : Sat :=
  { s with orbit := { s.orbit with height := earthRadKm + h } }.update

/-- `GetInclination`, lines 205-208. -/
noncomputable def Sat.getInclination (s : Sat) : ℝ := (s.orbit.incl / Real.pi) * 180

open Classical in
/-- `SetInclination`, lines 210-215. -/
noncomputable def Sat.setInclination (s : Sat) (i : ℝ) : Outcome Sat :=
  if i = 0 then .fail .zeroInclination
  else .ok { s with orbit := { s.orbit with incl := (i / 180) * Real.pi } }.update

/-- `DoGetVelocity`, lines 98-105. -/
noncomputable def Sat.getVelocity (s : Sat) : Vec := s.orbit.velocity s.now s.getPosition

/-- Construction with attribute values, lines 39-61: the attributes are set in the order of their
registration, altitude, inclination, precision; `m_precision` is still 0 (default of `Time`) during the
first two, and `m_inclination` is an indeterminate value `junk` during the first. -/
noncomputable def Sat.create (junk : ℝ) (now : Time) (altitude inclination : ℝ) (prec : Int) : Outcome Sat :=
  let s0 : Sat := ⟨⟨junk, junk, 0, 0⟩, ⟨0, 0, 0⟩, 0, now, [], []⟩
  (s0.setAltitude altitude).setInclination inclination >>= fun s => .ok { s with prec := prec }

/-- Operations: the public setters (the precision attribute writes the member directly, line 53), the
dispatch of the next event, and time passing without an event. -/
inductive SatOp where
  | setPosition (v : Vec)
  | setAltitude (h : ℝ)
  | setInclination (i : ℝ)
  | setPrecision (p : Int)
  | run
  | wait (dt : Time)

/-- One operation. `wait` does not pass the next event. -/
noncomputable def Sat.step (s : Sat) : SatOp → Outcome Sat
  | .setPosition v => .ok (s.setPosition v)
  | .setAltitude h => .ok (s.setAltitude h)
  | .setInclination i => s.setInclination i
  | .setPrecision p => .ok { s with prec := p }
  | .run => match s.pending with
    | [] => .ok s
    | t :: ts => .ok { s with now := t, pending := ts }.update
  | .wait dt => match s.pending with
    | [] => .ok { s with now := s.now + dt }
    | t :: _ => if s.now + dt ≤ t then .ok { s with now := s.now + dt } else .ok s

/-- A history. -/
noncomputable def Sat.exec (s : Sat) : List SatOp → Outcome Sat
  | [] => .ok s
  | op :: ops => s.step op >>= fun s' => s'.exec ops

end Verif
