import Verif.Spec.Waypoint
import Verif.Model.Orbit
import Verif.Model.Net
import Mathlib.Data.Real.Basic
/-!
# Where a satellite with waypoints should be
-/

namespace Verif.Spec

/-- A coordinate along waypoints: at the first one until its time, on the straight line between two waypoints while it is between
their times, and at the last one for ever. -/
def interp (f : WSample → ℚ) : List WSample → Int → ℚ
  | [], _ => 0
  | [a], _ => f a
  | a :: b :: l, t =>
    if t < b.time then
      if t ≤ a.time then f a else f a + (f b - f a) / ((b.time - a.time : Int) : ℚ) * ((t - a.time : Int) : ℚ)
    else interp f (b :: l) t

/-- The place of a satellite with these waypoints. -/
def place (l : List WSample) (t : Int) : ℚ × ℚ × ℚ := (interp (·.x) l t, interp (·.y) l t, interp (·.z) l t)

/-- The place named by a waypoint. -/
def spot (s : WSample) : ℚ × ℚ × ℚ := (s.x, s.y, s.z)

/-- A place as a vector. -/
noncomputable def toVec (p : ℚ × ℚ × ℚ) : Vec := ⟨(p.1 : ℝ), (p.2.1 : ℝ), (p.2.2 : ℝ)⟩

/-- The motion of a satellite with these waypoints, for the channels (`Model/Sky`). -/
noncomputable def wayTrack (l : List WSample) (t : Time) : Vec := toVec (place l t)

/-- Two waypoints follow one another in a list. -/
def Next (a b : WSample) (l : List WSample) : Prop := ∃ pre suf, l = pre ++ a :: b :: suf

end Verif.Spec
