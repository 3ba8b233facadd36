import Verif.Model.Fleet
import Verif.Model.IpTrace
/-!
# The file of the tracing program

examples/leo-circular-orbit-tracing-example.cc:29-34 and 72 write text; `Model/Fleet` has the values of the lines (C89), here are the characters.
-/

namespace Verif

/-- The heading, examples/leo-circular-orbit-tracing-example.cc:72. -/
def trackHeading : List Char := "Time,Satellite,x,y,z,Speed".toList

/-- The numbers (binary64) that the program has computed for the coordinates and the speed of a line. -/
structure Computed where
  x : ℚ
  y : ℚ
  z : ℚ
  speed : ℚ

/-- A line of `CourseChange`, examples/leo-circular-orbit-tracing-example.cc:33, for the numbers computed. -/
def trackText (now node : Nat) (c : Computed) : List Char :=
  showTime now ++ ':' :: (showNat node ++ ':' :: (showDouble c.x ++ ':' :: (showDouble c.y ++ ':' :: (showDouble c.z ++ ':' :: showDouble c.speed))))

/-- The file: the heading and the lines.  `comp` are the numbers computed for each line. -/
noncomputable def trackFile (comp : TrackLine → Computed) (out : List TrackLine) : List (List Char) :=
  trackHeading :: out.map fun l => trackText l.time l.node (comp l)

end Verif
