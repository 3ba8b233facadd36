import Verif.Model.Course
import Verif.Spec.Fleet
import Verif.Props.OrbitSched
/-! What the claims about calls from inside course-change sinks are about. -/

namespace Verif.Spec

/-- The call of a setter of node `i` in a step. -/
def courseCall (i : Nat) : CourseOp → Option SatOp
  | .op o => callOf i o
  | .ret => none

/-- The precision a call sets. -/
def precOf : SatOp → Option Int
  | .setPrecision p => some p
  | _ => none

/-- The calls that set position, altitude or inclination, in order. -/
def setters (ops : List SatOp) : List SatOp := ops.filter fun o => decide (IsSetter o)

/-- The precisions set, in order. -/
def precs (ops : List SatOp) : List Int := ops.filterMap precOf

end Verif.Spec
