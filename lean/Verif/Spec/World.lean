import Verif.Model.World
import Verif.Spec.Example
/-!
# Network and satellites in one simulation (C109)
-/

namespace Verif
namespace Spec

/-- Operations that may begin a transmission, for which the channel asks for positions. -/
def mayTransmit : Op → Bool
  | .send .. | .run => true
  | _ => false

/-- Time passing. -/
def isWait : Op → Bool
  | .wait _ => true
  | _ => false

/-- The operations of the network in a history. -/
def trafficOf (ops : List WorldOp) : List Op := ops.filterMap fun
  | .net op => some op
  | .update => none

/-- When operations that may transmit took place, and where the satellites were reported then. -/
noncomputable def seen (junk : ℝ) (X : ExampleNet) (v : ℝ) (r : ℝ → Time) (E : Env) : World → List WorldOp → List (Time × List Vec)
  | _, [] => []
  | W, op :: ops =>
    match W.step junk X v r E op with
    | .fail _ => []
    | .ok W' =>
      (match op with
        | .net o => if mayTransmit o then [(W'.fleet.now, W'.fleet.mobs.map fun m => m.getPosition W'.fleet.now)] else []
        | .update => []) ++ seen junk X v r E W' ops

/-- At no time a satellite is seen at two places: no update comes between two transmissions of the same instant. -/
def SeenOnce (L : List (Time × List Vec)) : Prop := ∀ t l l', (t, l) ∈ L → (t, l') ∈ L → l = l'

end Spec
end Verif
