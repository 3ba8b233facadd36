import Verif.Model.RoundedLink
import Verif.Spec.Rounded
import Verif.Spec.Helper
/-!
# What should become of a frame, by exact arithmetic
-/

namespace Verif.Spec
open Verif Real

/-- Being heard with room to spare: the power `p` on arrival is above -900 dBm, and with loss and gain of the
receiver it is above the threshold, both by `m`. -/
def Clearly (m p loss gain thr : ℝ) : Prop := -900 + m ≤ p ∧ thr + m ≤ p - loss + gain

/-- Being lost with room to spare. -/
def ClearlyNot (m p loss gain thr : ℝ) : Prop := p + m ≤ -900 ∨ p - loss + gain + m ≤ thr

end Verif.Spec
