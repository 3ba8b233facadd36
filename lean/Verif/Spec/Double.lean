import Mathlib.Data.Rat.Defs
import Mathlib.Algebra.Order.Ring.Rat
import Mathlib.Algebra.Field.Rat
import Verif.Spec.Parse
/-!
# The numbers of the format binary64
-/

namespace Verif.Spec

/-- A finite `double`: 53 bits and an exponent between -1074 and 971. -/
def IsDouble (x : ℚ) : Prop := ∃ m e : Int, |m| < 2 ^ 53 ∧ -1074 ≤ e ∧ e ≤ 971 ∧ x = m * 2 ^ e

/-- `x` is a `double` nearest to `q`. -/
def Nearest (q x : ℚ) : Prop := IsDouble x ∧ ∀ y, IsDouble y → |x - q| ≤ |y - q|

/-- Half a unit of the last place beyond the largest `double`, or more. -/
def TooLarge (q : ℚ) : Prop := 2 ^ (1024 : Int) - 2 ^ (970 : Int) ≤ |q|

/-- Zero, or not so small that the format has fewer digits. -/
def Tame (x : ℚ) : Prop := x = 0 ∨ 10 ^ (-300 : Int) ≤ |x|

/-- The error of one round trip through text: one unit of the fifth digit behind the leading one, relatively. -/
def Close (x y : ℚ) : Prop := |y - x| ≤ 1e-5 * |x|

/-- A `double` that is written down with six decimal digits, as in a source text or a record. -/
def Written (conv : ℚ → Option ℚ) (x : ℚ) : Prop := ∃ q, SixDigits q ∧ Tame q ∧ conv q = some x

end Verif.Spec
