import Verif.Model.Rounded
/-!
# What is assumed about rounding
-/

namespace Verif.Spec
open Verif Real

/-- Arithmetic like that of `double`: for results below 1e100 an error of at most 1e-15 of the result (`double`: 2.3e-16 in every
rounding mode) or, near zero, 1e-100; results that are not negative stay so; the library functions have errors of
this size (a few units in the last place). -/
structure Accurate (F : Arith) : Prop where
  rnd : ∀ x, |x| ≤ 1e100 → |F.rnd x - x| ≤ 1e-15 * |x| + 1e-100
  nonneg : ∀ x, 0 ≤ x → 0 ≤ F.rnd x
  sin : ∀ x, |x| ≤ 1e100 → |F.sin x - Real.sin x| ≤ 1e-15
  cos : ∀ x, |x| ≤ 1e100 → |F.cos x - Real.cos x| ≤ 1e-15
  tan : ∀ x, |x| ≤ 1.5 → |F.tan x - Real.tan x| ≤ 1e-15 * |Real.tan x| + 1e-100
  sqrt : ∀ x, 0 ≤ x → x ≤ 1e100 → |F.sqrt x - √x| ≤ 1e-15 * √x + 1e-100
  pi : |F.pi - π| ≤ 1e-15

end Verif.Spec
