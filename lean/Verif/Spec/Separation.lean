import Mathlib.Analysis.SpecialFunctions.Trigonometric.Basic
/-!
# Half distances of two satellites on circles of the same radius

Two great circles inclined by `i` whose nodes are `2 L` apart carry one point each, with phases `q + F` and `q - F`.
`atNode` and `atTop` are their half distances, in radii, at mean phase 0 and at mean phase 90 degrees (squared).
-/

namespace Verif.Spec
open Real

/-- Half distance at mean phase 0 (signed). -/
noncomputable def atNode (i L F : ℝ) : ℝ := cos i * cos F * sin L + sin F * cos L

/-- Square of the half distance at mean phase 90 degrees. -/
noncomputable def atTop (i L F : ℝ) : ℝ := (cos i * sin F * cos L + cos F * sin L) ^ 2 + (sin i * sin F) ^ 2

end Verif.Spec
