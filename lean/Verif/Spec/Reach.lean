import Verif.Model.Sky
import Mathlib.Analysis.SpecialFunctions.Trigonometric.Inverse
/-!
# Specification vocabulary for the reach of links (C82-C84)
-/

namespace Verif.Spec
open Real

/-- Distance from a point at distance `r` of the centre to the horizon of a ball of radius `R`. -/
noncomputable def horizon (R r : ℝ) : ℝ := √(r ^ 2 - R ^ 2)

/-- Distance at which a node on a ball of radius `R` leaves the range of a satellite at distance `r` of the centre, for a mask
with sine `s`: the positive solution of `x² + 2 r x s = r² - R²`. -/
noncomputable def slantRange (R r s : ℝ) : ℝ := √((r * s) ^ 2 + (r ^ 2 - R ^ 2)) - r * s

/-- Distance of two points at distances `r` and `q` of the centre that are `γ` apart as seen from there. -/
noncomputable def chord (r q γ : ℝ) : ℝ := √(r ^ 2 + q ^ 2 - 2 * r * q * cos γ)

/-- The latitude up to which an orbit of inclination `i` goes: `i`, or `π - i` for retrograde orbits. -/
noncomputable def tilt (i : ℝ) : ℝ := arcsin |sin i|

/-- Geographic latitude of a position. -/
noncomputable def latOf (v : Vec) : ℝ := arcsin (v.z / v.len)

end Verif.Spec
