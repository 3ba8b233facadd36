import Verif.Spec.Reach
/-!
# Specification vocabulary for continuous coverage (C107)
-/

namespace Verif.Spec
open Real

/-- Hypotenuse of the right-angled spherical triangle with legs `a` and `b`. -/
noncomputable def hypotenuse (a b : ℝ) : ℝ := arccos (cos a * cos b)

/-- Largest angle between a station and the nearest plane of a constellation: `P` planes of inclination `i` spread evenly
over all longitudes, stations up to `δ` beyond the turning points. -/
noncomputable def offTrack (i : ℝ) (P : Nat) (δ : ℝ) : ℝ := arcsin (δ + |sin i| * (Real.pi / P))

end Verif.Spec
