import Mathlib.Analysis.SpecialFunctions.Log.Base
import Mathlib.Analysis.SpecialFunctions.Trigonometric.Basic
/-! # Loss in free space -/

namespace Verif.Spec

/-- The loss in free space, in decibels, between isotropic antennas `m` metres apart at a frequency of `hz` hertz (Friis):
`20 lg (4 π m / λ)`, where `λ` is the wave length. -/
noncomputable def freeSpaceLoss (hz m : ℝ) : ℝ := 20 * Real.logb 10 (4 * Real.pi * m / (299792458 / hz))

end Verif.Spec
