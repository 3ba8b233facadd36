import Verif.Model.Orbit
import Verif.Model.Net
/-!
# Speeds of moving nodes (C103)
-/

namespace Verif
namespace Spec

/-- A conversion of seconds to whole nanoseconds that is monotone and exact on whole nanoseconds (rounding down or to nearest). -/
structure Granular (g : ℝ → Time) : Prop where
  mono : Monotone g
  shift : ∀ (x : ℝ) (n : Nat), 0 ≤ x → g (x + n / 1000000000) = g x + n

/-- The node moves by at most `V` metres per second. -/
def SlowerThan (V : ℝ) (p : Time → Vec) : Prop :=
  ∀ t u : Time, (p t - p u).len ≤ V * |(t : ℝ) / 1000000000 - (u : ℝ) / 1000000000|

/-- `p` is what is reported of the motion `q` if updates are at most `P` old. -/
def Lags (P : Time) (p q : Time → Vec) : Prop := ∀ t, ∃ u, u ≤ t ∧ t ≤ u + P ∧ p t = q u

end Spec
end Verif
