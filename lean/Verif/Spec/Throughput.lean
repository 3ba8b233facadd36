import Verif.Spec.Queueing
import Verif.Spec.Timing
/-!
# Specification vocabulary for the throughput of links (C105)
-/

namespace Verif.Spec

/-- The receptions within a span of time. -/
def during (t0 t1 : Time) (l : List Arrival) : List Arrival := l.filter fun a => decide (t0 ≤ a.time) && decide (a.time ≤ t1)

/-- Bits of a list of frames. -/
def bits (l : List Bytes) : Nat := (l.map fun f => 8 * f.length).sum

/-- Transmission times are those of the rate in bit/s, except for what is lost below a nanosecond. -/
def RateExact (txTime : Nat → Nat → Time) : Prop :=
  ∀ r n, 0 < r → 8 * n * 1000000000 ≤ (txTime r n + 1) * r

/-- The delays of all hand-overs from `src` to `dst` are between `lo` and `hi`. -/
def DelaysWithin (src dst : DevId) (lo hi : Time) (log : List (Time × Ev)) : Prop :=
  ∀ t c f tx del, (t, Ev.txrx c f src dst tx del) ∈ log → lo ≤ del ∧ del ≤ hi

/-- From transmission `i` to transmission `j` the device never ran out of frames: each frame in between was accepted before the
transmission of the one before it was over. -/
def Backlogged (work : Bytes → Time) (i j : Nat) (acc beg : List (Time × Bytes)) : Prop :=
  ∀ k b a, i ≤ k → k < j → beg[k]? = some b → acc[k + 1]? = some a → a.1 ≤ b.1 + work b.2

end Verif.Spec
