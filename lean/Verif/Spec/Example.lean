import Verif.Model.Example
import Verif.Model.Sky
import Verif.Spec.Fleet
/-!
# The network of the example programs (C91)
-/

namespace Verif
namespace Spec

/-- At time `t` a satellite may be reported where it was at time `u`: now, or at a multiple of the precision at most one interval ago. -/
def Reported (prec t u : Nat) : Prop := if prec = 0 then u = t else prec ∣ u ∧ u ≤ t ∧ t ≤ u + prec

/-- The motion of the nodes and the properties of the channels in a run of the program: a satellite is reported where it was on its
track at the last multiple of the precision, stations do not move, and the channels have the loss models they were given. -/
structure SkyOf (a : ExampleArgs) (X : ExampleNet) (K : Sky) : Prop where
  sat : ∀ (i : Nat) o p k, (places a.orbits)[i]? = some (o, p, k) → ∃ f, K.pos i = some f ∧
    ∀ t : Nat, ∃ u : Nat, Reported a.prec.toNat t u ∧ f t = track o p k (u / 1000000000)
  gnd : ∀ (j : Nat) v, X.ground[j]? = some (some v) → K.pos ((places a.orbits).length + j) = some fun _ => v
  leo : ∀ c l, X.build.lossOf c = some (.leo l) → K.budget c = some ⟨l.elev, l.atm, l.fspl, l.margin⟩
  isl : ∀ c, X.build.lossOf c = some .isl → K.budget c = none

/-- What the applications and protocols do: send packets of at most 65527 bytes to MAC addresses, change rates, gaps,
the MTU and promiscuous callbacks, let time pass and run events. -/
def PlainTraffic : Op → Prop
  | .send _ p dest _ => dest ≠ .other ∧ p.length ≤ 65527
  | .attach .. | .detach .. | .setAddress .. | .setSide .. | .setTxPower .. | .setRxThreshold .. | .setRxGain .. | .setRxLoss .. => False
  | _ => True

/-- Node `j` and node `k` are one on the ground and one in space (`n` is the number of satellites). -/
def Across (n j k : Nat) : Prop := (j < n ∧ n ≤ k) ∨ (n ≤ j ∧ k < n)

end Spec
end Verif
