import Verif.Model.Net
import Verif.Model.Orbit
/-!
# Ways of packets through space and time (C112)
-/

namespace Verif
namespace Spec

/-- Packets with the property `Q` come from node `a`, which has them since `t0`: a node sends such a packet only if it is `a`, not before
`t0`, or if a packet with this property was passed up by one of its devices before.  Nothing is said about when a node sends, how often,
to whom, on which of its devices and what it does to the packet, as long as what it sends still has the property.  Packets fit the MTU. -/
def CarriedFrom (E : Env) (s0 : Sys) (Q : Bytes → Prop) (a : NodeId) (t0 : Time) (ops : List Op) : Prop :=
  ∀ o1 src q dest pr o2 s1, ops = o1 ++ .send src q dest pr :: o2 → exec E s0 o1 = .ok s1 →
    q.length ≤ 1492 ∧ (Q q → ((s0.dev src).node = some a ∧ t0 ≤ s1.now) ∨
      ∃ t d p proto sa, (t, Ev.rxCallback d p proto sa) ∈ s1.log ∧ Q p ∧ (s0.dev d).node = (s0.dev src).node ∧ (s0.dev d).node ≠ none)

/-- `Way log node a T0 n t l`: according to the hand-overs in the log something that is at node `a` at `T0` can be at node `n` at `t`,
after being at the nodes `l`, in this order.  `node` says to which node a device belongs. -/
inductive Way (log : List (Time × Ev)) (node : DevId → Option NodeId) (a : NodeId) (T0 : Time) : NodeId → Time → List NodeId → Prop
  | start : Way log node a T0 a T0 [a]
  | wait {n : NodeId} {t t' : Time} {l : List NodeId} : Way log node a T0 n t l → t ≤ t' → Way log node a T0 n t' l
  | hop {n m : NodeId} {t : Time} {l : List NodeId} {c : ChanId} {f : Bytes} {src dst : DevId} {tx del : Time} :
      Way log node a T0 n t l → (t, Ev.txrx c f src dst tx del) ∈ log → node src = some n → node dst = some m →
      Way log node a T0 m (t + del) (l ++ [m])

/-- Between any two moments the node moves at most `V` times the growth of the clock `g`. -/
def MovesBy (V : ℝ) (g : Time → ℝ) (r : Time → Vec) : Prop := ∀ t u : Time, t ≤ u → (r u - r t).len ≤ V * (g u - g t)

end Spec
end Verif
