import Verif.Model.Net
/-!
# Where the payloads come from (C114)
-/

namespace Verif
namespace Spec

/-- Payloads of the application come from one node: a node sends a packet with the payload `x` only if it is node `a` and its application made `x`
before (`made`: when it made what), or if it received a packet with this payload before.  Packets fit the MTU. -/
def OneSource (E : Env) (s0 : Sys) (payload : Bytes → Option Bytes) (a : NodeId) (made : List (Time × Bytes)) (ops : List Op) : Prop :=
  ∀ o1 src q dest pr o2 s1, ops = o1 ++ .send src q dest pr :: o2 → exec E s0 o1 = .ok s1 →
    q.length ≤ 1492 ∧ ∀ x, payload q = some x → ((s0.dev src).node = some a ∧ ∃ T, (T, x) ∈ made ∧ T ≤ s1.now) ∨
      ∃ t d p proto sa, (t, Ev.rxCallback d p proto sa) ∈ s1.log ∧ payload p = some x ∧ (s0.dev d).node = (s0.dev src).node ∧
        (s0.dev d).node ≠ none

end Spec
end Verif
