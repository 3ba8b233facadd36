import Verif.Spec.Spread
import Verif.Spec.ExampleRoute
/-! The ports of the nodes of the example programs. -/

namespace Verif.Spec

/-- The ports of the nodes of the example programs, with `n` satellites and `base` nodes: every node has its device on the ground/space network,
every satellite has its device on the inter-satellite network as well. -/
def examplePorts (n base : Nat) (k : NodeId) : List DevId :=
  if k < n then [port base false k, port base true k] else if k < base then [port base false k] else []

end Verif.Spec
