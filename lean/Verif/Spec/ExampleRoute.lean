import Verif.Spec.Example
import Verif.Spec.Relay
import Verif.Props.Propagation
import Verif.Props.Constellation
/-!
# Routes through the network of the example programs (C92)
-/

namespace Verif.Spec

/-- One leg of a way from node to node: over the inter-satellite network or the ground/space network. -/
structure Leg where
  isl : Bool
  src : Nat
  dst : Nat
  packet : Bytes
  proto : UInt16

/-- The device of a node for a leg: those of the ground/space network are numbered like the nodes, those of the inter-satellite network
follow from `base` on. -/
def port (base : Nat) (isl : Bool) (node : Nat) : DevId := if isl then base + node else node

/-- The time light takes from one node to another (at the speed of the delay model), starting at `t`. -/
noncomputable def lightTime (K : Sky) (t : Time) (i j : Nat) : Time :=
  match K.pos i, K.pos j with
  | some f, some g => K.ofSeconds ((g t - f t).len / K.speed)
  | _, _ => 0

/-- The leg can be made at time `t` (`n` satellites, `base` nodes): between satellites if they are at different places and the Earth is not
in the way; between ground and space if the satellite is within the slant range of the mask. -/
def LegOk (K : Sky) (n base : Nat) (elev : ℝ) (t : Time) (l : Leg) : Prop :=
  l.packet.length ≤ 1492 ∧ ∃ f g, K.pos l.src = some f ∧ K.pos l.dst = some g ∧
    if l.isl then l.src < n ∧ l.dst < n ∧ f t ≠ g t ∧ ¬ Obstructed islEarthRad (f t) (g t)
    else l.src < base ∧ l.dst < base ∧ Across n l.src l.dst ∧ InSlantRange elev (f t) (g t)

/-- The hops of the legs, if the first one is made at `t` and each of the others when the one before has ended. -/
noncomputable def hopsOf (K : Sky) (base : Nat) (t : Time) : List Leg → List Hop
  | [] => []
  | l :: ls => ⟨port base l.isl l.src, port base l.isl l.dst, l.packet, l.proto, lightTime K t l.src l.dst⟩ ::
      hopsOf K base (t + lightTime K t l.src l.dst) ls

/-- Every leg can be made when its time comes. -/
def LegsOk (K : Sky) (n base : Nat) (elev : ℝ) (t : Time) : List Leg → Prop
  | [] => True
  | l :: ls => LegOk K n base elev t l ∧ LegsOk K n base elev (t + lightTime K t l.src l.dst) ls

end Verif.Spec
