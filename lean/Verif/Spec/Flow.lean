import Verif.Model.Flow
import Verif.Spec.Net
/-! Specification of flow control. -/

namespace Verif.Spec

/-- Is the operation a `Send` on the device? -/
def isSend (d : DevId) : FOp → Bool
  | .op (.send x _ _ _) => decide (x = d)
  | _ => false

/-- How often `Send` of the device is called. -/
def sends (d : DevId) (ops : List FOp) : Nat := ops.countP (isSend d)

/-- The layer above obeys the flag: it sends only while the queue is not stopped, and while the link is up. -/
def Obeys (E : Env) (h0 : FSys) (d : DevId) (ops : List FOp) : Prop :=
  ∀ a o b h, ops = a ++ o :: b → isSend d o = true → execF E h0 a = .ok h → h.stopped d = false ∧ (h.sys.dev d).linkUp = true

/-- Bytes of the packets in a queue. -/
def queuedBytes (q : List Bytes) : Nat := (q.map List.length).sum

end Verif.Spec
