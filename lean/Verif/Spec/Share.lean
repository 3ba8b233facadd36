import Verif.Model.Share
/-!
# Packet objects: which are in use, and what a system looks like with packets as values
-/

namespace Verif.Spec

/-- A device holds the packet object, in its queue or as the packet being transmitted. -/
def Held (h : PSys) (i : PktId) : Prop := ∃ d, i ∈ h.q d ∨ h.cur d = some i

/-- The operation neither passes nor changes a packet object that a device holds. -/
def Unshared (h : PSys) : POp → Prop
  | .make i _ => ¬ Held h i
  | .send _ i _ _ => ¬ Held h i
  | .call _ _ => True

/-- Every operation of a history is of that kind in the state it is applied to. -/
def UnsharedRun (E : Env) (h : PSys) (ops : List POp) : Prop :=
  ∀ o1 op o2 h1, ops = o1 ++ op :: o2 → execP E h o1 = .ok h1 → Unshared h1 op

/-- The operation passes the packet object or rewrites it. -/
def Touches (i : PktId) : POp → Prop
  | .make j _ => j = i
  | .send _ j _ _ => j = i
  | .call _ _ => False

/-- The system with every packet object replaced by its contents. -/
def contents (h : PSys) : Sys :=
  { h.sys with dev := fun d => { h.sys.dev d with queue := (h.q d).map h.heap, cur := (h.cur d).map h.heap } }

/-- The same, for an outcome. -/
def contentsO : Outcome PSys → Outcome Sys
  | .ok h => .ok (contents h)
  | .fail e => .fail e

/-- The operation on packet values. -/
def valueOp (h : PSys) : POp → List Op
  | .make _ _ => []
  | .send d i dest proto => [.send d (h.heap i) dest proto]
  | .call op _ => [op]

/-- The history on packet values. -/
def valueOps (E : Env) : PSys → List POp → List Op
  | _, [] => []
  | h, op :: ops => valueOp h op ++ match stepP E h op with
    | .ok h' => valueOps E h' ops
    | .fail _ => []

end Verif.Spec
