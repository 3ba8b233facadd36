import Verif.Spec.Channel
import Verif.Spec.Receive
/-! Specification of a single packet going from `Send` to the receive callbacks. -/

namespace Verif.Spec

/-- Device `x` hears what `d` sends to address `m` over channel `c` in state `s`: the propagation models
let the frame through, `x` is not the sender, what is left of the power is enough, and the
address is one `x` passes on. -/
def Hears (E : Env) (s : Sys) (c : ChanId) (d : DevId) (m : Mac48) (x : DevId) : Prop :=
  ∃ y, reachDev E s c d 0 x = some y ∧ TakesUp (s.dev x) x d m y.2

/-- There are no bit errors. -/
def ErrorFree (E : Env) : Prop := ∀ a b c e, E.corrupt a b c e = false

end Verif.Spec
