import Verif.Model.Net
import Verif.Model.Propagation
/-!
# Channels over moving nodes

The environment of `Model/Net` with the propagation models the helpers install (helper/isl-helper.cc:45-46,
helper/leo-channel-helper.cc:55-58 and 357-358) applied to the positions of the nodes.
-/

namespace Verif
open Real

/-- A `LeoPropagationLossModel` with rational powers: elevation angle in degrees, the three losses in dB. -/
structure LeoBudget where
  elev : ℝ
  atm : Power
  fspl : Power
  margin : Power

/-- Nodes with their mobility models (position as a function of time), the loss model of each channel (`none`: the
`IslPropagationLossModel`), the speed of `ConstantSpeedPropagationDelayModel` (ns-3, attribute `Speed`) and the conversion of
seconds to `Time` (`Seconds (double)`, ns-3). -/
structure Sky where
  pos : NodeId → Option (Time → Vec)
  budget : ChanId → Option LeoBudget
  speed : ℝ
  ofSeconds : ℝ → Time

/-- The loss model of a channel on the positions of two nodes at one time: `IslPropagationLossModel::DoCalcRxPower`
(model/isl-propagation-loss-model.cc:99-111) or `LeoPropagationLossModel::DoCalcRxPower`
(model/leo-propagation-loss-model.cc:114-136), with rational powers. -/
noncomputable def Sky.loss (b : Option LeoBudget) (tx : Power) (a c : Vec) : Power :=
  match b with
  | none => if islLos a c = false then -1000 else tx
  | some m =>
    open Classical in
    let sat := if a.len > c.len then a else c
    if (c - a).len > (LeoLoss.create m.elev m.atm m.fspl m.margin).cutoff sat then -1000
    else tx - m.atm - m.fspl - m.margin

/-- The environment of a network on these nodes.  The models are called only if both nodes have a mobility model
(model/mock-channel.cc:177-180); `ConstantSpeedPropagationDelayModel::GetDelay` is distance divided by speed (ns-3). -/
noncomputable def Sky.env (K : Sky) (E : Env) : Env :=
  { E with
    hasMob := fun n => (K.pos n).isSome
    loss := fun c => some fun tx a b t =>
      match K.pos a, K.pos b with
      | some p, some q => Sky.loss (K.budget c) tx (p t) (q t)
      | _, _ => tx
    delay := fun _ => some fun a b t =>
      match K.pos a, K.pos b with
      | some p, some q => K.ofSeconds ((q t - p t).len / K.speed)
      | _, _ => 0 }

end Verif
