import Verif.Model.Example
import Verif.Model.Sky
/-!
# Network and satellites in one simulation

`Model/Net` takes the positions of the nodes as a function of time, `Model/Fleet` has the satellites without the network.  Here both share
the clock and take turns, as in examples/leo-delay-tracing-example.cc and examples/leo-bulk-send-example.cc: the channels ask the mobility
models for the positions they report at this moment (model/mock-channel.cc:115-129 and 165-208).
-/

namespace Verif

/-- The network and the satellites. -/
structure World where
  net : Sys
  fleet : Fleet

/-- What happens next: an operation of an application, or the next event, of the network; the next `Update` of a satellite. -/
inductive WorldOp where
  | net (op : Op)
  | update

/-- The channels over the satellites `F` and the stations of the program.  `MobilityModel::GetPosition` is `DoGetPosition`
(model/leo-circular-orbit-mobility-model.cc:171-180) for satellites and a constant for stations (`ConstantPositionMobilityModel`,
helper/ground-node-helper.cc:64, 88 and 120); the loss models are those the helpers gave to the channels. -/
noncomputable def ExampleNet.sky (X : ExampleNet) (speed : ℝ) (ofSeconds : ℝ → Time) (F : Fleet) : Sky where
  pos n := match F.mobs[n]? with
    | some m => some m.getPosition
    | none => (X.ground[n - F.mobs.length]?).join.map fun v _ => v
  budget c := match X.build.lossOf c with
    | some (.leo l) => some ⟨l.elev, l.atm, l.fspl, l.margin⟩
    | _ => none
  speed := speed
  ofSeconds := ofSeconds

/-- The time at which an operation of the network takes place: an event at its time, the end of a pause, and calls at once. -/
def Sys.timeOf (s : Sys) : Op → Time
  | .run => (s.pending.head?.map (·.time)).getD s.now
  | .wait dt => s.now + dt
  | _ => s.now

/-- One operation.  `Simulator::Run` takes the earliest event (ns-3 core); of events at the same time any may be next.  What is not due
does not happen. -/
noncomputable def World.step (junk : ℝ) (X : ExampleNet) (speed : ℝ) (ofSeconds : ℝ → Time) (E : Env) (W : World) :
    WorldOp → Outcome World
  | .net op =>
    if W.fleet.pending.all fun e => decide (W.net.timeOf op ≤ e.1) then
      Verif.step ((X.sky speed ofSeconds W.fleet).env E) W.net op >>= fun s => .ok ⟨s, { W.fleet with now := s.now }⟩
    else .ok W
  | .update =>
    match W.fleet.pending with
    | [] => .ok W
    | e :: _ =>
      if W.net.pending.all fun p => decide (e.1 ≤ p.time) then
        W.fleet.step junk .run >>= fun F => .ok ⟨{ W.net with now := F.now }, F⟩
      else .ok W

/-- A history of the simulation; the first fault ends it. -/
noncomputable def World.exec (junk : ℝ) (X : ExampleNet) (speed : ℝ) (ofSeconds : ℝ → Time) (E : Env) : World → List WorldOp → Outcome World
  | W, [] => .ok W
  | W, op :: ops => W.step junk X speed ofSeconds E op >>= fun W' => W'.exec junk X speed ofSeconds E ops

/-- The simulation when `main` has built the network. -/
def ExampleNet.start (X : ExampleNet) : World := ⟨X.build.sys, X.fleet⟩

end Verif
