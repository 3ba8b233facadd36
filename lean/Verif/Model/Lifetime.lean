import Verif.Model.Fleet
import Verif.Model.Dispose
/-!
# Lifetimes of mobility models and devices

ns-3 objects are counted references (`Ptr`) and are destroyed with the last one.  `Simulator::Schedule (delay, &T::F, this)` puts the
bare pointer `this` into the event: the event does not keep the object alive.  That is how `LeoCircularOrbitMobilityModel::Update`
(model/leo-circular-orbit-mobility-model.cc:165) and `MockNetDevice::TransmitStart` (model/mock-net-device.cc:335) schedule, whereas
`MockChannel::Deliver` (model/mock-channel.cc:197-203) puts a `Ptr` into the event.
-/

namespace Verif
open Real

/-! ## Mobility models -/

/-- The mobility models of `Model/Fleet` and who has a `Ptr` to them: the program (a variable, the argument of an event), and the node
they are aggregated to, which the list of nodes of ns-3 keeps until `Simulator::Destroy`. -/
structure LFleet where
  fleet : Fleet
  var : Nat → Bool
  node : Nat → Bool

/-- The object exists. -/
def LFleet.alive (L : LFleet) (i : Nat) : Bool := L.var i || L.node i

/-- Nothing created yet. -/
def LFleet.empty : LFleet := ⟨Fleet.empty, fun _ => false, fun _ => false⟩

/-- What a program may do: all that `Model/Fleet` has (`create` is `CreateObject`), aggregate a model to a node
(`Node::AggregateObject`, `MobilityHelper::Install`), give up its own pointers (end of the scope of a variable), and
`Simulator::Destroy`. -/
inductive LOp where
  | op (o : FleetOp)
  | aggregate (i : Nat)
  | drop (i : Nat)
  | destroy

/-- The mobility model an operation is called on. -/
def FleetOp.target : FleetOp → Option Nat
  | .setPosition i _ => some i
  | .setAltitude i _ => some i
  | .setInclination i _ => some i
  | .setPrecision i _ => some i
  | _ => none

/-- One operation.  An event for an object that does not exist any more is undefined behaviour.  Calls on such an object are not possible:
there is no pointer left.  `Config::Connect` finds the models that are aggregated to nodes.  `Simulator::Destroy` (ns-3 core) drops all
events and all nodes; the next simulation starts at time zero. -/
noncomputable def LFleet.step (junk : ℝ) (L : LFleet) : LOp → Outcome LFleet
  | .aggregate i => .ok (if L.alive i then { L with node := fun j => if j = i then true else L.node j } else L)
  | .drop i => .ok { L with var := fun j => if j = i then false else L.var j }
  | .destroy => .ok { L with fleet := { L.fleet with now := 0, pending := [], stopped := false }, node := fun _ => false }
  | .op .connect => .ok { L with fleet := { L.fleet with sinks := fun i => if L.node i then L.fleet.sinks i + 1 else L.fleet.sinks i } }
  | .op (.create alt inc prec) => L.fleet.step junk (.create alt inc prec) >>= fun F =>
    .ok { L with fleet := F, var := fun j => if j = L.fleet.mobs.length then true else L.var j }
  | .op .run =>
    match L.fleet.pending with
    | (_, .update i) :: _ =>
      if !L.fleet.stopped && !L.alive i then .fail .useAfterFree
      else L.fleet.step junk .run >>= fun F => .ok { L with fleet := F }
    | _ => L.fleet.step junk .run >>= fun F => .ok { L with fleet := F }
  | .op o =>
    match o.target with
    | some i => if L.alive i then L.fleet.step junk o >>= fun F => .ok { L with fleet := F } else .ok L
    | none => L.fleet.step junk o >>= fun F => .ok { L with fleet := F }

/-- A history. -/
noncomputable def LFleet.exec (junk : ℝ) (L : LFleet) : List LOp → Outcome LFleet
  | [] => .ok L
  | o :: ops => L.step junk o >>= fun L' => L'.exec junk ops

/-- The test cases `LeoOrbitSpeedTestCase`, `LeoOrbitPositionTestCase` and `LeoOrbitProgressTestCase` of
test/leo-orbit-test-suite.cc:48-54, 69-76, 98-109, which the test suite runs one after the other in this order
(lines 233-235): a model with default attributes (altitude 1000, inclination 10, precision 1 s), its attributes set, and dropped at the
end of `DoRun`; the third runs the simulator for 101 s (its own event at 100 s is left out). -/
def orbitTests : List LOp :=
  [.op (.create 1000 10 1000000000), .op (.setAltitude 0 0), .drop 0,
   .op (.create 1000 10 1000000000), .op (.setAltitude 1 0), .op (.setInclination 1 1), .drop 1,
   .op (.create 1000 10 1000000000), .op (.setAltitude 2 0), .op (.setInclination 2 20), .op (.stopAfter 101000000000), .op .run]

/-! ## Devices -/

/-- A system and for each device whether its node or the program has a `Ptr` to it. -/
structure OSys where
  sys : DSys
  held : DevId → Bool

/-- The device exists: its node or the program has a `Ptr` to it, or `m_link` of a channel (model/mock-channel.h:160), which the list of
channels of ns-3 keeps until `Simulator::Destroy`, or an event scheduled by `Deliver` (model/mock-channel.cc:197-203). -/
def OSys.Alive (s : OSys) (d : DevId) : Prop :=
  s.held d = true ∨ (∃ c, d ∈ (s.sys.sys.chan c).link) ∨
    ∃ p ∈ s.sys.sys.pending, match p.act with
      | .receive dst _ src _ => dst = d ∨ src = d
      | .txComplete _ _ => False

/-- Give up the pointers of node and program to a device, or anything else. -/
inductive OOp where
  | release (d : DevId)
  | op (o : DOp)

open Classical in
/-- One operation.  The event of a transmission (model/mock-net-device.cc:335) has a bare pointer to its device. -/
noncomputable def stepO (E : Env) (s : OSys) : OOp → Outcome OSys
  | .release d => .ok { s with held := fun x => if x = d then false else s.held x }
  | .op (.op .run) =>
    match s.sys.sys.pending with
    | ⟨_, .txComplete d _⟩ :: _ =>
      if s.Alive d then stepD E s.sys (.op .run) >>= fun t => .ok { s with sys := t } else .fail .useAfterFree
    | _ => stepD E s.sys (.op .run) >>= fun t => .ok { s with sys := t }
  | .op o => stepD E s.sys o >>= fun t => .ok { s with sys := t }

/-- A history. -/
noncomputable def execO (E : Env) : OSys → List OOp → Outcome OSys
  | s, [] => .ok s
  | s, o :: ops => stepO E s o >>= fun s' => execO E s' ops

/-- The same history without the releases. -/
def OOp.plain : List OOp → List DOp
  | [] => []
  | .release _ :: ops => OOp.plain ops
  | .op o :: ops => o :: OOp.plain ops

end Verif
