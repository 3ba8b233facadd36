import Verif.Model.Relay
import Verif.Spec.Queueing
import Verif.Spec.Proper
import Verif.Spec.EndToEnd
/-! Delivery of packets while other packets are on their way (C93). -/

namespace Verif.Spec

/-- A packet that `src` sends from its link-layer address `own` to the link-layer address `to` and that is meant for `dst`.  `work`
bounds the time a frame occupies `src`, `delay` the propagation delay, `power` from below the power that arrives. -/
structure Stage where
  src : DevId
  dst : DevId
  packet : Bytes
  proto : UInt16
  own : Mac48
  to : Mac48
  work : Time
  delay : Time
  power : Power

/-- The longest time the frame waits for its transmission: the queue is full of frames that take the longest. -/
def Stage.queueing (s0 : Sys) (g : Stage) : Time := (s0.dev g.src).cap * g.work

/-- The longest time from `Send` to the arrival. -/
def Stage.bound (s0 : Sys) (g : Stage) : Time := g.queueing s0 + g.delay

/-- Something holds in all states of a history at times from `t` to `T`. -/
def During (E : Env) (s0 : Sys) (ops : List Op) (t T : Time) (P : Sys → Prop) : Prop :=
  ∀ o1 o2 u, ops = o1 ++ o2 → exec E s0 o1 = .ok u → t ≤ u.now → u.now ≤ T → P u

/-- In state `u` the receiver is within reach of the sender: both are attached to the ground/space channel of the sender on different
sides, or the receiver, with the address the packet is for, to its inter-satellite channel, and the propagation models let a frame
of this length through, with at most this delay and at least this power. -/
def InReach (E : Env) (g : Stage) (u : Sys) : Prop :=
  ∃ c, (u.dev g.src).chan = some c ∧
    ((u.chan c).kind = .leo → g.src ∈ members c u.log ∧ g.dst ∈ members c u.log ∧ (u.dev g.dst).side ≠ (u.dev g.src).side) ∧
    ((u.chan c).kind = .isl → g.dst ∈ slots c u.log ∧ (u.dev g.dst).addr = g.to) ∧
    ∃ del pw, reachDev E u c g.src (E.txTime (u.dev g.src).rate (max 64 (g.packet.length + 26))) g.dst = some (del, pw) ∧
      del ≤ g.delay ∧ g.power ≤ pw

/-- In state `u` the receiver passes on what arrives with this power for this address. -/
def Listening (g : Stage) (u : Sys) : Prop := TakesUp (u.dev g.dst) g.dst g.src g.to g.power

/-- A `Send` between `t` and `T` finds all as the stage says: the packet is not too large, rate and interframe gap stay as they
are, frames do not occupy the sender longer than `work`, the sender keeps its address, the receiver is in reach as long as the
frame may wait and listens until it must have arrived. -/
structure StageOk (E : Env) (s0 : Sys) (ops : List Op) (s : Sys) (t T : Time) (g : Stage) : Prop where
  small : g.packet.length ≤ 1492
  steady : SteadyRate g.src ops
  work : ∀ f ∈ accepted g.src s.log, occupation E (s0.dev g.src) f ≤ g.work
  own : During E s0 ops t T fun u => (u.dev g.src).addr = g.own
  reach : During E s0 ops t (T + g.queueing s0) (InReach E g)
  listens : During E s0 ops t (T + g.bound s0) (Listening g)

/-- In state `u` the channel of the sender is a ground/space channel. -/
def OverLeo (g : Stage) (u : Sys) : Prop := ∀ c, (u.dev g.src).chan = some c → (u.chan c).kind = .leo

/-- The device sends to no other address. -/
def OnlyTo (d : DevId) (m : Mac48) (ops : List Op) : Prop := ∀ p x proto, Op.send d p x proto ∈ ops → x = .mac m

/-- The claim: every packet a device accepts arrives in time, whatever else is sent. -/
def DeliveryUnderLoad : Prop :=
  ∀ (E : Env) (s0 s : Sys) (ops : List Op) (g : Stage) (t : Time) (f : Bytes), ErrorFree E → Initial s0 → ProperRun E s0 ops →
    exec E s0 ops = .ok s → StageOk E s0 ops s t t g → (t, Ev.sendRet g.src g.packet (.mac g.to) g.proto true f) ∈ s.log →
    t + g.bound s0 < s.now →
    ∃ t', (t', Ev.rxCallback g.dst g.packet g.proto g.own) ∈ s.log ∧ t ≤ t' ∧ t' ≤ t + g.bound s0

/-- A history in which the forwarding decisions are carried out: after an event that calls a receive callback comes the
`Send` that was decided on. -/
def CarriesOut (E : Env) (R : Forwarder) (s0 : Sys) (ops : List Op) : Prop :=
  ∀ o1 o2 u u', ops = o1 ++ .run :: o2 → exec E s0 o1 = .ok u → run E u = .ok u' →
    ∀ t x p proto sa, (t, Ev.rxCallback x p proto sa) ∈ newLog u u' →
    ∀ d p' dest proto', R x p proto sa = some (d, p', dest, proto') → ∃ o3, o2 = .send d p' dest proto' :: o3

/-- All stages are as they should be when the packet comes to them. -/
def StagesOk (E : Env) (s0 : Sys) (ops : List Op) (s : Sys) (t : Time) : Time → List Stage → Prop
  | _, [] => True
  | T, g :: gs => StageOk E s0 ops s t T g ∧ StagesOk E s0 ops s t (T + g.bound s0) gs

/-- On an inter-satellite channel the senders of the stages send to one address only. -/
def Undivided (E : Env) (s0 : Sys) (ops : List Op) (g : Stage) : Prop :=
  (∀ o1 o2 u, ops = o1 ++ o2 → exec E s0 o1 = .ok u → OverLeo g u) ∨ OnlyTo g.src g.to ops

/-- The forwarding decisions lead from stage to stage. -/
def Leads (R : Forwarder) : List Stage → Prop
  | g :: h :: gs => R g.dst g.packet g.proto g.own = some (h.src, h.packet, .mac h.to, h.proto) ∧ Leads R (h :: gs)
  | _ => True

/-- A program keeps the rules while packets are forwarded. -/
def ProperProgram (E : Env) (R : Forwarder) (s0 : Sys) (ops : List Op) : Prop :=
  ∀ o1 op o2 u, ops = o1 ++ op :: o2 → forwardExec E R s0 o1 = .ok u → Proper u op

/-- Not a call of `Send`. -/
def notSend : Op → Bool
  | .send .. => false
  | _ => true

end Verif.Spec
