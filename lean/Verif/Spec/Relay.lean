import Verif.Model.Relay
import Verif.Spec.Channel
import Verif.Spec.Receive
/-! Routes: a packet going from device to device. -/

namespace Verif.Spec

/-- One hop: `src` sends `packet` to the address of `dst`, which gets it `delay` later. -/
structure Hop where
  src : DevId
  dst : DevId
  packet : Bytes
  proto : UInt16
  delay : Time

/-- The size of the frame of a hop on the wire. -/
def Hop.size (h : Hop) : Nat := max 64 (h.packet.length + 26)

/-- How long the hop occupies the sender. -/
def Hop.occupies (E : Env) (s : Sys) (h : Hop) : Time := E.txTime (s.dev h.src).rate h.size + (s.dev h.src).gap

/-- The hop can be made at time `t`: the packet is not too large, the sender has its link up and room in its queue, both devices are
attached to its ground/space channel on different sides or the receiver was attached to its inter-satellite channel, the receiver's
address is no group address, and at time `t` the propagation models let the frame through, with the delay of the hop and
enough power for the receiver. -/
def HopOk (E : Env) (s : Sys) (t : Time) (h : Hop) : Prop :=
  h.packet.length ≤ 1492 ∧ (s.dev h.src).linkUp = true ∧ 0 < (s.dev h.src).cap ∧ (s.dev h.dst).addr.b0.toNat % 2 = 0 ∧
  ∃ c, (s.dev h.src).chan = some c ∧ h.src ≠ h.dst ∧
    ((s.chan c).kind = .leo → h.src ∈ members c s.log ∧ h.dst ∈ members c s.log ∧ (s.dev h.dst).side ≠ (s.dev h.src).side) ∧
    ((s.chan c).kind = .isl → h.dst ∈ slots c s.log) ∧
    ∃ pw, reachDev E { s with now := t } c h.src (E.txTime (s.dev h.src).rate h.size) h.dst = some (h.delay, pw) ∧
      (s.dev h.dst).rxThreshold ≤ effectivePower (s.dev h.dst) pw

/-- The hops of a route that starts at `t`, with their starting times: each hop starts when the one before has arrived. -/
def timed (t : Time) : List Hop → List (Time × Hop)
  | [] => []
  | h :: hs => (t, h) :: timed (t + h.delay) hs

/-- Every hop of a route can be made when its time comes, and a device that sends several times on the route has finished
before it is to send again. -/
def RouteOk (E : Env) (s : Sys) (t : Time) (hs : List Hop) : Prop :=
  (∀ e ∈ timed t hs, HopOk E s e.1 e.2) ∧
  (timed t hs).Pairwise fun a b => a.2.src = b.2.src → a.1 + a.2.occupies E s < b.1

/-- The forwarding decisions lead along the route and end there. -/
def Follows (s : Sys) (R : Forwarder) : List Hop → Prop
  | [] => True
  | [h] => R h.dst h.packet h.proto (s.dev h.src).addr = none
  | h :: h' :: hs => R h.dst h.packet h.proto (s.dev h.src).addr = some (h'.src, h'.packet, .mac (s.dev h'.dst).addr, h'.proto) ∧
    Follows s R (h' :: hs)

/-- The forwarding decisions lead along the hops (what happens at the last one is left open). -/
def LeadsOn (s : Sys) (R : Forwarder) : List Hop → Prop
  | [] => True
  | [_] => True
  | h :: h' :: hs => R h.dst h.packet h.proto (s.dev h.src).addr = some (h'.src, h'.packet, .mac (s.dev h'.dst).addr, h'.proto) ∧
    LeadsOn s R (h' :: hs)

/-- All calls of receive callbacks, with their times. -/
def allUps (log : List (Time × Ev)) : List (Time × DevId × Bytes × UInt16 × Mac48) :=
  log.filterMap fun e => match e.2 with
    | .rxCallback d p proto sa => some (e.1, d, p, proto, sa)
    | _ => none

/-- What the route is expected to bring about: at the end of every hop, the receive callback of its device. -/
def arrivals (s : Sys) (t : Time) (hs : List Hop) : List (Time × DevId × Bytes × UInt16 × Mac48) :=
  (timed t hs).map fun e => (e.1 + e.2.delay, e.2.dst, e.2.packet, e.2.proto, (s.dev e.2.src).addr)

/-- The arguments of the `Send` calls of a history. -/
def sendCalls (ops : List Op) : List (DevId × Bytes × Addr × UInt16) :=
  ops.filterMap fun op => match op with
    | .send d p dest proto => some (d, p, dest, proto)
    | _ => none

/-- A history that only sends and runs events, with the number of events run. -/
def SendRun (n : Nat) (ops : List Op) : Prop :=
  (∀ op ∈ ops, op = .run ∨ ∃ d p dest proto, op = .send d p dest proto) ∧ ops.length = n + (sendCalls ops).length

/-- The forwarding code keeps to MAC addresses and packets of at most 65527 bytes. -/
def ForwardsProperly (R : Forwarder) : Prop :=
  ∀ x p proto sa d p' dest proto', R x p proto sa = some (d, p', dest, proto') → dest ≠ .other ∧ p'.length ≤ 65527

end Verif.Spec
