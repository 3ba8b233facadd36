import Verif.Model.Relay
/-!
# Programs that send packets on to several neighbours

As Model/Relay.lean, but the code above the receive callback (`m_rxCallback`, model/mock-net-device.cc:529) may call `Send` any
number of times and may decide by everything that has happened so far (flooding, AODV with its tables, epidemic routing:
examples/leo-delay-tracing-example.cc:160-177).  The decision is not part of the code: it is a parameter.
-/

namespace Verif

/-- A decision what to send when a packet is passed up: by the state of the network (with its history), the device that
received, the packet, its protocol and its link-layer source to the arguments of the `Send` calls, in order. -/
abbrev Flooder := Sys → DevId → Bytes → UInt16 → Mac48 → List (DevId × Bytes × Addr × UInt16)

/-- `Send` called one after the other (model/mock-net-device.cc:663-714). -/
def sendAll (E : Env) : List (DevId × Bytes × Addr × UInt16) → Sys → Outcome Sys
  | [], t => .ok t
  | (d, p, dest, proto) :: l, t => send E t d p dest proto >>= sendAll E l

/-- The code connected to the receive callbacks, called with the arguments that were logged last; nothing else is connected. -/
def floodSink (E : Env) (R : Flooder) : Sinks := fun h t =>
  match h with
  | .rxCallback =>
    match t.log.getLast? with
    | some (_, .rxCallback x p proto sa) => sendAll E (R t x p proto sa) t
    | _ => .ok t
  | _ => .ok t

/-- The dispatch of `n` events while packets are sent on from the receive callback. -/
def flood (E : Env) (R : Flooder) : Nat → Sys → Outcome Sys
  | 0, s => .ok s
  | n + 1, s => runK E (floodSink E R) s >>= flood E R n

end Verif
