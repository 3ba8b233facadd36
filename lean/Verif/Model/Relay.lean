import Verif.Model.Reentrant
/-!
# Programs that forward packets

The receive callback of a device (`m_rxCallback`, model/mock-net-device.cc:529) leads to the node and the protocols above, which may
forward the packet by calling `Send` on a device of the node before the callback returns.  The forwarding decision is not
part of the code: it is a parameter.
-/

namespace Verif

/-- A forwarding decision: device that received, packet, protocol and link-layer source to the device that sends on, the packet
(with changed headers), the link-layer destination and the protocol; `none`: the packet is not forwarded. -/
abbrev Forwarder := DevId → Bytes → UInt16 → Mac48 → Option (DevId × Bytes × Addr × UInt16)

/-- The code connected to the receive callbacks, called with the arguments that were logged last; nothing else is connected. -/
def forwardSink (E : Env) (R : Forwarder) : Sinks := fun h t =>
  match h with
  | .rxCallback =>
    match t.log.getLast? with
    | some (_, .rxCallback x p proto sa) =>
      match R x p proto sa with
      | some (d, p', dest, proto') => send E t d p' dest proto'
      | none => .ok t
    | _ => .ok t
  | _ => .ok t

/-- Dispatch of the next event (`run`) with code connected to the trace sources and callbacks. -/
def runK (E : Env) (k : Sinks) (s : Sys) : Outcome Sys :=
  match s.pending with
  | [] => .ok s
  | p :: ps =>
    match p.act with
    | .txComplete d dest => transmitCompleteK E k { s with now := p.time, pending := ps } d dest
    | .receive dst f src rx => receiveK E k { s with now := p.time, pending := ps } dst f src rx

/-- The dispatch of `n` events while packets are forwarded. -/
def relay (E : Env) (R : Forwarder) : Nat → Sys → Outcome Sys
  | 0, s => .ok s
  | n + 1, s => runK E (forwardSink E R) s >>= relay E R n

/-- A history of operations (`exec`) while packets are forwarded from the receive callback (model/mock-net-device.cc:529). -/
def forwardExec (E : Env) (R : Forwarder) : Sys → List Op → Outcome Sys
  | s, [] => .ok s
  | s, .run :: ops => runK E (forwardSink E R) s >>= fun t => forwardExec E R t ops
  | s, op :: ops => step E s op >>= fun t => forwardExec E R t ops

end Verif
