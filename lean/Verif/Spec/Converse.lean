import Verif.Spec.FloodExample
/-! Conversations: packets sent to everybody, one after the other. -/

namespace Verif.Spec

/-- A pause and a packet that a node brings up after it. -/
structure Talk where
  pause : Time
  src : NodeId
  packet : Bytes
  proto : UInt16

/-- `Converse E R ports s ms ts u`: the talks `ms` begin in state `s`, with nothing in flight, at the times `ts`, and end in `u`.  Each
begins with its pause, then its node sends the packet on all its ports to everybody, then events are dispatched, where the code `R`
above the devices sends packets on, until none is left. -/
inductive Converse (E : Env) (R : Flooder) (ports : NodeId → List DevId) : Sys → List Talk → List Time → Sys → Prop
  | done {s : Sys} : Converse E R ports s [] [] s
  | talk {s s' t u : Sys} {m : Talk} {ms : List Talk} {ts : List Time} {k : Nat} (hw : step E s (.wait m.pause) = .ok s')
      (hf : (sendAll E (onAll ports m.src m.packet m.proto) s' >>= flood E R k) = .ok t) (hq : t.pending = [])
      (hc : Converse E R ports t ms ts u) : Converse E R ports s (m :: ms) (s'.now :: ts) u

end Verif.Spec
