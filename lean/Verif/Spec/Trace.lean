import Verif.Spec.Net
import Verif.Spec.Receive
/-!
# What the trace sources of a device report

Each definition lists, for one device, the packets reported by one trace source, or the calls a program or the
simulator made, in order.
-/

namespace Verif.Spec

/-- Keep the effects of device `d` selected by `g`. -/
def ofDev {α : Type} (d : DevId) (g : Ev → Option (DevId × α)) (log : List (Time × Ev)) : List α :=
  proj (fun e => (g e).bind fun x => if x.1 = d then some x.2 else none) log

/-- Sniffer. -/
def sniffed (d : DevId) : List (Time × Ev) → List Bytes := ofDev d fun | .sniffer d f => some (d, f) | _ => none
/-- PromiscSniffer. -/
def promiscSniffed (d : DevId) : List (Time × Ev) → List Bytes :=
  ofDev d fun | .promiscSniffer d f => some (d, f) | _ => none
/-- Frames handed to the channel. -/
def aired (d : DevId) : List (Time × Ev) → List Bytes := ofDev d fun | .onAir d f _ => some (d, f) | _ => none
/-- MacTx. -/
def macTxs (d : DevId) : List (Time × Ev) → List Bytes := ofDev d fun | .macTx d f => some (d, f) | _ => none
/-- MacTxDrop. -/
def macTxDrops (d : DevId) : List (Time × Ev) → List Bytes :=
  ofDev d fun | .macTxDrop d f => some (d, f) | _ => none
/-- PhyTxDrop. -/
def phyTxDrops (d : DevId) : List (Time × Ev) → List Bytes :=
  ofDev d fun | .phyTxDrop d f => some (d, f) | _ => none
/-- PhyRxEnd. -/
def phyRxEnds (d : DevId) : List (Time × Ev) → List Bytes := ofDev d fun | .phyRxEnd d f => some (d, f) | _ => none
/-- PhyRxDrop. -/
def phyRxDrops (d : DevId) : List (Time × Ev) → List Bytes :=
  ofDev d fun | .phyRxDrop d f => some (d, f) | _ => none
/-- MacRxDrop. -/
def macRxDrops (d : DevId) : List (Time × Ev) → List Bytes :=
  ofDev d fun | .macRxDrop d f => some (d, f) | _ => none
/-- MacRx. -/
def macRxs (d : DevId) : List (Time × Ev) → List Bytes := ofDev d fun | .macRx d f => some (d, f) | _ => none
/-- MacPromiscRx. -/
def macPromiscRxs (d : DevId) : List (Time × Ev) → List Bytes :=
  ofDev d fun | .macPromiscRx d f => some (d, f) | _ => none
/-- Calls of the promiscuous callback. -/
def promiscCalls (d : DevId) : List (Time × Ev) → List Bytes :=
  ofDev d fun | .promiscCallback d p _ _ _ _ => some (d, p) | _ => none
/-- Calls of the receive callback. -/
def rxCalls (d : DevId) : List (Time × Ev) → List Bytes :=
  ofDev d fun | .rxCallback d p _ _ => some (d, p) | _ => none
/-- Frames with which `Receive` was called, the sender being another device. -/
def arrived (d : DevId) : List (Time × Ev) → List Bytes :=
  ofDev d fun | .recvCall d f s _ => if s = d then none else some (d, f) | _ => none
/-- Frames with which `Receive` was called, the sender being the device itself. -/
def returned (d : DevId) : List (Time × Ev) → List Bytes :=
  ofDev d fun | .recvCall d f s _ => if s = d then some (d, f) else none | _ => none
/-- The caller's packets after calls of `Send` that returned false. -/
def refused (d : DevId) : List (Time × Ev) → List Bytes :=
  ofDev d fun | .sendRet d _ _ _ false f => some (d, f) | _ => none
/-- The caller's packets after calls of `Send` that changed them. -/
def framed (d : DevId) : List (Time × Ev) → List Bytes :=
  ofDev d fun | .sendRet d p _ _ _ f => if f = p then none else some (d, f) | _ => none

end Verif.Spec
