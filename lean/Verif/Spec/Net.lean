import Verif.Model.Net
/-!
# Specification vocabulary for device and channel properties

Projections of the observable log, and independent descriptions of reachability and recipients.
Only the data types of the model (states, effects) are used here, none of its functions.
-/

namespace Verif.Spec

/-- Keep the effects selected by `g`. -/
def proj {α : Type} (g : Ev → Option α) (log : List (Time × Ev)) : List α :=
  log.filterMap (fun e => g e.2)

/-- Keep the effects selected by `g`, with their times. -/
def projT {α : Type} (g : Ev → Option α) (log : List (Time × Ev)) : List (Time × α) :=
  log.filterMap (fun e => (g e.2).map (fun a => (e.1, a)))

/-- Frame of a `Send` on `d` that returned true. -/
def acceptedEv (d : DevId) : Ev → Option Bytes
  | .sendRet d' _ _ _ true f => if d' = d then some f else none
  | _ => none

/-- Frame of a PhyTxBegin on `d`. -/
def begunEv (d : DevId) : Ev → Option Bytes
  | .phyTxBegin d' f => if d' = d then some f else none
  | _ => none

/-- Frame of a PhyTxEnd on `d`. -/
def endedEv (d : DevId) : Ev → Option Bytes
  | .phyTxEnd d' f => if d' = d then some f else none
  | _ => none

/-- Start or end of a transmission. -/
inductive Phase where
  | start (f : Bytes)
  | stop (f : Bytes)
  deriving DecidableEq, Repr

/-- PhyTxBegin and PhyTxEnd on `d`. -/
def phaseEv (d : DevId) : Ev → Option Phase
  | .phyTxBegin d' f => if d' = d then some (.start f) else none
  | .phyTxEnd d' f => if d' = d then some (.stop f) else none
  | _ => none

/-- Frames of accepted sends of `d`, in order. -/
def accepted (d : DevId) (log : List (Time × Ev)) : List Bytes := proj (acceptedEv d) log
/-- Frames put on the air by `d`, in order. -/
def begun (d : DevId) (log : List (Time × Ev)) : List Bytes := proj (begunEv d) log
/-- Frames whose transmission by `d` ended, in order. -/
def ended (d : DevId) (log : List (Time × Ev)) : List Bytes := proj (endedEv d) log
/-- Starts and ends of transmissions of `d`, in order. -/
def phases (d : DevId) (log : List (Time × Ev)) : List Phase := proj (phaseEv d) log
/-- Starts and ends of transmissions of `d` with their times. -/
def phasesT (d : DevId) (log : List (Time × Ev)) : List (Time × Phase) := projT (phaseEv d) log

/-- Strict alternation: complete transmissions, possibly followed by one in progress. -/
inductive Alternating : List Phase → Prop where
  | nil : Alternating []
  | inProgress (f : Bytes) : Alternating [.start f]
  | cons (f : Bytes) {l : List Phase} : Alternating l → Alternating (.start f :: .stop f :: l)

/-- Delay and power with which a frame from `src` reaches `dst` over channel `c` at time `now`, if
it does: no position on one side - transmit power, after the transmission time; otherwise the power
of the loss model, refused below -900 dBm, after the delay of the delay model. -/
def reach (E : Env) (now : Time) (c : ChanId) (txPower : Power) (ns nd : NodeId) (txTime : Time) :
    Option (Time × Power) :=
  match E.hasMob ns, E.hasMob nd with
  | true, true =>
    let del := ((E.delay c).map fun g => g ns nd now).getD 0
    match E.loss c with
    | none => some (del, txPower)
    | some l => if -900 ≤ l txPower ns nd now then some (del, l txPower ns nd now) else none
  | _, _ => some (txTime, txPower)

/-- The devices a transmission of the device in slot `slot` of channel `c` is meant for.
LEO channel: all devices of the opposite side, the sides being told by the address indices.
ISL channel: the first attached device with the destination address; for a broadcast destination that
no device has as its address, all attached devices but the sender. -/
def audience (s : Sys) (c : ChanId) (slot : Nat) (dest : Addr) : List DevId :=
  let ch := s.chan c
  match ch.link[slot]? with
  | none => []
  | some src =>
    match ch.kind with
    | .leo =>
      if (s.dev src).addr ∈ ch.gnd.map Prod.fst then ch.sat.map Prod.snd
      else if (s.dev src).addr ∈ ch.sat.map Prod.fst then ch.gnd.map Prod.snd
      else []
    | .isl =>
      match ch.link.find? (fun d => Addr.mac (s.dev d).addr = dest) with
      | some dst => [dst]
      | none => if dest = .mac Mac48.broadcast then ch.link.eraseIdx slot else []

/-- A broadcast over an ISL channel by an attached device, no attached device owning the broadcast
address.  The channel reports success for these whatever happens. -/
def Floods (s : Sys) (c : ChanId) (slot : Nat) (dest : Addr) : Prop :=
  (s.chan c).kind = .isl ∧ (s.chan c).link[slot]?.isSome = true ∧ dest = .mac Mac48.broadcast ∧
    ∀ d ∈ (s.chan c).link, (s.dev d).addr ≠ Mac48.broadcast

/-- Packets of the receptions at `dst` from `src` among pending events, in dispatch order. -/
def pendingRecv (src dst : DevId) (ps : List Pending) : List Bytes :=
  ps.filterMap fun p => match p.act with
    | .receive d f s _ => if d = dst ∧ s = src then some f else none
    | _ => none

/-- Frames handed from `src` to `dst` by a channel, in order. -/
def handed (src dst : DevId) (log : List (Time × Ev)) : List Bytes :=
  proj (fun e => match e with
    | .txrx _ f s d _ _ => if d = dst ∧ s = src then some f else none
    | _ => none) log

/-- Frames with which `Receive` was called at `dst` with sender `src`, in order. -/
def received (src dst : DevId) (log : List (Time × Ev)) : List Bytes :=
  proj (fun e => match e with
    | .recvCall d f s _ => if d = dst ∧ s = src then some f else none
    | _ => none) log

end Verif.Spec
