import Verif.Model.Net
/-!
# Calls from inside trace sinks and callbacks

Model/Net treats trace sources and callbacks as log entries: the code that is connected to them
returns without doing anything.  In a simulation that code may call `Send`, on the same device or on
another one (a forwarding application does so from the receive callback).  The functions below repeat
`Send`, `TransmitStart`, `TransmitComplete` and `Receive` statement by statement, hand control to the
connected code wherever a trace source or a callback fires, and re-read the members of the device
afterwards, as the C++ code does.

The trace sources of the transmission queue are included.  ns-3's `Queue` fires Enqueue after the packet
has been inserted, Dequeue after it has been removed and Drop when it is refused; code connected to them
(flow control among it) runs in the middle of `Send` and of `TransmitComplete`.

Connected code may also reconfigure devices (setters), attach them and detach them, on the device whose
call it interrupts or on another one.  The link change callbacks, which `Attach` and `Detach` run, are
included.

Code connected to the trace source of the channel runs in the middle of the loops that deliver a frame.  The
loops read the containers of the channel again in every round, as the C++ code does: the loop over a
`std::map` goes on with the next key of the map as it then is, the loop over `m_link` compares with its
current size.  `Detach` from inside a loop over a map may erase the element the iterator of the loop points
to; the increment of that iterator is undefined behaviour.

Simplifications: code connected to the counters PacketsInQueue and BytesInQueue makes no calls.  The fault
`iteratorInvalid` is raised at the erasure, not at the increment that follows when the connected code has
returned.
-/

namespace Verif

/-- The points at which the device hands control to user code (trace sources and callbacks of
model/mock-net-device.cc). -/
inductive Hook where
  /-- lines 677, 710 -/
  | macTxDrop
  /-- line 685 -/
  | macTx
  /-- lines 379, 698, 519 -/
  | promiscSniffer
  /-- lines 378, 699 -/
  | sniffer
  /-- line 329 -/
  | phyTxBegin
  /-- line 340 -/
  | phyTxDrop
  /-- line 365 -/
  | phyTxEnd
  /-- line 430 -/
  | macRxDrop
  /-- line 434 -/
  | phyRxEnd
  /-- lines 441, 451, 472 -/
  | phyRxDrop
  /-- line 522 -/
  | macPromiscRx
  /-- line 523 -/
  | promiscCallback
  /-- line 528 -/
  | macRx
  /-- line 529 -/
  | rxCallback
  /-- Enqueue of the queue, line 690 -/
  | enqueue
  /-- Dequeue of the queue, lines 368, 697 -/
  | dequeue
  /-- Drop of the queue, line 690 -/
  | queueDrop
  /-- lines 545, 553 -/
  | linkChange
  /-- model/mock-channel.cc:206, while the `i`-th round of a loop delivers (0 for a single delivery) -/
  | txrx (i : Nat)
  /-- the same inside the loop over an index of channel `c` whose iterator points to address `a` -/
  | txrxAt (c : ChanId) (a : Mac48) (i : Nat)
  deriving DecidableEq, Repr

/-- The iterators of the loops of `LeoMockChannel::TransmitStart` (model/leo-mock-channel.cc:100) that are being
executed: channel and address they point to. -/
abbrev Iters := List (ChanId × Mac48)

/-- The trace source or callback that fires: connected code does not know about iterators. -/
def Hook.point : Hook → Hook
  | .txrxAt _ _ i => .txrx i
  | h => h

/-- The iterators that exist while the code connected to `h` runs. -/
def Hook.iters : Hook → Iters → Iters
  | .txrxAt c a _, its => (c, a) :: its
  | _, its => its

mutual
/-- A call with everything the connected code does while it is executed. -/
inductive Call where
  /-- a call of `Send` -/
  | mk (d : DevId) (p : Bytes) (dest : Addr) (proto : UInt16) (sc : Script)
  /-- a setter, `SendFrom`, `Attach` or `Detach` -/
  | conf (op : Op) (sc : Script)
/-- What the connected code does during one call of the device: the calls made at each hook, in order. -/
inductive Script where
  | nil
  | cons (h : Hook) (c : Call) (rest : Script)
end

/-- The connected code as seen by the device: what happens when a hook fires. -/
abbrev Sinks := Hook → Sys → Outcome Sys

/-- `MockChannel::Deliver` (model/mock-channel.cc:164-208) with connected code, which runs when the frame has been
handed to the simulator. -/
def deliverK (E : Env) (k : Sys → Outcome Sys) (s : Sys) (c : ChanId) (f : Bytes) (src dst : DevId) (txTime : Time) :
    Outcome (Sys × Bool) := do
  let (s1, ok) ← deliver E s c f src dst txTime
  if ok then do
    let s2 ← k s1
    .ok (s2, true)
  else .ok (s1, false)

/-- The index that the loop of `LeoMockChannel::TransmitStart` runs over: satellites for a frame from the ground
(model/leo-mock-channel.cc:81-91). -/
def Chan.dests (ch : Chan) (fromGround : Bool) : List (Mac48 × DevId) := if fromGround then ch.sat else ch.gnd

/-- What the iterator at address `a` still has to visit.  If the index has not changed this is the rest of the
list; otherwise it is what the index now contains behind `a` (`std::map` is ordered). -/
def restAfter (before now rest : List (Mac48 × DevId)) (a : Mac48) : List (Mac48 × DevId) :=
  if now = before then rest else now.filter (fun x => decide (a.toNat < x.1.toNat))

/-- The loop of `LeoMockChannel::TransmitStart` (model/leo-mock-channel.cc:98-107) with connected code; the first
argument bounds the number of rounds. -/
def leoLoopK (E : Env) (k : Sinks) (c : ChanId) (fromGround : Bool) (f : Bytes) (src : DevId) (txTime : Time) :
    Nat → Nat → List (Mac48 × DevId) → Sys → Bool → Outcome (Sys × Bool)
  | _, _, [], s, r => .ok (s, r)
  | 0, _, _ :: _, _, _ => .fail .endlessLoop
  | n + 1, i, (a, d) :: rest, s, r => do
    let (s', ok) ← deliverK E (k (.txrxAt c a i)) s c f src d txTime
    leoLoopK E k c fromGround f src txTime n (i + 1)
      (restAfter ((s.chan c).dests fromGround) ((s'.chan c).dests fromGround) rest a) s' (if ok then true else r)

/-- `LeoMockChannel::TransmitStart` (model/leo-mock-channel.cc:53-108) with connected code.  There are 2^48
addresses. -/
def leoTransmitK (E : Env) (k : Sinks) (s : Sys) (c : ChanId) (f : Bytes) (slot : Nat) (_dest : Addr) (txTime : Time) :
    Outcome (Sys × Bool) :=
  match (s.chan c).link[slot]? with
  | none => .ok (s, false)
  | some src =>
    let a := (s.dev src).addr
    let fromGround := mapHas a (s.chan c).gnd
    let fromSpace := mapHas a (s.chan c).sat
    if fromGround && fromSpace then .fail .bothSides
    else if fromGround then
      leoLoopK E k c true f src txTime ((s.chan c).sat.length + 2 ^ 48) 0 (s.chan c).sat s false
    else if fromSpace then
      leoLoopK E k c false f src txTime ((s.chan c).gnd.length + 2 ^ 48) 0 (s.chan c).gnd s false
    else .ok (s, false)

/-- The broadcast loop of `IslMockChannel::TransmitStart` (model/isl-mock-channel.cc:78-83) with connected code; the
first argument bounds the number of rounds. -/
def islLoopK (E : Env) (k : Sinks) (c : ChanId) (f : Bytes) (src : DevId) (slot : Nat) (txTime : Time) :
    Nat → Nat → Sys → Outcome Sys
  | n, i, s =>
    match (s.chan c).link[i]? with
    | none => .ok s
    | some d =>
      match n with
      | 0 => .fail .endlessLoop
      | n + 1 =>
        if i = slot then islLoopK E k c f src slot txTime n (i + 1) s
        else do
          let (s', _) ← deliverK E (k (.txrx i)) s c f src d txTime
          islLoopK E k c f src slot txTime n (i + 1) s'

/-- `IslMockChannel::TransmitStart` (model/isl-mock-channel.cc:54-96) with connected code.  The loop is given up
when connected code has attached 2^32 devices from inside it. -/
def islTransmitK (E : Env) (k : Sinks) (s : Sys) (c : ChanId) (f : Bytes) (slot : Nat) (dest : Addr) (txTime : Time) :
    Outcome (Sys × Bool) :=
  match (s.chan c).link[slot]? with
  | none => .ok (s, false)
  | some src =>
    match findByAddr s dest (s.chan c).link with
    | some dst => deliverK E (k (.txrx 0)) s c f src dst txTime
    | none =>
      match dest with
      | .other => .fail .notAMac
      | .mac m =>
        if m.isBroadcast || m.isBroadcast then do
          let s' ← islLoopK E k c f src slot txTime ((s.chan c).link.length + 2 ^ 32) 0 s
          .ok (s', true)
        else .ok (s, false)

/-- Virtual dispatch of `MockChannel::TransmitStart` with connected code. -/
def chanTransmitK (E : Env) (k : Sinks) (s : Sys) (c : ChanId) (f : Bytes) (slot : Nat) (dest : Addr) (txTime : Time) :
    Outcome (Sys × Bool) :=
  match (s.chan c).kind with
  | .leo => leoTransmitK E k s c f slot dest txTime
  | .isl => islTransmitK E k s c f slot dest txTime

/-- `MockNetDevice::TransmitStart` (model/mock-net-device.cc:315-347) with connected code. -/
def transmitStartK (E : Env) (k : Sinks) (s : Sys) (d : DevId) (f : Bytes) (dest : Addr) : Outcome Sys :=
  if (s.dev d).busy then .fail .txNotReady
  else do
    let s1 ← k .phyTxBegin
      ((s.setDev d { s.dev d with busy := true, cur := some f }).emit (.phyTxBegin d f))
    let txTime := E.txTime (s1.dev d).rate f.length
    let s2 := s1.schedule (txTime + (s1.dev d).gap) (.txComplete d dest)
    match (s1.dev d).chan with
    | none => .fail .nullChannel
    | some c => do
      let (s3, ok) ← chanTransmitK E k (s2.emit (.onAir d f dest)) c f (s1.dev d).chanSlot dest txTime
      if ok then .ok s3 else k .phyTxDrop (s3.emit (.phyTxDrop d f))

/-- `MockNetDevice::TransmitComplete` (model/mock-net-device.cc:349-381) with connected code. -/
def transmitCompleteK (E : Env) (k : Sinks) (s : Sys) (d : DevId) (dest : Addr) : Outcome Sys :=
  if !(s.dev d).busy then .fail .txNotBusy
  else
    match (s.dev d).cur with
    | none => .fail .noCurrentPacket
    | some f => do
      let s1 ← k .phyTxEnd ((s.setDev d { s.dev d with busy := false }).emit (.phyTxEnd d f))
      let s2 := s1.setDev d { s1.dev d with cur := none }
      if !(s2.dev d).hasQueue then .fail .nullQueue
      else
        match (s2.dev d).queue with
        | [] => .ok s2
        | p :: rest => do
          let s3 ← k .dequeue (s2.setDev d { s2.dev d with queue := rest })
          let s4 ← k .sniffer (s3.emit (.sniffer d p))
          let s5 ← k .promiscSniffer (s4.emit (.promiscSniffer d p))
          transmitStartK E k s5 d p dest

/-- The part of `MockNetDevice::Send` after a successful `Enqueue` (model/mock-net-device.cc:692-705).  The
queue cannot be empty there; if it were, a null packet would be dereferenced. -/
def sendStartK (E : Env) (k : Sinks) (s : Sys) (d : DevId) (dest : Addr) : Outcome Sys :=
  if !(s.dev d).busy then
    match (s.dev d).queue with
    | [] => .fail .noCurrentPacket
    | g :: rest => do
      let s1 ← k .dequeue (s.setDev d { s.dev d with queue := rest })
      let s2 ← k .promiscSniffer (s1.emit (.promiscSniffer d g))
      let s3 ← k .sniffer (s2.emit (.sniffer d g))
      transmitStartK E k s3 d g dest
  else .ok s

/-- `MockNetDevice::Send` (model/mock-net-device.cc:662-714) with connected code. -/
def sendK (E : Env) (k : Sinks) (s : Sys) (d : DevId) (p : Bytes) (dest : Addr) (proto : UInt16) :
    Outcome Sys :=
  if !(s.dev d).linkUp then do
    let s1 ← k .macTxDrop (s.emit (.macTxDrop d p))
    .ok (s1.emit (.sendRet d p dest proto false p))
  else
    match dest with
    | .other => .fail .notAMac
    | .mac m => do
      let f := addHeader E.fcs p (s.dev d).addr m proto
      let s1 ← k .macTx (s.emit (.macTx d f))
      if !(s1.dev d).hasQueue then .fail .nullQueue
      else if (s1.dev d).queue.length < (s1.dev d).cap then do
        let s2 ← k .enqueue (s1.setDev d { s1.dev d with queue := (s1.dev d).queue ++ [f] })
        let s3 ← sendStartK E k s2 d dest
        .ok (s3.emit (.sendRet d p dest proto true f))
      else do
        let s2 ← k .queueDrop s1
        let s3 ← k .macTxDrop (s2.emit (.macTxDrop d f))
        .ok (s3.emit (.sendRet d p dest proto false f))

/-- `MockNetDevice::Receive` (model/mock-net-device.cc:421-531) with connected code. -/
def receiveK (E : Env) (k : Sinks) (s0 : Sys) (d : DevId) (f : Bytes) (src : DevId) (rx : Power) :
    Outcome Sys :=
  let s := s0.emit (.recvCall d f src rx)
  if src = d then k .macRxDrop (s.emit (.macRxDrop d f))
  else do
    let s1 ← k .phyRxEnd (s.emit (.phyRxEnd d f))
    let rx' := calcRxPower (s1.dev d) rx
    if rx' < (s1.dev d).rxThreshold then k .phyRxDrop (s1.emit (.phyRxDrop d f))
    else if E.corrupt d s.now s.log.length f then k .phyRxDrop (s1.emit (.phyRxDrop d f))
    else do
      match ← decode E.fcs f with
      | .badFcs rest => k .phyRxDrop (s1.emit (.phyRxDrop d rest))
      | .good p proto srcA dstA =>
        let ty := packetType dstA (s1.dev d).addr
        let s2 ← k .promiscSniffer (s1.emit (.promiscSniffer d f))
        let s3 ←
          if (s2.dev d).promiscCb then do
            let t ← k .macPromiscRx (s2.emit (.macPromiscRx d f))
            k .promiscCallback (t.emit (.promiscCallback d p proto srcA dstA ty))
          else .ok s2
        if ty = .otherHost then .ok s3
        else do
          let s4 ← k .macRx (s3.emit (.macRx d f))
          if (s4.dev d).rxCb then k .rxCallback (s4.emit (.rxCallback d p proto srcA))
          else .fail .nullCallback

/-- `MockNetDevice::Attach` with the channel's `Attach` and `NotifyLinkUp` (model/mock-net-device.cc:383-399,
541-546, model/mock-channel.cc:92-99, model/leo-mock-channel.cc:110-129) with connected code. -/
def attachK (k : Sinks) (s : Sys) (d : DevId) (c : ChanId) : Outcome Sys :=
  let v := s.dev d
  let ch := s.chan c
  let up (ch' : Chan) : Outcome Sys := do
    let s1 ← k .linkChange (((s.setChan c { ch' with link := ch.link ++ [d] }).setDev d
      { v with chan := some c, chanSlot := ch.link.length, linkUp := true }).emit (.linkChange d))
    .ok (s1.emit (.attachRet d c ch.link.length))
  match ch.kind with
  | .isl => up ch
  | .leo =>
    if !v.leo then .fail .badCast
    else match v.side with
      | .gnd => up { ch with gnd := mapInsert v.addr d ch.gnd }
      | .sat => up { ch with sat := mapInsert v.addr d ch.sat }

/-- `MockChannel::Detach` and `NotifyLinkDown` (model/mock-channel.cc:71-90, model/mock-net-device.cc:548-554)
with connected code. -/
def baseDetachK (k : Sinks) (s : Sys) (c : ChanId) (slot : Nat) : Outcome Sys :=
  match (s.chan c).link[slot]? with
  | none => .ok (s.emit (.detachRet c slot false))
  | some d =>
    if !(s.dev d).linkUp then .ok (s.emit (.detachRet c slot false))
    else do
      let s1 ← k .linkChange ((s.setDev d { s.dev d with linkUp := false }).emit (.linkChange d))
      .ok (s1.emit (.detachRet c slot true))

/-- `MockChannel::Detach` / `LeoMockChannel::Detach` (model/leo-mock-channel.cc:131-139) with connected code, while
the loops of `its` are being executed. -/
def detachK (k : Sinks) (its : Iters) (s : Sys) (c : ChanId) (slot : Nat) : Outcome Sys :=
  match (s.chan c).kind with
  | .isl => baseDetachK k s c slot
  | .leo =>
    match (s.chan c).link[slot]? with
    | none => .fail .indexOutOfRange
    | some d =>
      let a := (s.dev d).addr
      let ch := s.chan c
      if its.contains (c, a) then .fail .iteratorInvalid
      else baseDetachK k (s.setChan c { ch with gnd := mapErase a ch.gnd, sat := mapErase a ch.sat }) c slot

/-- An operation other than `Send` with connected code: only `Attach` and `Detach` hand control to it. -/
def confK (E : Env) (k : Sinks) (its : Iters) (s : Sys) : Op → Outcome Sys
  | .attach d c => attachK k s d c
  | .detach c slot => detachK k its s c slot
  | op => step E s op

mutual
/-- A call together with the calls it gives rise to, made while the loops of `its` are being executed. -/
def sendI (E : Env) : Call → Iters → Sys → Outcome Sys
  | .mk d p dest proto sc, its, s => sendK E (fun h t => sinksI E h sc its t) s d p dest proto
  | .conf op sc, its, s => confK E (fun h t => sinksI E h sc its t) its s op
/-- The calls a script makes when hook `h` fires. -/
def sinksI (E : Env) (h : Hook) : Script → Iters → Sys → Outcome Sys
  | .nil, _, s => .ok s
  | .cons h' c rest, its, s =>
    if h' = h.point then do
      let s' ← sendI E c (h.iters its) s
      sinksI E h rest its s'
    else sinksI E h rest its s
end

/-- A call made by the user program, outside all loops. -/
def sendR (E : Env) (c : Call) (s : Sys) : Outcome Sys := sendI E c [] s

/-- The calls a script makes when hook `h` of such a call fires. -/
def sinksR (E : Env) (h : Hook) (sc : Script) (s : Sys) : Outcome Sys := sinksI E h sc [] s

/-- Dispatch of the next pending event, with the calls made by connected code meanwhile. -/
def runR (E : Env) (sc : Script) (s : Sys) : Outcome Sys :=
  match s.pending with
  | [] => .ok s
  | p :: ps =>
    match p.act with
    | .txComplete d dest =>
      transmitCompleteK E (fun h t => sinksR E h sc t) { s with now := p.time, pending := ps } d dest
    | .receive dst f src rx =>
      receiveK E (fun h t => sinksR E h sc t) { s with now := p.time, pending := ps } dst f src rx

/-- What a user program (or the simulator) may do next. -/
inductive ROp where
  /-- a call during which connected code makes further calls -/
  | call (c : Call)
  /-- dispatch of the next pending event, during which connected code makes calls -/
  | run (sc : Script)
  /-- an operation during which connected code makes no calls -/
  | plain (op : Op)

/-- One operation. -/
def stepR (E : Env) (s : Sys) : ROp → Outcome Sys
  | .call c => sendR E c s
  | .run sc => runR E sc s
  | .plain op => step E s op

/-- A history of operations; the first fault ends it. -/
def execR (E : Env) : Sys → List ROp → Outcome Sys
  | s, [] => .ok s
  | s, op :: ops => do
    let s' ← stepR E s op
    execR E s' ops

end Verif
