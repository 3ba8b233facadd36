import Verif.Model.Frame
/-!
# Net devices, channels and the simulator

Models `MockNetDevice`, `LeoMockNetDevice` (model/mock-net-device.cc, model/leo-mock-net-device.cc),
`MockChannel`, `LeoMockChannel`, `IslMockChannel` (model/mock-channel.cc, model/leo-mock-channel.cc,
model/isl-mock-channel.cc) and the part of the ns-3 simulator they use.
-/

namespace Verif

/-- Identity of a device object (a pointer). -/
abbrev DevId := Nat
/-- Identity of a channel object. -/
abbrev ChanId := Nat
/-- Identity of a node. -/
abbrev NodeId := Nat
/-- Power in dBm / dB.  Simplification: `double` is an exact rational. -/
abbrev Power := Rat

/-- `LeoMockNetDevice::DeviceType` (model/leo-mock-net-device.h). -/
inductive Side where
  | gnd
  | sat
  deriving DecidableEq, Repr

/-- State of a `MockNetDevice` (members in model/mock-net-device.h; attribute defaults in
model/mock-net-device.cc:42-180; constructor 182-190), or of its subclass `LeoMockNetDevice` when
`leo` is set.  `hasQueue`, `rxCb` and `node` tell whether `m_queue`, `m_rxCallback`, `m_node` are
non-null.  Simplification: the queue is a `DropTailQueue` in packet mode with `cap` = MaxSize. -/
structure Dev where
  leo : Bool
  side : Side
  node : Option NodeId
  addr : Mac48
  linkUp : Bool
  busy : Bool
  cur : Option Bytes
  hasQueue : Bool
  queue : List Bytes
  cap : Nat
  chan : Option ChanId
  chanSlot : Nat
  rate : Nat
  gap : Time
  mtu : Nat
  txPower : Power
  rxThreshold : Power
  rxGain : Power
  rxLoss : Power
  rxCb : Bool
  promiscCb : Bool

/-- A freshly constructed device with default attributes (model/mock-net-device.cc:42-190,
model/leo-mock-net-device.cc:33-59) and a queue of capacity 100 (default of `DropTailQueue`), on
the given node (as after `Node::AddDevice`, which also sets the receive callback). -/
def Dev.fresh (leo : Bool) (side : Side) (node : NodeId) (addr : Mac48) : Dev :=
  { leo, side, node := some node, addr, linkUp := false, busy := false, cur := none,
    hasQueue := true, queue := [], cap := 100, chan := none, chanSlot := 0, rate := 32768, gap := 0,
    mtu := 1500, txPower := 1, rxThreshold := -1000, rxGain := 0, rxLoss := 0, rxCb := true,
    promiscCb := false }

/-- Which channel class an object has. -/
inductive ChanKind where
  | leo
  | isl
  deriving DecidableEq, Repr

/-- State of a channel: `m_link` (model/mock-channel.h) and, for the LEO channel, the two address
indices `m_groundDevices`, `m_satelliteDevices` (model/leo-mock-channel.h) as association lists in
the iteration order of `std::map`. -/
structure Chan where
  kind : ChanKind
  link : List DevId
  gnd : List (Mac48 × DevId)
  sat : List (Mac48 × DevId)

/-- A pending simulator event: a completion (`MockNetDevice::TransmitComplete (dest)`) or a
reception (`MockNetDevice::Receive (packet, sender, rxPower)`). -/
inductive Action where
  | txComplete (d : DevId) (dest : Addr)
  | receive (dst : DevId) (frame : Bytes) (src : DevId) (power : Power)
  deriving DecidableEq, Repr

/-- A pending event with its time stamp. -/
structure Pending where
  time : Time
  act : Action
  deriving DecidableEq, Repr

/-- `NetDevice::PacketType` as computed by `Receive`. -/
inductive PacketType where
  | host
  | broadcast
  | multicast
  | otherHost
  deriving DecidableEq, Repr

/-- Observable effects: trace sources, callbacks, return values and calls of public methods. -/
inductive Ev where
  | macTx (d : DevId) (f : Bytes)
  | macTxDrop (d : DevId) (f : Bytes)
  | sniffer (d : DevId) (f : Bytes)
  | promiscSniffer (d : DevId) (f : Bytes)
  | phyTxBegin (d : DevId) (f : Bytes)
  | phyTxEnd (d : DevId) (f : Bytes)
  | phyTxDrop (d : DevId) (f : Bytes)
  | phyRxEnd (d : DevId) (f : Bytes)
  | phyRxDrop (d : DevId) (f : Bytes)
  | macRxDrop (d : DevId) (f : Bytes)
  | macPromiscRx (d : DevId) (f : Bytes)
  | macRx (d : DevId) (f : Bytes)
  | rxCallback (d : DevId) (packet : Bytes) (proto : UInt16) (src : Mac48)
  | promiscCallback (d : DevId) (packet : Bytes) (proto : UInt16) (src dst : Mac48) (ty : PacketType)
  | linkChange (d : DevId)
  /-- the channel's TxRx animation trace (`m_txrxMock`) -/
  | txrx (c : ChanId) (f : Bytes) (src dst : DevId) (txTime delay : Time)
  /-- call of `Channel::TransmitStart` on behalf of a device, with the destination handed over -/
  | onAir (d : DevId) (f : Bytes) (dest : Addr)
  /-- call of the public method `Receive` -/
  | recvCall (dst : DevId) (f : Bytes) (src : DevId) (power : Power)
  /-- return of `Send`: arguments, result, and the caller's packet after the call -/
  | sendRet (d : DevId) (packet : Bytes) (dest : Addr) (proto : UInt16) (result : Bool) (after : Bytes)
  | sendFromRet (d : DevId) (result : Bool)
  | detachRet (c : ChanId) (slot : Nat) (result : Bool)
  | attachRet (d : DevId) (c : ChanId) (slot : Nat)
  deriving DecidableEq, Repr

/-- The whole simulated system. -/
structure Sys where
  dev : DevId → Dev
  chan : ChanId → Chan
  now : Time
  pending : List Pending
  log : List (Time × Ev)

/-- Everything the network code takes from its environment: which nodes have a mobility model, the
propagation loss and delay models of each channel (functions of transmit power, nodes and time),
the FCS, transmission times (`DataRate::CalculateBytesTxTime`) and the decisions of the receive error
model, which may depend on device, time, the number of effects so far and the frame. -/
structure Env where
  hasMob : NodeId → Bool
  loss : ChanId → Option (Power → NodeId → NodeId → Time → Power)
  delay : ChanId → Option (NodeId → NodeId → Time → Time)
  fcs : Fcs
  txTime : Nat → Nat → Time
  corrupt : DevId → Time → Nat → Bytes → Bool

namespace Sys

/-- Record an observable effect at the current time. -/
def emit (s : Sys) (e : Ev) : Sys := { s with log := s.log ++ [(s.now, e)] }

/-- Replace the state of a device. -/
def setDev (s : Sys) (d : DevId) (v : Dev) : Sys :=
  { s with dev := fun x => if x = d then v else s.dev x }

/-- Replace the state of a channel. -/
def setChan (s : Sys) (c : ChanId) (v : Chan) : Sys :=
  { s with chan := fun x => if x = c then v else s.chan x }

end Sys

/-- Insert an event after all events that are not later (ns-3 orders events by time stamp, then by
insertion). -/
def insertPending (p : Pending) : List Pending → List Pending
  | [] => [p]
  | q :: qs => if p.time < q.time then p :: q :: qs else q :: insertPending p qs

/-- `Simulator::Schedule` / `ScheduleWithContext` (ns-3 core). -/
def Sys.schedule (s : Sys) (delay : Time) (a : Action) : Sys :=
  { s with pending := insertPending ⟨s.now + delay, a⟩ s.pending }

/-- Insert or overwrite a key in a `std::map<Address, ..>` (`operator[]` assignment): keys stay unique
and in ascending order. -/
def mapInsert (a : Mac48) (d : DevId) : List (Mac48 × DevId) → List (Mac48 × DevId)
  | [] => [(a, d)]
  | (b, e) :: rest =>
    if a = b then (a, d) :: rest
    else if a.toNat < b.toNat then (a, d) :: (b, e) :: rest
    else (b, e) :: mapInsert a d rest

/-- `std::map::erase` by key. -/
def mapErase (a : Mac48) (m : List (Mac48 × DevId)) : List (Mac48 × DevId) :=
  m.filter (fun x => x.1 ≠ a)

/-- `std::map::find (a) != end ()`. -/
def mapHas (a : Mac48) (m : List (Mac48 × DevId)) : Bool := m.any (fun x => x.1 == a)

/-- `MockChannel::Deliver` (model/mock-channel.cc:164-208).  The delay starts as the transmission time
and is *replaced* by `GetPropagationDelay` (115-129: delay model, or 0) if both nodes have mobility. -/
def deliver (E : Env) (s : Sys) (c : ChanId) (f : Bytes) (src dst : DevId) (txTime : Time) :
    Outcome (Sys × Bool) :=
  match (s.dev src).node, (s.dev dst).node with
  | some ns, some nd =>
    let txPower := (s.dev src).txPower
    if E.hasMob ns && E.hasMob nd then
      let rxPower := match E.loss c with
        | some l => l txPower ns nd s.now
        | none => txPower
      if (E.loss c).isSome && decide (rxPower < -900) then
        .ok (s, false)
      else
        let delay := match E.delay c with
          | some g => g ns nd s.now
          | none => 0
        .ok ((s.schedule delay (.receive dst f src rxPower)).emit (.txrx c f src dst txTime delay), true)
    else
      .ok ((s.schedule txTime (.receive dst f src txPower)).emit (.txrx c f src dst txTime txTime), true)
  | _, _ => .fail .nullNode

/-- The loop of `LeoMockChannel::TransmitStart` (model/leo-mock-channel.cc:98-107): deliver to every
device of the index; the result is true iff some delivery was. -/
def deliverAll (E : Env) (c : ChanId) (f : Bytes) (src : DevId) (txTime : Time) :
    List DevId → Sys → Bool → Outcome (Sys × Bool)
  | [], s, r => .ok (s, r)
  | d :: ds, s, r => do
    let (s', ok) ← deliver E s c f src d txTime
    deliverAll E c f src txTime ds s' (if ok then true else r)

/-- `LeoMockChannel::TransmitStart` (model/leo-mock-channel.cc:53-108).  The destination address is
only used for logging.  Null pointers in `m_link` cannot occur (`MockChannel::Attach` asserts). -/
def leoTransmit (E : Env) (s : Sys) (c : ChanId) (f : Bytes) (slot : Nat) (_dest : Addr) (txTime : Time) :
    Outcome (Sys × Bool) :=
  match (s.chan c).link[slot]? with
  | none => .ok (s, false)
  | some src =>
    let a := (s.dev src).addr
    let fromGround := mapHas a (s.chan c).gnd
    let fromSpace := mapHas a (s.chan c).sat
    if fromGround && fromSpace then .fail .bothSides
    else if fromGround then deliverAll E c f src txTime ((s.chan c).sat.map (·.2)) s false
    else if fromSpace then deliverAll E c f src txTime ((s.chan c).gnd.map (·.2)) s false
    else .ok (s, false)

/-- `MockChannel::GetDevice (Address &)` (model/mock-channel.cc:131-144): first device of `m_link` whose
current address equals the argument. -/
def findByAddr (s : Sys) (a : Addr) : List DevId → Option DevId
  | [] => none
  | d :: ds => if Addr.mac (s.dev d).addr = a then some d else findByAddr s a ds

/-- The broadcast loop of `IslMockChannel::TransmitStart` (model/isl-mock-channel.cc:78-83): every slot
but the sender's, results ignored. -/
def deliverOthers (E : Env) (c : ChanId) (f : Bytes) (src : DevId) (slot : Nat) (txTime : Time) :
    List DevId → Nat → Sys → Outcome Sys
  | [], _, s => .ok s
  | d :: ds, i, s =>
    if i = slot then deliverOthers E c f src slot txTime ds (i + 1) s
    else do
      let (s', _) ← deliver E s c f src d txTime
      deliverOthers E c f src slot txTime ds (i + 1) s'

/-- `IslMockChannel::TransmitStart` (model/isl-mock-channel.cc:54-96). The test for group addresses
is a repetition of the broadcast test (line 75). -/
def islTransmit (E : Env) (s : Sys) (c : ChanId) (f : Bytes) (slot : Nat) (dest : Addr) (txTime : Time) :
    Outcome (Sys × Bool) :=
  match (s.chan c).link[slot]? with
  | none => .ok (s, false)
  | some src =>
    match findByAddr s dest (s.chan c).link with
    | some dst => deliver E s c f src dst txTime
    | none =>
      match dest with
      | .other => .fail .notAMac
      | .mac m =>
        if m.isBroadcast || m.isBroadcast then do
          let s' ← deliverOthers E c f src slot txTime (s.chan c).link 0 s
          .ok (s', true)
        else .ok (s, false)

/-- Virtual dispatch of `MockChannel::TransmitStart`. -/
def chanTransmit (E : Env) (s : Sys) (c : ChanId) (f : Bytes) (slot : Nat) (dest : Addr) (txTime : Time) :
    Outcome (Sys × Bool) :=
  match (s.chan c).kind with
  | .leo => leoTransmit E s c f slot dest txTime
  | .isl => islTransmit E s c f slot dest txTime

/-- `MockNetDevice::TransmitStart` (model/mock-net-device.cc:315-347).  The `onAir` log entry records the
call of the channel. -/
def transmitStart (E : Env) (s : Sys) (d : DevId) (f : Bytes) (dest : Addr) : Outcome Sys :=
  let v := s.dev d
  if v.busy then .fail .txNotReady
  else
    let s1 := (s.setDev d { v with busy := true, cur := some f }).emit (.phyTxBegin d f)
    let txTime := E.txTime v.rate f.length
    let s2 := s1.schedule (txTime + v.gap) (.txComplete d dest)
    match v.chan with
    | none => .fail .nullChannel
    | some c => do
      let (s3, ok) ← chanTransmit E (s2.emit (.onAir d f dest)) c f v.chanSlot dest txTime
      if ok then .ok s3 else .ok (s3.emit (.phyTxDrop d f))

/-- `MockNetDevice::TransmitComplete` (model/mock-net-device.cc:349-381).  Note that the next frame is
started with the destination of the frame that just completed (line 380). -/
def transmitComplete (E : Env) (s : Sys) (d : DevId) (dest : Addr) : Outcome Sys :=
  let v := s.dev d
  if !v.busy then .fail .txNotBusy
  else
    match v.cur with
    | none => .fail .noCurrentPacket
    | some f =>
      let s1 := (s.setDev d { v with busy := false, cur := none }).emit (.phyTxEnd d f)
      if !v.hasQueue then .fail .nullQueue
      else
        match v.queue with
        | [] => .ok s1
        | p :: rest =>
          let s2 := s1.setDev d { v with busy := false, cur := none, queue := rest }
          transmitStart E ((s2.emit (.sniffer d p)).emit (.promiscSniffer d p)) d p dest

/-- `MockNetDevice::Send` (model/mock-net-device.cc:662-714).  The packet object of the caller is
modified in place by `AddHeader`; its final contents are logged in `sendRet`. -/
def send (E : Env) (s : Sys) (d : DevId) (p : Bytes) (dest : Addr) (proto : UInt16) : Outcome Sys :=
  let v := s.dev d
  if !v.linkUp then
    .ok ((s.emit (.macTxDrop d p)).emit (.sendRet d p dest proto false p))
  else
    match dest with
    | .other => .fail .notAMac
    | .mac m =>
      let f := addHeader E.fcs p v.addr m proto
      let s1 := s.emit (.macTx d f)
      if !v.hasQueue then .fail .nullQueue
      else if v.queue.length < v.cap then
        let q := v.queue ++ [f]
        if !v.busy then
          match q with
          | [] => .fail .nullQueue
          | g :: rest => do
            let s2 := s1.setDev d { v with queue := rest }
            let s3 ← transmitStart E ((s2.emit (.promiscSniffer d g)).emit (.sniffer d g)) d g dest
            .ok (s3.emit (.sendRet d p dest proto true f))
        else
          .ok ((s1.setDev d { v with queue := q }).emit (.sendRet d p dest proto true f))
      else
        .ok ((s1.emit (.macTxDrop d f)).emit (.sendRet d p dest proto false f))

/-- `DoCalcRxPower`: identity for `MockNetDevice` (model/mock-net-device.cc:415-419), loss and gain for
`LeoMockNetDevice` (model/leo-mock-net-device.cc:75-79). -/
def calcRxPower (v : Dev) (rx : Power) : Power :=
  if v.leo then rx - v.rxLoss + v.rxGain else rx

/-- Packet type decision of `Receive` (model/mock-net-device.cc:501-517). -/
def packetType (dst own : Mac48) : PacketType :=
  if dst.isBroadcast then .broadcast
  else if dst = own then .host
  else if dst.isGroup then .multicast
  else .otherHost

/-- `MockNetDevice::Receive` (model/mock-net-device.cc:421-531).  `recvCall` records the call itself. -/
def receive (E : Env) (s0 : Sys) (d : DevId) (f : Bytes) (src : DevId) (rx : Power) : Outcome Sys :=
  let s := s0.emit (.recvCall d f src rx)
  let v := s.dev d
  if src = d then .ok (s.emit (.macRxDrop d f))
  else
    let s1 := s.emit (.phyRxEnd d f)
    let rx' := calcRxPower v rx
    if rx' < v.rxThreshold then .ok (s1.emit (.phyRxDrop d f))
    else if E.corrupt d s.now s.log.length f then .ok (s1.emit (.phyRxDrop d f))
    else do
      match ← decode E.fcs f with
      | .badFcs rest => .ok (s1.emit (.phyRxDrop d rest))
      | .good p proto srcA dstA =>
        let ty := packetType dstA v.addr
        let s2 := s1.emit (.promiscSniffer d f)
        let s3 :=
          if v.promiscCb then
            (s2.emit (.macPromiscRx d f)).emit (.promiscCallback d p proto srcA dstA ty)
          else s2
        if ty = .otherHost then .ok s3
        else if v.rxCb then .ok ((s3.emit (.macRx d f)).emit (.rxCallback d p proto srcA))
        else .fail .nullCallback

/-- `MockNetDevice::Attach` (model/mock-net-device.cc:383-399) with `LeoMockChannel::Attach`
(model/leo-mock-channel.cc:110-129) or `MockChannel::Attach` (model/mock-channel.cc:92-99). -/
def attach (s : Sys) (d : DevId) (c : ChanId) : Outcome Sys :=
  let v := s.dev d
  let ch := s.chan c
  let up (ch' : Chan) : Sys :=
    (((s.setChan c { ch' with link := ch.link ++ [d] }).setDev d
      { v with chan := some c, chanSlot := ch.link.length, linkUp := true }).emit (.linkChange d)).emit
      (.attachRet d c ch.link.length)
  match ch.kind with
  | .isl => .ok (up ch)
  | .leo =>
    if !v.leo then .fail .badCast
    else match v.side with
      | .gnd => .ok (up { ch with gnd := mapInsert v.addr d ch.gnd })
      | .sat => .ok (up { ch with sat := mapInsert v.addr d ch.sat })

/-- `MockChannel::Detach` (model/mock-channel.cc:71-90): only brings the link down. -/
def baseDetach (s : Sys) (c : ChanId) (slot : Nat) : Sys × Bool :=
  match (s.chan c).link[slot]? with
  | none => (s, false)
  | some d =>
    if !(s.dev d).linkUp then (s, false)
    else ((s.setDev d { s.dev d with linkUp := false }).emit (.linkChange d), true)

/-- `MockChannel::Detach` / `LeoMockChannel::Detach` (model/leo-mock-channel.cc:131-139: index erased by
the current address, `GetDevice (deviceId)` unchecked). -/
def detach (s : Sys) (c : ChanId) (slot : Nat) : Outcome Sys :=
  match (s.chan c).kind with
  | .isl =>
    let (s', r) := baseDetach s c slot
    .ok (s'.emit (.detachRet c slot r))
  | .leo =>
    match (s.chan c).link[slot]? with
    | none => .fail .indexOutOfRange
    | some d =>
      let a := (s.dev d).addr
      let ch := s.chan c
      let s1 := s.setChan c { ch with gnd := mapErase a ch.gnd, sat := mapErase a ch.sat }
      let (s', r) := baseDetach s1 c slot
      .ok (s'.emit (.detachRet c slot r))

/-- Dispatch of one event. -/
def dispatch (E : Env) (s : Sys) : Action → Outcome Sys
  | .txComplete d dest => transmitComplete E s d dest
  | .receive dst f src rx => receive E s dst f src rx

/-- The simulator runs the next pending event, setting the clock to its time (ns-3 core).  Without
pending events nothing happens. -/
def run (E : Env) (s : Sys) : Outcome Sys :=
  match s.pending with
  | [] => .ok s
  | p :: ps => dispatch E { s with now := p.time, pending := ps } p.act

/-- What a user program (or the simulator) may do next. -/
inductive Op where
  | send (d : DevId) (p : Bytes) (dest : Addr) (proto : UInt16)
  | sendFrom (d : DevId) (p : Bytes) (src dest : Addr) (proto : UInt16)
  | attach (d : DevId) (c : ChanId)
  | detach (c : ChanId) (slot : Nat)
  | setAddress (d : DevId) (a : Addr)
  | setSide (d : DevId) (side : Side)
  | setRate (d : DevId) (rate : Nat)
  | setGap (d : DevId) (gap : Time)
  | setMtu (d : DevId) (mtu : Nat)
  | setTxPower (d : DevId) (p : Power)
  | setRxThreshold (d : DevId) (p : Power)
  | setRxGain (d : DevId) (p : Power)
  | setRxLoss (d : DevId) (p : Power)
  | setPromisc (d : DevId) (on : Bool)
  /-- dispatch the next pending event -/
  | run
  /-- let time pass (an application event of the user fires later), but not beyond a pending event -/
  | wait (dt : Time)

/-- One operation.  Setters: model/mock-net-device.cc:301-313, 581-586, 752-756, 779-785, 800-822 and
model/leo-mock-net-device.cc:69-73; `SendFrom` 716-724. -/
def step (E : Env) (s : Sys) : Op → Outcome Sys
  | .send d p dest proto => send E s d p dest proto
  | .sendFrom d _ _ _ _ => .ok (s.emit (.sendFromRet d false))
  | .attach d c => attach s d c
  | .detach c slot => detach s c slot
  | .setAddress d a =>
    match a with
    | .mac m => .ok (s.setDev d { s.dev d with addr := m })
    | .other => .fail .notAMac
  | .setSide d side => .ok (s.setDev d { s.dev d with side := side })
  | .setRate d r => .ok (s.setDev d { s.dev d with rate := r })
  | .setGap d g => .ok (s.setDev d { s.dev d with gap := g })
  | .setMtu d m => .ok (s.setDev d { s.dev d with mtu := m })
  | .setTxPower d p => .ok (s.setDev d { s.dev d with txPower := p })
  | .setRxThreshold d p => .ok (s.setDev d { s.dev d with rxThreshold := p })
  | .setRxGain d p => .ok (s.setDev d { s.dev d with rxGain := p })
  | .setRxLoss d p => .ok (s.setDev d { s.dev d with rxLoss := p })
  | .setPromisc d b => .ok (s.setDev d { s.dev d with promiscCb := b })
  | .run => run E s
  | .wait dt =>
    if s.pending.all (fun p => decide (s.now + dt ≤ p.time)) then .ok { s with now := s.now + dt }
    else .ok s

/-- A history of operations; the first fault ends it. -/
def exec (E : Env) : Sys → List Op → Outcome Sys
  | s, [] => .ok s
  | s, op :: ops => do
    let s' ← step E s op
    exec E s' ops

/-- An initial system: arbitrary devices and channels as configured before the simulation starts, but
idle transmitters with empty queues, links down, no channel attached, empty channels, no pending
events and an empty log. -/
structure Initial (s : Sys) : Prop where
  idle : ∀ d, (s.dev d).busy = false ∧ (s.dev d).cur = none ∧ (s.dev d).queue = [] ∧
    (s.dev d).linkUp = false ∧ (s.dev d).chan = none
  chans : ∀ c, (s.chan c).link = [] ∧ (s.chan c).gnd = [] ∧ (s.chan c).sat = []
  pending : s.pending = []
  log : s.log = []

end Verif
