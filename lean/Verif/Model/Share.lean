import Verif.Model.Net
/-!
# Packet objects

`Model/Net` treats packets as values.  In the code `Send` receives a pointer to a packet object, adds the header to
that object and puts the pointer into the queue (model/mock-net-device.cc:662-714); `m_currentPkt` is a pointer as well (328).
Only the channel copies (`p->Copy ()`, model/mock-channel.cc:201).  Here queues and current packets are pointers into a heap
of packet objects.
-/

namespace Verif

/-- Identity of a packet object (a `Ptr<Packet>`). -/
abbrev PktId := Nat

/-- A system with packet objects: `heap` holds their contents, `q` the device queues, `cur` the current packets. The
fields `queue` and `cur` of the devices in `sys` are not used. -/
structure PSys where
  sys : Sys
  heap : PktId → Bytes
  q : DevId → List PktId
  cur : DevId → Option PktId

/-- Replace the value of a function at one place. -/
def put {α : Type} (g : Nat → α) (d : Nat) (a : α) : Nat → α := fun x => if x = d then a else g x

/-- `MockNetDevice::TransmitStart` (model/mock-net-device.cc:315-347). -/
def startP (E : Env) (h : PSys) (d : DevId) (i : PktId) (dest : Addr) : Outcome PSys :=
  let v := h.sys.dev d
  if v.busy then .fail .txNotReady
  else
    let f := h.heap i
    let s1 := (h.sys.setDev d { v with busy := true }).emit (.phyTxBegin d f)
    let txTime := E.txTime v.rate f.length
    let s2 := s1.schedule (txTime + v.gap) (.txComplete d dest)
    match v.chan with
    | none => .fail .nullChannel
    | some c => do
      let (s3, ok) ← chanTransmit E (s2.emit (.onAir d f dest)) c f v.chanSlot dest txTime
      .ok { h with sys := if ok then s3 else s3.emit (.phyTxDrop d f), cur := put h.cur d (some i) }

/-- `MockNetDevice::TransmitComplete` (model/mock-net-device.cc:349-381). -/
def completeP (E : Env) (h : PSys) (d : DevId) (dest : Addr) : Outcome PSys :=
  let v := h.sys.dev d
  if !v.busy then .fail .txNotBusy
  else
    match h.cur d with
    | none => .fail .noCurrentPacket
    | some i =>
      let s1 := (h.sys.setDev d { v with busy := false }).emit (.phyTxEnd d (h.heap i))
      if !v.hasQueue then .fail .nullQueue
      else
        match h.q d with
        | [] => .ok { h with sys := s1, cur := put h.cur d none }
        | j :: rest =>
          startP E { h with
            sys := (s1.emit (.sniffer d (h.heap j))).emit (.promiscSniffer d (h.heap j))
            q := put h.q d rest
            cur := put h.cur d none } d j dest

/-- `MockNetDevice::Send` (model/mock-net-device.cc:662-714): the header is added to the caller's object (682), whose
pointer goes into the queue (690). -/
def sendP (E : Env) (h : PSys) (d : DevId) (i : PktId) (dest : Addr) (proto : UInt16) : Outcome PSys :=
  let v := h.sys.dev d
  let p := h.heap i
  if !v.linkUp then
    .ok { h with sys := (h.sys.emit (.macTxDrop d p)).emit (.sendRet d p dest proto false p) }
  else
    match dest with
    | .other => .fail .notAMac
    | .mac m =>
      let f := addHeader E.fcs p v.addr m proto
      let h1 := { h with heap := put h.heap i f, sys := h.sys.emit (.macTx d f) }
      if !v.hasQueue then .fail .nullQueue
      else if (h.q d).length < v.cap then
        let q := h.q d ++ [i]
        if !v.busy then
          match q with
          | [] => .fail .nullQueue
          | j :: rest => do
            let g := h1.heap j
            let h3 ← startP E { h1 with
              q := put h.q d rest
              sys := (h1.sys.emit (.promiscSniffer d g)).emit (.sniffer d g) } d j dest
            .ok { h3 with sys := h3.sys.emit (.sendRet d p dest proto true (h3.heap i)) }
        else
          .ok { h1 with q := put h.q d q, sys := h1.sys.emit (.sendRet d p dest proto true f) }
      else
        .ok { h1 with sys := (h1.sys.emit (.macTxDrop d f)).emit (.sendRet d p dest proto false f) }

/-- Operations: `make` creates a packet object (or replaces the contents of one the program still holds), `send` passes
a packet object, all others are those of `Model/Net`. -/
inductive POp where
  | make (i : PktId) (p : Bytes)
  | send (d : DevId) (i : PktId) (dest : Addr) (proto : UInt16)
  | call (op : Op) (h : ∀ d p dest proto, op ≠ .send d p dest proto)

/-- The simulator runs the next pending event. -/
def runP (E : Env) (h : PSys) : Outcome PSys :=
  match h.sys.pending with
  | [] => .ok h
  | p :: ps =>
    let h1 := { h with sys := { h.sys with now := p.time, pending := ps } }
    match p.act with
    | .txComplete d dest => completeP E h1 d dest
    | .receive dst f src rx => do
      let s' ← receive E h1.sys dst f src rx
      .ok { h1 with sys := s' }

/-- One operation. -/
def stepP (E : Env) (h : PSys) : POp → Outcome PSys
  | .make i p => .ok { h with heap := put h.heap i p }
  | .send d i dest proto => sendP E h d i dest proto
  | .call .run _ => runP E h
  | .call op _ => do
    let s' ← step E h.sys op
    .ok { h with sys := s' }

/-- A history of operations. -/
def execP (E : Env) : PSys → List POp → Outcome PSys
  | h, [] => .ok h
  | h, op :: ops => do
    let h' ← stepP E h op
    execP E h' ops

end Verif
