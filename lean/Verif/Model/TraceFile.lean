import Verif.Model.Net
import Verif.Model.Parse
/-!
# Trace files

`EnablePcapInternal` and `EnableAsciiInternal` of `IslHelper` (helper/isl-helper.cc:77-216), `LeoChannelHelper`
(helper/leo-channel-helper.cc:210-349) and `LeoHelper` (helper/leo-helper.cc:199-217), the `EnablePcapAll`/`EnableAsciiAll` functions of ns-3 that call them, and the
records which the connected sinks write while the network runs.

The ascii traces also report what happens in the transmission queue; the trace sources of the queue (`Enqueue`,
`Dequeue`, `Drop` of `ns3::Queue`) are not in the log of Model/Net and are defined here.

Simplifications: a pcap record is a time and a packet (`DLT_EN10MB`: the packet is written as it is); an ascii record is
a time, a letter and a packet, not its printed form.  No names are registered for nodes and devices.

Every call opens files of its own (`Writer`), also if a file with that name is open.  Each of them truncates the file
and then writes to it at its own position, so the file is what its writers wrote if all of them wrote the same; otherwise
its content is left open (`content`).
-/

namespace Verif

/-- What a transmission queue reports. -/
inductive QEv where
  | enqueue (d : DevId) (f : Bytes)
  | dequeue (d : DevId) (f : Bytes)
  | drop (d : DevId) (f : Bytes)
  deriving DecidableEq, Repr

/-- The reports of the queues during one operation: `m_queue->Enqueue` in `Send` (model/mock-net-device.cc:690; a full
queue reports Drop), `m_queue->Dequeue` in `Send` (697) and in `TransmitComplete` (368; nothing is reported if the queue is
empty).  The operation is taken to run through. -/
def queueEvents (E : Env) (s : Sys) : Op → List QEv
  | .send d p (.mac m) proto =>
    let v := s.dev d
    let f := addHeader E.fcs p v.addr m proto
    if !v.linkUp then []
    else if v.queue.length < v.cap then
      .enqueue d f :: (if v.busy then [] else ((v.queue ++ [f]).head?.toList.map (QEv.dequeue d)))
    else [.drop d f]
  | .run =>
    match s.pending with
    | p :: _ =>
      match p.act with
      | .txComplete d _ => (s.dev d).queue.head?.toList.map (QEv.dequeue d)
      | .receive .. => []
    | [] => []
  | _ => []

/-- An ascii record: `+`, `-`, `d` or `r` and the packet. -/
inductive Line where
  | plus (f : Bytes)
  | minus (f : Bytes)
  | drop (f : Bytes)
  | recv (f : Bytes)
  deriving DecidableEq, Repr

/-- The sinks connected to a queue (helper/isl-helper.cc:171-174 and 201-211, helper/leo-channel-helper.cc:304-307 and
334-344). -/
def QEv.line : QEv → DevId × Line
  | .enqueue d f => (d, .plus f)
  | .dequeue d f => (d, .minus f)
  | .drop d f => (d, .drop f)

/-- The sinks connected to a device: MacRx and PhyRxDrop (helper/isl-helper.cc:165, 177, 199, 215;
helper/leo-channel-helper.cc:298, 310, 332, 348). -/
def devLine : Ev → Option (DevId × Line)
  | .macRx d f => some (d, .recv f)
  | .phyRxDrop d f => some (d, .drop f)
  | _ => none

/-- A file name. -/
abbrev FileName := List Char

/-- An open file with the device whose records go into it and the records so far. -/
structure Writer (α : Type) where
  name : FileName
  dev : DevId
  recs : List (Time × α)
  deriving DecidableEq

/-- Connection of a device to an open stream that is shared by devices. -/
structure Tap where
  stream : Nat
  node : NodeId
  ifIndex : Nat
  dev : DevId
  deriving DecidableEq

/-- A record in a shared stream: the context (node and interface index in the path that is printed in front) and the
record. -/
structure Entry where
  node : NodeId
  ifIndex : Nat
  line : Line
  deriving DecidableEq

/-- The network together with the open files, the connections to shared streams, and what these contain. -/
structure TSys where
  sys : Sys
  ifIndex : DevId → Nat
  pcap : List (Writer Bytes)
  ascii : List (Writer Line)
  hooks : List Tap
  streams : Nat → List (Time × Entry)

/-- The content of a file, if its writers agree. -/
def content {α : Type} [DecidableEq α] (ws : List (Writer α)) (name : FileName) : Option (List (Time × α)) :=
  match ws.filter (fun w => decide (w.name = name)) with
  | [] => none
  | w :: l => if ∀ v ∈ l, v.recs = w.recs then some w.recs else none

/-- `PcapHelper::GetFilenameFromDevice` and `AsciiTraceHelper::GetFilenameFromDevice` (ns-3 network). -/
def fileName (pre : FileName) (n i : Nat) (ext : FileName) : FileName := pre ++ ['-'] ++ showNat n ++ ['-'] ++ showNat i ++ ext

/-- Name of the file of a device; an empty prefix aborts. -/
def deviceFile (h : TSys) (pre : FileName) (d : DevId) (explicit : Bool) (ext : FileName) : Outcome FileName :=
  if explicit then .ok pre
  else if pre = [] then .fail .emptyPrefix
  else match (h.sys.dev d).node with
    | none => .fail .nullNode
    | some n => .ok (fileName pre n (h.ifIndex d) ext)

/-- `EnablePcapInternal`: `leo` tells whether it is the function of `LeoChannelHelper`
(helper/leo-channel-helper.cc:210-240), which passes over devices that are not of its class, or that of `IslHelper`
(helper/isl-helper.cc:77-107), for which every modelled device is a `MockNetDevice`.  The argument `promiscuous` is not
used. -/
def enablePcap (leo : Bool) (pre : FileName) (d : DevId) (_promiscuous explicit : Bool) (h : TSys) : Outcome TSys :=
  if leo && !(h.sys.dev d).leo then .ok h
  else do
    let name ← deviceFile h pre d explicit ".pcap".toList
    .ok { h with pcap := h.pcap ++ [⟨name, d, []⟩] }

/-- `EnableAsciiInternal` of `LeoChannelHelper` (helper/leo-channel-helper.cc:242-349) or `IslHelper`
(helper/isl-helper.cc:109-216), without and with a given stream.  With a stream the sinks are connected by the path of the
device (node and interface index); the path is taken to lead to the device. -/
def enableAscii (leo : Bool) (stream : Option Nat) (pre : FileName) (d : DevId) (explicit : Bool) (h : TSys) :
    Outcome TSys :=
  if leo && !(h.sys.dev d).leo then .ok h
  else match stream with
    | none => do
      let name ← deviceFile h pre d explicit ".tr".toList
      if !(h.sys.dev d).hasQueue then .fail .nullQueue
      else .ok { h with ascii := h.ascii ++ [⟨name, d, []⟩] }
    | some k => match (h.sys.dev d).node with
      | none => .fail .nullNode
      | some n => .ok { h with hooks := h.hooks ++ [⟨k, n, h.ifIndex d, d⟩] }

/-- Which helper: `IslHelper`, `LeoChannelHelper`, or `LeoHelper`, which calls those of its three members one after the
other (helper/leo-helper.cc:199-217). -/
inductive Tracer where
  | isl
  | leoChannel
  | leo
  deriving DecidableEq, Repr

/-- The functions called by a helper, as the argument `leo` of `enablePcap` and `enableAscii`. -/
def Tracer.calls : Tracer → List Bool
  | .isl => [false]
  | .leoChannel => [true]
  | .leo => [false, true, true]

/-- Virtual dispatch of `EnablePcapInternal`. -/
def Tracer.pcap (t : Tracer) (pre : FileName) (d : DevId) (promiscuous explicit : Bool) (h : TSys) : Outcome TSys :=
  t.calls.foldlM (fun h leo => enablePcap leo pre d promiscuous explicit h) h

/-- Virtual dispatch of `EnableAsciiInternal`. -/
def Tracer.ascii (t : Tracer) (stream : Option Nat) (pre : FileName) (d : DevId) (explicit : Bool) (h : TSys) : Outcome TSys :=
  t.calls.foldlM (fun h leo => enableAscii leo stream pre d explicit h) h

/-- `EnablePcapAll` (ns-3 network: `PcapHelperForDevice`): all devices of all nodes. -/
def Tracer.pcapAll (t : Tracer) (pre : FileName) (promiscuous : Bool) (all : List DevId) (h : TSys) : Outcome TSys :=
  all.foldlM (fun h d => t.pcap pre d promiscuous false h) h

/-- `EnableAsciiAll` (ns-3 network: `AsciiTraceHelperForDevice`). -/
def Tracer.asciiAll (t : Tracer) (stream : Option Nat) (pre : FileName) (all : List DevId) (h : TSys) : Outcome TSys :=
  all.foldlM (fun h d => t.ascii stream pre d false h) h

/-- The sink of a pcap file, connected to PromiscSniffer (helper/isl-helper.cc:106, helper/leo-channel-helper.cc:239). -/
def pcapRecord (d : DevId) (e : Time × Ev) : Option (Time × Bytes) :=
  match e.2 with
  | .promiscSniffer x f => if x = d then some (e.1, f) else none
  | _ => none

/-- All ascii records of one operation, with their devices.  No operation makes both queues and receptions report. -/
def stepLines (E : Env) (s s' : Sys) (op : Op) : List (Time × DevId × Line) :=
  (queueEvents E s op).map (fun q => (s'.now, q.line)) ++
    (s'.log.drop s.log.length).filterMap (fun e => (devLine e.2).map fun x => (e.1, x))

/-- The sinks of an ascii file. -/
def asciiRecord (d : DevId) (e : Time × DevId × Line) : Option (Time × Line) :=
  if e.2.1 = d then some (e.1, e.2.2) else none

/-- What is written to a shared stream for one report: one record for every connection. -/
def streamRecords (hooks : List Tap) (k : Nat) (e : Time × DevId × Line) : List (Time × Entry) :=
  hooks.filterMap fun h => if h.stream = k ∧ h.dev = e.2.1 then some (e.1, ⟨h.node, h.ifIndex, e.2.2⟩) else none

/-- One operation of the network, with the records it gives rise to. -/
def stepT (E : Env) (h : TSys) (op : Op) : Outcome TSys := do
  let s' ← step E h.sys op
  let lines := stepLines E h.sys s' op
  .ok { h with
    sys := s'
    pcap := h.pcap.map fun w => { w with recs := w.recs ++ (s'.log.drop h.sys.log.length).filterMap (pcapRecord w.dev) }
    ascii := h.ascii.map fun w => { w with recs := w.recs ++ lines.filterMap (asciiRecord w.dev) }
    streams := fun k => h.streams k ++ lines.flatMap (streamRecords h.hooks k) }

/-- What a program may do. -/
inductive TOp where
  | net (op : Op)
  | pcap (t : Tracer) (pre : FileName) (d : DevId) (promiscuous explicit : Bool)
  | pcapAll (t : Tracer) (pre : FileName) (promiscuous : Bool) (all : List DevId)
  | ascii (t : Tracer) (stream : Option Nat) (pre : FileName) (d : DevId) (explicit : Bool)
  | asciiAll (t : Tracer) (stream : Option Nat) (pre : FileName) (all : List DevId)

/-- One operation. -/
def TOp.step (E : Env) (h : TSys) : TOp → Outcome TSys
  | .net op => stepT E h op
  | .pcap t pre d promiscuous explicit => t.pcap pre d promiscuous explicit h
  | .pcapAll t pre promiscuous all => t.pcapAll pre promiscuous all h
  | .ascii t stream pre d explicit => t.ascii stream pre d explicit h
  | .asciiAll t stream pre all => t.asciiAll stream pre all h

/-- A history. -/
def execT (E : Env) : TSys → List TOp → Outcome TSys
  | h, [] => .ok h
  | h, op :: ops => do
    let h' ← op.step E h
    execT E h' ops

end Verif
