import Verif.Model.Net
/-!
# The packet traces of the delay tracing program

examples/leo-delay-tracing-example.cc:42-48 prints a line for every packet that a trace source of a device reports, with a running count of
bytes; the options `traceDrops` and `traceTxRx` (lines 216-236) say which sources.  README.rst:100-124 shows the same code as an example.
-/

namespace Verif

/-- The trace sources of `MockNetDevice::GetTypeId`, model/mock-net-device.cc:91-178. -/
inductive Source where
  | macTx | macTxDrop | macPromiscRx | macRx | macRxDrop | phyTxBegin | phyTxEnd | phyTxDrop | phyRxBegin | phyRxEnd | phyRxDrop
  | sniffer | promiscSniffer
  deriving DecidableEq, Repr

/-- `AddTraceSource` of `MockNetDevice::GetTypeId`, model/mock-net-device.cc:97-176. -/
def mockSources : List (String × Source) :=
  [("MacTx", .macTx), ("MacTxDrop", .macTxDrop), ("MacPromiscRx", .macPromiscRx), ("MacRx", .macRx), ("MacRxDrop", .macRxDrop),
   ("PhyTxBegin", .phyTxBegin), ("PhyTxEnd", .phyTxEnd), ("PhyTxDrop", .phyTxDrop), ("PhyRxBegin", .phyRxBegin), ("PhyRxEnd", .phyRxEnd),
   ("PhyRxDrop", .phyRxDrop), ("Sniffer", .sniffer), ("PromiscSniffer", .promiscSniffer)]

/-- The source that an entry of the log stands for, with device and frame (`m_phyRxBeginTrace` is never called, model/mock-net-device.cc). -/
def fired : Ev → Option (Source × DevId × Bytes)
  | .macTx d f => some (.macTx, d, f)
  | .macTxDrop d f => some (.macTxDrop, d, f)
  | .macPromiscRx d f => some (.macPromiscRx, d, f)
  | .macRx d f => some (.macRx, d, f)
  | .macRxDrop d f => some (.macRxDrop, d, f)
  | .phyTxBegin d f => some (.phyTxBegin, d, f)
  | .phyTxEnd d f => some (.phyTxEnd, d, f)
  | .phyTxDrop d f => some (.phyTxDrop, d, f)
  | .phyRxEnd d f => some (.phyRxEnd, d, f)
  | .phyRxDrop d f => some (.phyRxDrop, d, f)
  | .sniffer d f => some (.sniffer, d, f)
  | .promiscSniffer d f => some (.promiscSniffer, d, f)
  | _ => none

/-- The connections with `traceDrops` (examples/leo-delay-tracing-example.cc:216-226) and `traceTxRx` (lines 228-236), in this order, for all
devices of the program. -/
def tracePaths (traceDrops traceTxRx : Bool) : List String :=
  (if traceDrops then ["MacTxDrop", "PhyTxDrop", "MacRxDrop", "PhyRxDrop"] else []) ++
    (if traceTxRx then ["MacTx", "MacRx", "PhyRx"] else [])

/-- `Config::Connect` (ns-3 core) one path after the other: a path that leads nowhere is an `NS_FATAL_ERROR` (`none`) in the versions of ns-3 that
insist on a match, and nothing happens in the others.  The name of the source is the end of the context that the sink gets. -/
def connectAll (insists : Bool) : List String → Option (List (String × Source))
  | [] => some []
  | name :: more =>
    match mockSources.lookup name with
    | some s => (connectAll insists more).map ((name, s) :: ·)
    | none => if insists then none else connectAll insists more

/-- A line of `TracePacket`: time, device and name of the source (the context), `countBytes` (the id of the packet is left out). -/
structure TraceLine where
  now : Time
  dev : DevId
  source : String
  count : Nat
  deriving DecidableEq, Repr

/-- The calls of `TracePacket`: one for each connection of a source that fires. -/
def traceCalls (conn : List (String × Source)) (log : List (Time × Ev)) : List (Time × String × DevId × Bytes) :=
  log.flatMap fun e =>
    match fired e.2 with
    | some x => (conn.filter (·.2 == x.1)).map fun c => (e.1, c.1, x.2)
    | none => []

/-- `TracePacket`, examples/leo-delay-tracing-example.cc:42-48, call by call: `countBytes` is a `uint64_t`, `Packet::GetSerializedSize` (ns-3 network,
the parameter `ser`) a `uint32_t`. -/
def tracePacket (ser : Bytes → Nat) : Nat → List (Time × String × DevId × Bytes) → List TraceLine
  | _, [] => []
  | countBytes, (t, s, d, f) :: more =>
    let c := (countBytes + ser f % 2 ^ 32) % 2 ^ 64
    ⟨t, d, s, c⟩ :: tracePacket ser c more

/-- What the program prints with the options, or `none` if it stops before the simulation starts. -/
def packetTrace (ser : Bytes → Nat) (insists traceDrops traceTxRx : Bool) (log : List (Time × Ev)) : Option (List TraceLine) :=
  (connectAll insists (tracePaths traceDrops traceTxRx)).map fun conn => tracePacket ser 0 (traceCalls conn log)

end Verif
