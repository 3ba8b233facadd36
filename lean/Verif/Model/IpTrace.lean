import Verif.Model.AddressPlan
import Verif.Model.Parse
/-!
# The IP traces of the delay tracing program

With the option `traceFwd` examples/leo-delay-tracing-example.cc:238-246 connects `TraceIpForward` (lines 50-57) and `TraceIpDrop` (lines 59-85) to trace sources
of the IPv4 layer of all nodes.  The IPv4 layer itself (`Ipv4L3Protocol`, ns-3 internet) is not modelled: what its sources report is an arbitrary list.
-/

namespace Verif

/-- `Ipv4L3Protocol::DropReason` (ns-3 internet); `duplicate` exists from ns-3.34 on. -/
inductive DropReason where
  | ttlExpired | noRoute | badChecksum | interfaceDown | routeError | fragmentTimeout | duplicate
  deriving DecidableEq, Repr

/-- What the sources of `Ipv4L3Protocol` pass on: the node whose layer reports, id of the packet, interface, and the addresses of the header. -/
structure IpCall where
  node : Nat
  uid : Nat
  iface : Nat
  src : Nat
  dst : Nat
  deriving DecidableEq, Repr

/-- A report of the IPv4 layer; `SendOutgoing`, `LocalDeliver`, `Tx` and `Rx` are `other`. -/
inductive IpEv where
  | unicast (c : IpCall) | multicast (c : IpCall) | drop (c : IpCall) (r : DropReason) | other (c : IpCall)
  deriving DecidableEq, Repr

/-- `operator<<` of `Ipv4Address` (ns-3 network). -/
def showIp (ip : Nat) : List Char :=
  showNat (ip / 2 ^ 24 % 2 ^ 8) ++ '.' :: (showNat (ip / 2 ^ 16 % 2 ^ 8) ++ '.' :: (showNat (ip / 2 ^ 8 % 2 ^ 8) ++ '.' :: showNat (ip % 2 ^ 8)))

/-- `operator<<` of `Time` (ns-3 core) with the resolution of nanoseconds. -/
def showTime (t : Nat) : List Char := '+' :: (showNat t ++ ".0ns".toList)

/-- The context that `Config::Connect` hands to the sink: the path with the number of the node (ns-3 core). -/
def ipContext (node : Nat) (source : String) : List Char :=
  "/NodeList/".toList ++ (showNat node ++ ("/$ns3::Ipv4L3Protocol/".toList ++ source.toList))

/-- What the two sinks print alike, examples/leo-delay-tracing-example.cc:55 and 84. -/
def ipLine (now : Nat) (source : String) (c : IpCall) : List Char :=
  showTime now ++ ':' :: (ipContext c.node source ++ ':' :: (showNat c.uid ++ ':' :: (showNat c.iface ++ ':' :: (showIp c.src ++ ':' :: showIp c.dst))))

/-- `TraceIpForward`, examples/leo-delay-tracing-example.cc:50-57, with the global variable `remote`. -/
def traceIpForward (remote : Nat) (now : Nat) (source : String) (c : IpCall) : List (List Char) :=
  if c.dst = remote then [ipLine now source c] else []

/-- The `switch` of `TraceIpDrop`, examples/leo-delay-tracing-example.cc:62-83: no `default`, `res` stays empty. -/
def dropText : DropReason → String
  | .interfaceDown => "Interface down"
  | .badChecksum => "Checksum"
  | .fragmentTimeout => "Timeout"
  | .noRoute => "No route"
  | .ttlExpired => "TTL expired"
  | .routeError => "Route error"
  | .duplicate => ""

/-- `TraceIpDrop`, examples/leo-delay-tracing-example.cc:59-85. -/
def traceIpDrop (now : Nat) (source : String) (c : IpCall) (r : DropReason) : List (List Char) :=
  [ipLine now source c ++ ':' :: (dropText r).toList]

/-- The lines for one report, by the connections of examples/leo-delay-tracing-example.cc:238-246. -/
def ipSinks (remote : Nat) (traceFwd : Bool) (now : Nat) : IpEv → List (List Char)
  | .unicast c => if traceFwd then traceIpForward remote now "UnicastForward" c else []
  | .multicast c => if traceFwd then traceIpForward remote now "MulticastForward" c else []
  | .drop c r => if traceFwd then traceIpDrop now "Drop" c r else []
  | .other _ => []

/-- The lines of a run. -/
def ipTrace (remote : Nat) (traceFwd : Bool) (reports : List (Nat × IpEv)) : List (List Char) :=
  reports.flatMap fun e => ipSinks remote traceFwd e.1 e.2

end Verif
