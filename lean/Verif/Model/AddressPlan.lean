import Verif.Model.Example
/-!
# IPv4 addresses of the example programs

examples/leo-delay-tracing-example.cc:180-200 and examples/leo-bulk-send-example.cc:128-144 give addresses to the devices and take the destination of the traffic
from them.  `Ipv4AddressHelper`, `Ipv4AddressGenerator` and the list of interfaces of a node are ns-3's.
-/

namespace Verif

/-- What `Ipv4AddressHelper` remembers between calls (network, number of host bits, next host number), all addresses given so far (`Ipv4AddressGenerator`,
one for the whole program; ns-3 keeps ranges), and the interfaces of each node with their addresses in the order of `AddInterface`.  Interface 0 of every node
is the loopback interface, which is left out: the element at position `k` is interface `k + 1`. -/
structure AddrPlan where
  net : Nat
  bits : Nat
  host : Nat
  given : List Ip
  ifaces : NodeId → List (DevId × List Ip)

/-- After `InternetStackHelper::Install`: no address, loopback interfaces only. -/
def AddrPlan.start : AddrPlan := ⟨0, 0, 0, [], fun _ => []⟩

/-- `Ipv4AddressHelper::SetBase (network, mask)` with host numbers from 1 on (ns-3): asserts that the network has no host bits. -/
def AddrPlan.setBase (P : AddrPlan) (net bits : Nat) : Option AddrPlan :=
  if net % 2 ^ bits = 0 then some { P with net := net, bits := bits, host := 1 } else none

/-- `Ipv4Interface` of a device on its node, added if the node has none (`GetInterfaceForDevice`, `AddInterface`), gets one more address (`AddAddress`). -/
def addToIface (d : DevId) (ip : Ip) : List (DevId × List Ip) → List (DevId × List Ip)
  | [] => [(d, [ip])]
  | (e, l) :: rest => if e = d then (e, l ++ [ip]) :: rest else (e, l) :: addToIface d ip rest

/-- One round of `Ipv4AddressHelper::Assign` with `NewAddress` (ns-3).  `none`: the assertion that the network has a host number left, the fatal error of
`Ipv4AddressGenerator::AddAllocated` for an address given before, or a device without a node. -/
def AddrPlan.assignOne (node : DevId → Option NodeId) (P : AddrPlan) (d : DevId) : Option AddrPlan :=
  match node d with
  | none => none
  | some n =>
    if P.host > 2 ^ P.bits - 2 then none
    else
      let ip := P.net + P.host
      if ip ∈ P.given then none
      else some { P with host := P.host + 1, given := ip :: P.given, ifaces := fun m => if m = n then addToIface d ip (P.ifaces m) else P.ifaces m }

/-- `Ipv4AddressHelper::Assign (NetDeviceContainer)` (ns-3). -/
def AddrPlan.assign (node : DevId → Option NodeId) (P : AddrPlan) : List DevId → Option AddrPlan
  | [] => some P
  | d :: ds => (P.assignOne node d).bind fun Q => Q.assign node ds

/-- 10.1.0.0 as a number (examples/leo-delay-tracing-example.cc:185, examples/leo-bulk-send-example.cc:133). -/
def utBase : Nat := 10 * 2 ^ 24 + 1 * 2 ^ 16

/-- 10.2.0.0 as a number (examples/leo-delay-tracing-example.cc:193, examples/leo-bulk-send-example.cc:141). -/
def islBase : Nat := 10 * 2 ^ 24 + 2 * 2 ^ 16

/-- The addresses of the devices (examples/leo-delay-tracing-example.cc:183-195, examples/leo-bulk-send-example.cc:131-143). -/
def exampleAddresses (X : ExampleNet) (islEnabled : Bool) : Option AddrPlan :=
  (AddrPlan.start.setBase utBase 16).bind fun P =>
  (P.assign (fun d => (X.build.sys.dev d).node) X.utNet).bind fun P =>
  if islEnabled then
    (P.setBase islBase 16).bind fun P => P.assign (fun d => (X.build.sys.dev d).node) X.islNet
  else some P

/-- `GetObject<Ipv4> ()->GetAddress (1, 0).GetLocal ()` (examples/leo-delay-tracing-example.cc:206, examples/leo-bulk-send-example.cc:145); `none`: there is no such
interface or address. -/
def AddrPlan.remote (P : AddrPlan) (n : NodeId) : Option Ip :=
  match P.ifaces n with
  | [] => none
  | (_, l) :: _ => l.head?

end Verif
