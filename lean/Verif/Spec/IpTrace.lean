import Verif.Model.IpTrace
import Verif.Spec.Parse
import Verif.Spec.AddressPlan
/-!
# What the IP lines of the delay tracing program mean
-/

namespace Verif
namespace Spec

/-- `l` is a decimal numeral of `n`. -/
def Numeral (l : List Char) (n : Nat) : Prop := Digits l ∧ l ≠ [] ∧ value l = n

/-- `l` is an IPv4 address in dotted notation. -/
def DottedText (l : List Char) (ip : Nat) : Prop :=
  ∃ (la lb lc ld : List Char) (a b c d : Nat), Numeral la a ∧ Numeral lb b ∧ Numeral lc c ∧ Numeral ld d ∧ a < 256 ∧ b < 256 ∧ c < 256 ∧ d < 256 ∧
    l = la ++ '.' :: (lb ++ '.' :: (lc ++ '.' :: ld)) ∧ ip = dotted a b c d

/-- The names of the reasons in the lines, for packets that were dropped. -/
def reasonNames : List (String × DropReason) :=
  [("TTL expired", .ttlExpired), ("No route", .noRoute), ("Checksum", .badChecksum), ("Interface down", .interfaceDown), ("Route error", .routeError),
   ("Timeout", .fragmentTimeout), ("", .duplicate)]

/-- The name of the source, the data and the end of the line for a report. -/
inductive Told : IpEv → String → IpCall → List Char → Prop
  | unicast (c : IpCall) : Told (.unicast c) "UnicastForward" c []
  | multicast (c : IpCall) : Told (.multicast c) "MulticastForward" c []
  | drop (c : IpCall) (name : String) (r : DropReason) (h : (name, r) ∈ reasonNames) : Told (.drop c r) "Drop" c (':' :: name.toList)

/-- `line` tells the report `e` at time `t`. -/
def Tells (line : List Char) (t : Nat) (e : IpEv) : Prop :=
  ∃ (source : String) (c : IpCall) (rest lt ln lu li ls ld : List Char), Told e source c rest ∧
    Numeral lt t ∧ Numeral ln c.node ∧ Numeral lu c.uid ∧ Numeral li c.iface ∧ DottedText ls c.src ∧ DottedText ld c.dst ∧
    line = "+".toList ++ lt ++ ".0ns:/NodeList/".toList ++ ln ++ "/$ns3::Ipv4L3Protocol/".toList ++ source.toList ++ ":".toList ++ lu ++ ":".toList ++ li ++
      ":".toList ++ ls ++ ":".toList ++ ld ++ rest

/-- The reports that a reader of the trace wants: packets on the way to `remote`, and all losses. -/
def Wanted (remote : Nat) : IpEv → Prop
  | .unicast c => c.dst = remote
  | .multicast c => c.dst = remote
  | .drop _ _ => True
  | .other _ => False

/-- The data of a report. -/
def ipData : IpEv → IpCall
  | .unicast c => c
  | .multicast c => c
  | .drop c _ => c
  | .other c => c

/-- Reports as ns-3 makes them: addresses have 32 bits, and what is forwarded to a group goes to a group address (224.0.0.0 or above). -/
def IpReports (reports : List (Nat × IpEv)) : Prop :=
  ∀ e ∈ reports, (ipData e.2).src < 2 ^ 32 ∧ (ipData e.2).dst < 2 ^ 32 ∧ ∀ c, e.2 = .multicast c → dotted 224 0 0 0 ≤ c.dst

end Spec
end Verif
