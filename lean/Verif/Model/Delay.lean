import Verif.Model.Net
import Verif.Model.ParseDouble
/-!
# The applications of the delay tracing program

examples/leo-delay-tracing-example.cc:196-212 installs a `UdpClient` on the first user and a `UdpServer` on the second one (ns-3
applications), and `EchoRx` (lines 33-40) prints one line for each packet the server receives.  The internet stack in between is a parameter:
it takes the UDP payload for the server out of a packet that a device passes up.  Packets of 1024 bytes are not fragmented.
-/

namespace Verif

/-- What becomes of the number of packets. -/
inductive PacketCount where
  /-- the attribute MaxPackets -/
  | count (n : Nat)
  /-- `NS_FATAL_ERROR` of `ObjectFactory::Set`: the value does not fit `uint32_t` -/
  | fatal
  /-- undefined behaviour: conversion of a `double` to an integer type that cannot represent it -/
  | undefined
  deriving DecidableEq, Repr

/-- `UintegerValue (duration / interval)` for the attribute MaxPackets (examples/leo-delay-tracing-example.cc:208): the quotient as
`double`, converted to `uint64_t` by cutting off the fraction, checked to fit `uint32_t` (ns-3, `UdpClient::GetTypeId`).  The options
are finite numbers. -/
def maxPackets (duration interval : ℚ) : PacketCount :=
  if interval = 0 then .undefined
  else match toDouble (duration / interval) with
    | none => .undefined
    | some x =>
      if -1 < x ∧ x < 2 ^ 64 then
        if ⌊x⌋.toNat < 2 ^ 32 then .count ⌊x⌋.toNat else .fatal
      else .undefined

/-- `Buffer::Iterator::WriteHtonU32` and `WriteHtonU64` (ns-3 network): `n` bytes, most significant first. -/
def beBytes : Nat → Nat → Bytes
  | 0, _ => []
  | n + 1, x => beBytes n (x / 256) ++ [UInt8.ofNat (x % 256)]

/-- `Buffer::Iterator::ReadNtohU32` and `ReadNtohU64` (ns-3 network). -/
def unBe (b : Bytes) : Nat := b.foldl (fun a x => a * 256 + x.toNat) 0

/-- The packet of `UdpClient::Send` (ns-3 applications): a `SeqTsHeader` with the number of packets sent before (`uint32_t`) and the time
(`uint64_t`), filled up with zeros to 1024 bytes, examples/leo-delay-tracing-example.cc:210. -/
def clientPacket (sent : Nat) (now : Time) : Bytes := beBytes 4 sent ++ beBytes 8 now ++ List.replicate 1012 0

/-- `UdpClient::Send` and the calls it schedules (ns-3 applications): times and packets given to the socket.  The first call is not
conditional. -/
def udpClient (interval : Time) (count : Nat) (now : Time) (sent : Nat) : List (Time × Bytes) :=
  (now, clientPacket sent now) :: if sent + 1 < count then udpClient interval count (now + interval) (sent + 1) else []
termination_by count - sent

/-- A line of `EchoRx`: time, sequence number, delay in nanoseconds (the context and the id of the packet are left out). -/
structure EchoLine where
  now : Time
  seq : Nat
  delay : Int
  deriving DecidableEq, Repr

/-- `EchoRx`, examples/leo-delay-tracing-example.cc:33-40: `RemoveHeader` on a packet without 12 bytes is an assertion of the buffer in debug
builds and undefined otherwise; the time stamp is converted to `int64_t`. -/
def echoRx (now : Time) (p : Bytes) : Outcome EchoLine :=
  if p.length < 12 then .fail .packetTooShort
  else
    let ts := unBe ((p.drop 4).take 8)
    .ok ⟨now, unBe (p.take 4), (now : Int) - if ts < 2 ^ 63 then (ts : Int) else (ts : Int) - 2 ^ 64⟩

/-- The calls of `EchoRx` (`Config::Connect` to the trace source Rx of `UdpServer`, examples/leo-delay-tracing-example.cc:213-214):
one for each payload the stack of the server takes out of a packet passed up by one of its devices, at that time. -/
def echoLines (udp : Bytes → Option Bytes) (isServer : DevId → Bool) (log : List (Time × Ev)) : List (Outcome EchoLine) :=
  log.filterMap fun e =>
    match e.2 with
    | .rxCallback d p _ _ => if isServer d then (udp p).map (echoRx e.1) else none
    | _ => none

end Verif
