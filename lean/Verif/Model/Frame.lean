import Verif.Base
/-!
# Link-layer framing

Models `MockNetDevice::AddHeader` (model/mock-net-device.cc:197-252) and the decoding part of
`MockNetDevice::Receive` (model/mock-net-device.cc:456-499), together with the ns-3 headers they use.
-/

namespace Verif

/-- 16-bit big endian (`Buffer::Iterator::WriteHtonU16`, ns-3 core). -/
def be16 (x : UInt16) : Bytes := [UInt8.ofNat (x.toNat / 256), UInt8.ofNat (x.toNat % 256)]

/-- Inverse of `be16` (`Buffer::Iterator::ReadNtohU16`, ns-3 core). -/
def unBe16 (hi lo : UInt8) : UInt16 := UInt16.ofNat (hi.toNat * 256 + lo.toNat)

/-- 32-bit little endian (`Buffer::Iterator::WriteU32`, ns-3 core, used by `EthernetTrailer`). -/
def le32 (x : UInt32) : Bytes :=
  [UInt8.ofNat (x.toNat % 256), UInt8.ofNat (x.toNat / 256 % 256),
   UInt8.ofNat (x.toNat / 65536 % 256), UInt8.ofNat (x.toNat / 16777216)]

/-- Inverse of `le32`. -/
def unLe32 (a b c d : UInt8) : UInt32 :=
  UInt32.ofNat (a.toNat + b.toNat * 256 + c.toNat * 65536 + d.toNat * 16777216)

/-- `LlcSnapHeader::Serialize` (ns-3 core), used by model/mock-net-device.cc:217-219. -/
def llcHeader (proto : UInt16) : Bytes := [0xaa, 0xaa, 0x03, 0, 0, 0] ++ be16 proto

/-- `EthernetHeader (false)` serialisation (ns-3 core): destination, source, length/type,
used by model/mock-net-device.cc:204-206, 243-244. -/
def ethHeader (dst src : Mac48) (lengthType : UInt16) : Bytes :=
  dst.bytes ++ src.bytes ++ be16 lengthType

/-- The frame check sequence configuration: `Node::ChecksumEnabled ()` and the CRC function of
`EthernetTrailer` (left abstract: every theorem holds for any function). -/
structure Fcs where
  enabled : Bool
  crc : Bytes → UInt32

/-- `EthernetTrailer::CalcFcs` (ns-3 core): the FCS is computed only if enabled, else stays 0;
model/mock-net-device.cc:246-250. -/
def Fcs.calc (k : Fcs) (b : Bytes) : UInt32 := if k.enabled then k.crc b else 0

/-- `EthernetTrailer::CheckFcs` (ns-3 core): true if not enabled; model/mock-net-device.cc:464-469. -/
def Fcs.check (k : Fcs) (fcs : UInt32) (b : Bytes) : Bool := if k.enabled then k.crc b == fcs else true

/-- `MockNetDevice::AddHeader` (model/mock-net-device.cc:197-252).  `lengthType` is the `uint16_t`
truncation of the size after the LLC header (line 226); padding is with zero bytes up to 46
(lines 234-240).  Simplification: only packet bytes are modelled, no packet metadata. -/
def addHeader (k : Fcs) (p : Bytes) (src dst : Mac48) (proto : UInt16) : Bytes :=
  let p1 := llcHeader proto ++ p
  let lengthType := UInt16.ofNat p1.length
  let p2 := if p1.length < 46 then p1 ++ List.replicate (46 - p1.length) 0 else p1
  let p3 := ethHeader dst src lengthType ++ p2
  p3 ++ le32 (k.calc p3)

/-- What the decoding part of `Receive` produces. -/
inductive Decoded where
  /-- CRC error: PhyRxDrop (model/mock-net-device.cc:470-475); carries the packet without trailer. -/
  | badFcs (rest : Bytes)
  /-- the packet handed to the upper layer with protocol, source and destination -/
  | good (packet : Bytes) (proto : UInt16) (src dst : Mac48)
  deriving DecidableEq, Repr

/-- `Packet::RemoveTrailer (EthernetTrailer)` (ns-3 core): the last four bytes. -/
def removeTrailer (f : Bytes) : Outcome (Bytes × UInt32) :=
  match f.drop (f.length - 4) with
  | [a, b, c, d] => .ok (f.take (f.length - 4), unLe32 a b c d)
  | _ => .fail .packetTooShort

/-- `Packet::RemoveHeader (EthernetHeader)` (ns-3 core): 14 bytes. -/
def removeEthHeader (f : Bytes) : Outcome (Bytes × Mac48 × Mac48 × UInt16) :=
  match f with
  | d0 :: d1 :: d2 :: d3 :: d4 :: d5 :: s0 :: s1 :: s2 :: s3 :: s4 :: s5 :: hi :: lo :: rest =>
    .ok (rest, ⟨d0, d1, d2, d3, d4, d5⟩, ⟨s0, s1, s2, s3, s4, s5⟩, unBe16 hi lo)
  | _ => .fail .packetTooShort

/-- `Packet::RemoveHeader (LlcSnapHeader)` (ns-3 core): 8 bytes, the last two are the type; the
other six are not checked. -/
def removeLlcHeader (f : Bytes) : Outcome (Bytes × UInt16) :=
  match f with
  | _ :: _ :: _ :: _ :: _ :: _ :: hi :: lo :: rest => .ok (rest, unBe16 hi lo)
  | _ => .fail .packetTooShort

/-- The decoding part of `MockNetDevice::Receive` (model/mock-net-device.cc:462-499). -/
def decode (k : Fcs) (f : Bytes) : Outcome Decoded := do
  let (p, fcs) ← removeTrailer f
  if !k.check fcs p then
    .ok (.badFcs p)
  else do
    let (q, dst, src, lengthType) ← removeEthHeader p
    if lengthType ≤ 1500 then
      if q.length < lengthType.toNat then .fail .frameShorterThanLength
      else
        let padlen := q.length - lengthType.toNat
        if padlen > 46 then .fail .padTooLong
        else do
          let (r, proto) ← removeLlcHeader (q.take (q.length - padlen))
          .ok (.good r proto src dst)
    else
      .ok (.good q lengthType src dst)

end Verif
