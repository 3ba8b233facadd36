import Verif.Base
/-!
# Specification of framing

What the wire format and the receiver's view of a transmitted packet should be, written without
reference to the model.
-/

namespace Verif.Spec

/-- What an upper layer is told about a received packet. -/
structure Delivery where
  packet : Bytes
  proto : UInt16
  src : Mac48
  dst : Mac48
  deriving DecidableEq, Repr

/-- Largest payload whose LLC length still fits the length interpretation (1500) of the
length/type field. -/
def maxIntact : Nat := 1492

/-- Two bytes, most significant first. -/
def two (n : Nat) : Bytes := [UInt8.ofNat (n / 256), UInt8.ofNat (n % 256)]

/-- The wire image of a frame without its four trailer bytes. -/
def wire (p : Bytes) (proto : UInt16) (src dst : Mac48) : Bytes :=
  [dst.b0, dst.b1, dst.b2, dst.b3, dst.b4, dst.b5,
   src.b0, src.b1, src.b2, src.b3, src.b4, src.b5]
  ++ two ((p.length + 8) % 65536)
  ++ [0xaa, 0xaa, 0x03, 0x00, 0x00, 0x00] ++ two proto.toNat
  ++ p ++ List.replicate (38 - p.length) 0

end Verif.Spec
