/-!
# Base vocabulary

Outcomes, bytes, link-layer addresses.  Nothing here is specific to one source file.
-/

namespace Verif

/-- The ways in which a modelled call can fail to return.  Each value names the C++ construct that
fires; `isUb` separates undefined behaviour from `NS_ASSERT`/`NS_ABORT`. -/
inductive Fault where
  /-- `NS_ASSERT_MSG (m_txMachineState == READY, ..)`, model/mock-net-device.cc:326 -/
  | txNotReady
  /-- `NS_ASSERT_MSG (m_txMachineState == BUSY, ..)`, model/mock-net-device.cc:360 -/
  | txNotBusy
  /-- `NS_ASSERT_MSG (m_currentPkt != 0, ..)`, model/mock-net-device.cc:363 -/
  | noCurrentPacket
  /-- `NS_ASSERT_MSG (!(fromGround && fromSpace), ..)`, model/leo-mock-channel.cc:79 -/
  | bothSides
  /-- `NS_ASSERT (packet->GetSize () >= header.GetLengthType ())`, model/mock-net-device.cc:484 -/
  | frameShorterThanLength
  /-- `NS_ASSERT (padlen <= 46)`, model/mock-net-device.cc:486 -/
  | padTooLong
  /-- assertion of `Mac48Address::ConvertFrom` on an address that is not a MAC address -/
  | notAMac
  /-- `NS_ASSERT_MSG (incl != 0.0, ..)`, model/leo-circular-orbit-mobility-model.cc:212 -/
  | zeroInclination
  /-- `NS_ASSERT_MSG (false, "Invalid constellation")`, helper/leo-channel-helper.cc:121 -/
  | unknownConstellation
  /-- `NS_ABORT_MSG ("Input stream is not open")`, helper/leo-input-fstream-container.cc:74 -/
  | fileNotOpen
  /-- abort of `WaypointMobilityModel::AddWaypoint` on a time that is not later -/
  | waypointNotLater
  /-- `NS_FATAL_ERROR` of `ObjectFactory::Set` on an attribute the type does not have -/
  | invalidAttribute
  /-- `NS_ABORT_MSG_UNLESS (prefix.size (), ..)` of `GetFilenameFromDevice` (ns-3 network) -/
  | emptyPrefix
  /-- undefined behaviour: dereference of the null `m_channel` -/
  | nullChannel
  /-- undefined behaviour: dereference of the null `m_queue` -/
  | nullQueue
  /-- undefined behaviour: dereference of the null node of a device -/
  | nullNode
  /-- undefined behaviour: call of a null receive callback -/
  | nullCallback
  /-- undefined behaviour: `std::vector::operator[]` out of range -/
  | indexOutOfRange
  /-- undefined behaviour: header or trailer removed from a packet that is too short -/
  | packetTooShort
  /-- undefined behaviour: `StaticCast` to a class the object does not have -/
  | badCast
  /-- undefined behaviour: integer division or remainder by zero -/
  | divByZero
  /-- undefined behaviour: signed integer overflow -/
  | signedOverflow
  /-- undefined behaviour: increment of a `std::map` iterator whose element has been erased -/
  | iteratorInvalid
  /-- undefined behaviour: call on an object that has been destroyed -/
  | useAfterFree
  /-- not a fault of the code: a loop that connected code keeps extending was given up by the model -/
  | endlessLoop
  deriving DecidableEq, Repr

/-- Which faults are undefined behaviour (as opposed to a diagnosed assertion or abort). -/
def Fault.isUb : Fault → Bool
  | .nullChannel | .nullQueue | .nullNode | .nullCallback | .indexOutOfRange | .packetTooShort
  | .badCast | .divByZero | .signedOverflow | .iteratorInvalid | .useAfterFree => true
  | _ => false

/-- Result of a modelled call: a value, or the fault that ends the execution. -/
inductive Outcome (α : Type) where
  | ok (a : α)
  | fail (f : Fault)
  deriving DecidableEq, Repr

namespace Outcome

/-- Sequencing: a fault ends the execution. -/
def bind {α β : Type} : Outcome α → (α → Outcome β) → Outcome β
  | .ok a, k => k a
  | .fail f, _ => .fail f

instance : Monad Outcome where
  pure := .ok
  bind := bind

@[simp] theorem pure_eq {α : Type} (a : α) : (pure a : Outcome α) = .ok a := rfl
@[simp] theorem ok_bind {α β : Type} (a : α) (k : α → Outcome β) : (Outcome.ok a >>= k) = k a := rfl
@[simp] theorem fail_bind {α β : Type} (f : Fault) (k : α → Outcome β) :
    ((Outcome.fail f : Outcome α) >>= k) = .fail f := rfl

theorem bind_eq_ok {α β : Type} {x : Outcome α} {k : α → Outcome β} {b : β} :
    (x >>= k) = .ok b ↔ ∃ a, x = .ok a ∧ k a = .ok b := by
  cases x <;> simp

theorem bind_eq_fail {α β : Type} {x : Outcome α} {k : α → Outcome β} {f : Fault} :
    (x >>= k) = .fail f ↔ x = .fail f ∨ ∃ a, x = .ok a ∧ k a = .fail f := by
  cases x <;> simp

end Outcome

/-- Contents of an `ns3::Packet`. -/
abbrev Bytes := List UInt8

/-- Simulator time (and time differences) in nanoseconds. -/
scoped macro "Time" : term => `(Nat)

/-- A 48-bit link-layer address (`ns3::Mac48Address`), most significant byte first. -/
structure Mac48 where
  b0 : UInt8
  b1 : UInt8
  b2 : UInt8
  b3 : UInt8
  b4 : UInt8
  b5 : UInt8
  deriving DecidableEq, Repr

namespace Mac48

/-- The six bytes in transmission order. -/
def bytes (m : Mac48) : Bytes := [m.b0, m.b1, m.b2, m.b3, m.b4, m.b5]

/-- `ff:ff:ff:ff:ff:ff`. -/
def broadcast : Mac48 := ⟨255, 255, 255, 255, 255, 255⟩

/-- `Mac48Address::IsBroadcast` (ns-3 core). -/
def isBroadcast (m : Mac48) : Bool := m == broadcast

/-- `Mac48Address::IsGroup` (ns-3 core): the group bit of the first byte. -/
def isGroup (m : Mac48) : Bool := m.b0 &&& 1 == 1

/-- The address as a number, first byte most significant. -/
def toNat (m : Mac48) : Nat :=
  ((((m.b0.toNat * 256 + m.b1.toNat) * 256 + m.b2.toNat) * 256 + m.b3.toNat) * 256
    + m.b4.toNat) * 256 + m.b5.toNat

/-- The address of a number below 2^48. -/
def ofNat (n : Nat) : Mac48 :=
  ⟨UInt8.ofNat (n / 256 ^ 5), UInt8.ofNat (n / 256 ^ 4), UInt8.ofNat (n / 256 ^ 3),
   UInt8.ofNat (n / 256 ^ 2), UInt8.ofNat (n / 256), UInt8.ofNat n⟩

end Mac48

/-- An `ns3::Address` as passed to the net device API: a MAC address or anything else (for instance
the invalid default-constructed address). -/
inductive Addr where
  | mac (m : Mac48)
  | other
  deriving DecidableEq, Repr

end Verif
