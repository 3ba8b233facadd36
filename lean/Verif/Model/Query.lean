import Verif.Model.Net
/-!
# What devices and channels tell about themselves

The functions of `MockNetDevice` and `MockChannel` that only return a value.
-/

namespace Verif

/-- `MockChannel::GetNDevices` (model/mock-channel.cc:101-106). -/
def getNDevices (s : Sys) (c : ChanId) : Nat := (s.chan c).link.length

/-- `MockChannel::GetDevice (i)` (model/mock-channel.cc:108-113): unchecked access to the vector. -/
def getDevice (s : Sys) (c : ChanId) (i : Nat) : Outcome DevId :=
  match (s.chan c).link[i]? with
  | some d => .ok d
  | none => .fail .indexOutOfRange

/-- `MockNetDevice::IsLinkUp` (model/mock-net-device.cc:594-599). -/
def isLinkUp (s : Sys) (d : DevId) : Bool := (s.dev d).linkUp

/-- `MockNetDevice::GetBroadcast` (model/mock-net-device.cc:620-625). -/
def getBroadcast : Mac48 := ⟨0xff, 0xff, 0xff, 0xff, 0xff, 0xff⟩

/-- `MockNetDevice::GetMulticast (Ipv4Address)` (model/mock-net-device.cc:634-639): the group is ignored. -/
def getMulticast4 (_group : BitVec 32) : Mac48 := ⟨0x01, 0x00, 0x5e, 0x00, 0x00, 0x00⟩

/-- `MockNetDevice::GetMulticast (Ipv6Address)` (model/mock-net-device.cc:641-646): the address is ignored. -/
def getMulticast6 (_addr : BitVec 128) : Mac48 := ⟨0x33, 0x33, 0x00, 0x00, 0x00, 0x00⟩

/-- `MockNetDevice::SupportsSendFrom` (model/mock-net-device.cc:758-763). -/
def supportsSendFrom : Bool := false

/-- `MockNetDevice::IsBroadcast` and `IsMulticast` (model/mock-net-device.cc:608-613, 627-632). -/
def supportsBroadcast : Bool := true
@[inherit_doc supportsBroadcast] def supportsMulticast : Bool := true

end Verif
