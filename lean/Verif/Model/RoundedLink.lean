import Verif.Model.Rounded
import Verif.Model.Net
/-!
# What a receiver decides about a frame, with rounding

The two comparisons of received power in `double`: that of the channel (is the destination reachable at all) and that of
the receiving device (does the frame exceed the threshold).
-/

namespace Verif
open Real

/-- What becomes of a frame for one destination: the channel schedules no reception; it does, and the device drops the
frame for want of power; the device goes on with it. -/
inductive Reception where
  | unreachable
  | tooWeak
  | heard
  deriving DecidableEq, Repr

namespace Arith

/-- `DoCalcRxPower` with the attributes of the receiving device, rounded: loss and gain for `LeoMockNetDevice`
(model/leo-mock-net-device.cc:75-79), identity for `MockNetDevice` (model/mock-net-device.cc:415-419). -/
def devRxPower (F : Arith) (leo : Bool) (rxLoss rxGain rx : ℝ) : ℝ :=
  if leo then F.add (F.sub rx rxLoss) rxGain else rx

open Classical in
/-- The comparisons of `MockChannel::Deliver` (model/mock-channel.cc:180-192, with mobility models and a loss model) and of
`MockNetDevice::Receive` (model/mock-net-device.cc:436-443) on the power `rx` the loss model returned. -/
noncomputable def reception (F : Arith) (leo : Bool) (rxLoss rxGain thr rx : ℝ) : Reception :=
  if rx < -900 then .unreachable
  else if F.devRxPower leo rxLoss rxGain rx < thr then .tooWeak
  else .heard

end Arith
end Verif
