import Verif.Model.Net
/-!
# Specification vocabulary for reception (C14)

Conditions and projections, independent of the code of `Receive`.
-/

namespace Verif.Spec

/-- Everything passed to the receive callback of `d`. -/
def upcalls (d : DevId) (l : List Ev) : List (Bytes × UInt16 × Mac48) :=
  l.filterMap fun e => match e with
    | .rxCallback d' p proto src => if d' = d then some (p, proto, src) else none
    | _ => none

/-- Everything passed to the promiscuous callback of `d`. -/
def promiscs (d : DevId) (l : List Ev) : List (Bytes × UInt16 × Mac48 × Mac48 × PacketType) :=
  l.filterMap fun e => match e with
    | .promiscCallback d' p proto src dst ty => if d' = d then some (p, proto, src, dst, ty) else none
    | _ => none

/-- Which drop trace. -/
inductive Drop where
  | mac
  | phy
  deriving DecidableEq, Repr

/-- Receive-side drop traces of `d`. -/
def drops (d : DevId) (l : List Ev) : List Drop :=
  l.filterMap fun e => match e with
    | .macRxDrop d' _ => if d' = d then some .mac else none
    | .phyRxDrop d' _ => if d' = d then some .phy else none
    | _ => none

/-- Power after the receiver's own loss and gain: only ground/satellite devices have them. -/
def effectivePower (v : Dev) (rx : Power) : Power :=
  match v.leo with
  | true => rx + v.rxGain - v.rxLoss
  | false => rx

/-- The frame is physically received: strong enough and not corrupted. -/
def Audible (v : Dev) (rx : Power) (corrupted : Bool) : Prop :=
  v.rxThreshold ≤ effectivePower v rx ∧ corrupted = false

/-- The destination addresses a device with address `own` has to accept. -/
def ForMe (dst own : Mac48) : Prop :=
  dst.bytes = [0xff, 0xff, 0xff, 0xff, 0xff, 0xff] ∨ dst = own ∨ dst.b0.toNat % 2 = 1

/-- The packet type reported for a destination. -/
def TypeFor (dst own : Mac48) : PacketType → Prop
  | .broadcast => dst.bytes = [0xff, 0xff, 0xff, 0xff, 0xff, 0xff]
  | .host => dst.bytes ≠ [0xff, 0xff, 0xff, 0xff, 0xff, 0xff] ∧ dst = own
  | .multicast => dst.bytes ≠ [0xff, 0xff, 0xff, 0xff, 0xff, 0xff] ∧ dst ≠ own ∧ dst.b0.toNat % 2 = 1
  | .otherHost => dst.bytes ≠ [0xff, 0xff, 0xff, 0xff, 0xff, 0xff] ∧ dst ≠ own ∧ dst.b0.toNat % 2 = 0

/-- Everything passed to the receive callback of `d` according to a log. -/
def upcallLog (d : DevId) (log : List (Time × Ev)) : List (Bytes × UInt16 × Mac48) := upcalls d (log.map Prod.snd)

/-- A frame for `m`, sent by `src`, that arrives with power `pw` at device `x` with state `v` is passed on
by the device (no error model). -/
def TakesUp (v : Dev) (x src : DevId) (m : Mac48) (pw : Power) : Prop :=
  src ≠ x ∧ v.rxThreshold ≤ effectivePower v pw ∧ ForMe m v.addr

end Verif.Spec
