import Verif.Spec.Reentrant
import Verif.Spec.Channel
/-!
# Specification vocabulary for code connected to the trace source of a channel (C97)

Which operations connected code performs while a frame is being delivered; ordered indexes.
-/

namespace Verif.Spec

mutual
/-- No operation of kind `bad` is performed by the call or by the code connected during it. -/
def avoids (bad : Op → Bool) : Call → Bool
  | .mk _ _ _ _ sc => avoidsS bad sc
  | .conf op sc => !bad op && avoidsS bad sc
/-- The same for connected code. -/
def avoidsS (bad : Op → Bool) : Script → Bool
  | .nil => true
  | .cons _ c rest => avoids bad c && avoidsS bad rest
end

/-- The trace source of the channel, which fires while a frame is being delivered. -/
def Hook.inDelivery : Hook → Bool
  | .txrx _ | .txrxAt .. => true
  | _ => false

mutual
/-- No operation of kind `bad` is performed, however deeply nested, by code connected to the trace source of a
channel; code connected elsewhere may perform it. -/
def deliverAvoids (bad : Op → Bool) : Call → Bool
  | .mk _ _ _ _ sc => deliverAvoidsS bad sc
  | .conf _ sc => deliverAvoidsS bad sc
/-- The same for connected code. -/
def deliverAvoidsS (bad : Op → Bool) : Script → Bool
  | .nil => true
  | .cons h c rest => (if Hook.inDelivery h then avoids bad c else deliverAvoids bad c) && deliverAvoidsS bad rest
end

/-- The same for an operation of the user program. -/
def deliverAvoidsOp (bad : Op → Bool) : ROp → Bool
  | .call c => deliverAvoids bad c
  | .run sc => deliverAvoidsS bad sc
  | .plain _ => true

/-- `Detach` from a channel between ground and satellites. -/
def detachLeo (s : Sys) : Op → Bool
  | .detach c _ => decide ((s.chan c).kind = .leo)
  | _ => false

/-- `Attach` to a channel between satellites. -/
def attachIsl (s : Sys) : Op → Bool
  | .attach _ c => decide ((s.chan c).kind = .isl)
  | _ => false

/-- All code is connected to the trace source of the channel. -/
def onlyTrace : Script → Bool
  | .nil => true
  | .cons h _ rest => Hook.inDelivery h && onlyTrace rest

/-- Operations that take nothing away from a frame of device `d`: attaching devices of `D`, and setting anything but
addresses and the transmit power of `d`. -/
def Op.grows (D : List DevId) (d : DevId) : Op → Bool
  | .attach x _ => D.contains x
  | .sendFrom .. | .setSide .. | .setRate .. | .setGap .. | .setMtu .. | .setRxThreshold .. | .setRxGain ..
  | .setRxLoss .. | .setPromisc .. => true
  | .setTxPower x _ => decide (x ≠ d)
  | _ => false

/-- The indexes are in order and list devices of `D`, each under the address it has; no two devices of `D` have the
same address. -/
structure Keyed (D : List DevId) (s : Sys) : Prop where
  gnd : ∀ c, (s.chan c).gnd.Pairwise (fun x y => x.1.toNat < y.1.toNat)
  sat : ∀ c, (s.chan c).sat.Pairwise (fun x y => x.1.toNat < y.1.toNat)
  gndKey : ∀ c, ∀ x ∈ (s.chan c).gnd, x.2 ∈ D ∧ x.1 = (s.dev x.2).addr
  satKey : ∀ c, ∀ x ∈ (s.chan c).sat, x.2 ∈ D ∧ x.1 = (s.dev x.2).addr
  unique : ∀ x ∈ D, ∀ y ∈ D, (s.dev x).addr = (s.dev y).addr → x = y

/-- Connected code performs this operation when the `i`-th round of a loop delivers, and no other. -/
def atRound (i : Nat) (op : Op) : Script := .cons (.txrx i) (.conf op .nil) .nil

/-- The indexes of the channels are in ascending order, as those of a `std::map` always are. -/
def Ordered (s : Sys) : Prop :=
  ∀ c, (s.chan c).gnd.Pairwise (fun x y => x.1.toNat < y.1.toNat) ∧
    (s.chan c).sat.Pairwise (fun x y => x.1.toNat < y.1.toNat)

end Verif.Spec
