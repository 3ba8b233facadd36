import Verif.Model.Reentrant
/-!
# Specification vocabulary for calls from connected code

Which nested calls are harmless.  Only the data types of the model are used, except in `HistOk`, which
mentions the states a history passes through.
-/

namespace Verif.Spec

/-- The hooks at which the transmit path of a device is not prepared for a `Send` on that device: the
transmitter is announced as ready although a frame is about to be started (Dequeue of the queue, sniffers)
or the finished frame is still current (PhyTxEnd). -/
def Hook.delicate : Hook → Bool
  | .dequeue | .promiscSniffer | .sniffer | .phyTxEnd => true
  | _ => false

/-- The operations of a user program that neither send nor let time pass: setters, `SendFrom`, `Attach`,
`Detach`. -/
def Op.config : Op → Bool
  | .send .. | .run | .wait _ => false
  | _ => true

mutual
/-- No `Send` on a device of `B` is made, and none on a device below a delicate hook of that device.  Devices
may be reconfigured, attached and detached anywhere. -/
def callOk (B : List DevId) : Call → Bool
  | .mk d _ _ _ sc => !B.contains d && scriptOk B d sc
  | .conf op sc => Op.config op && calmOk B sc
/-- The same for the calls made while device `d` sends or completes a transmission. -/
def scriptOk (B : List DevId) (d : DevId) : Script → Bool
  | .nil => true
  | .cons h c rest => callOk (if Hook.delicate h then d :: B else B) c && scriptOk B d rest
/-- The same for the calls made while a device is attached or detached or receives: no hook is delicate then. -/
def calmOk (B : List DevId) : Script → Bool
  | .nil => true
  | .cons _ c rest => callOk B c && calmOk B rest
end

/-- The nested calls of an operation in state `s` are harmless. -/
def opOk (s : Sys) : ROp → Bool
  | .call c => callOk [] c
  | .run sc =>
    match s.pending with
    | [] => true
    | p :: _ =>
      match p.act with
      | .txComplete d _ => scriptOk [] d sc
      | .receive _ _ _ _ => calmOk [] sc
  | .plain _ => true

/-- Connected code makes no calls during this call. -/
def leaf : Call → Bool
  | .mk _ _ _ _ .nil => true
  | .conf op .nil => Op.config op
  | _ => false

/-- Connected code makes calls from the receive callback only, and none during those. -/
def forwardScript : Script → Bool
  | .nil => true
  | .cons h c rest => (decide (h = .rxCallback) && leaf c) && forwardScript rest

/-- An operation of a program that forwards from the receive callback. -/
def forwardOp : ROp → Bool
  | .call c => leaf c
  | .run sc => forwardScript sc
  | .plain _ => true

/-- A frame was accepted for every frame that entered the transmit path, in whatever order the calls
returned: the sequence of frames begun and waiting grows at its end only. -/
def Fifo (q a q' a' : List Bytes) : Prop :=
  ∃ l m, q' = q ++ l ∧ a' = a ++ m ∧ l.Perm m

/-- All nested calls of a history are harmless, in the states in which they are made. -/
def HistOk (E : Env) (s : Sys) (ops : List ROp) : Prop :=
  ∀ pre op post s', ops = pre ++ op :: post → execR E s pre = .ok s' → opOk s' op = true

/-! ## Connected code that reconfigures -/

mutual
/-- The call is not a call of `Send`, and neither are the calls it gives rise to. -/
def quietCall : Call → Bool
  | .mk .. => false
  | .conf op sc => Op.config op && quietScript sc
/-- Connected code makes no calls of `Send`: it may reconfigure, attach and detach devices. -/
def quietScript : Script → Bool
  | .nil => true
  | .cons _ c rest => quietCall c && quietScript rest
end

/-- An operation of a program whose connected code makes no calls of `Send`. -/
def quietOp : ROp → Bool
  | .call (.mk _ _ _ _ sc) => quietScript sc
  | .call (.conf op sc) => Op.config op && quietScript sc
  | .run sc => quietScript sc
  | .plain _ => true

/-- The operations that set an attribute of a device to a value of the right type. -/
def Op.setter : Op → Bool
  | .setAddress _ (.mac _) | .setSide .. | .setRate .. | .setGap .. | .setMtu .. | .setTxPower .. | .setRxThreshold ..
  | .setRxGain .. | .setRxLoss .. | .setPromisc .. => true
  | _ => false

/-- The operation sets the address of `d`. -/
def Op.readdress (d : DevId) : Op → Bool
  | .setAddress x _ => decide (x = d)
  | _ => false

/-- Connected code performs these operations when `h` fires. -/
def atHook (h : Hook) : List Op → Script
  | [] => .nil
  | op :: ops => .cons h (.conf op .nil) (atHook h ops)

end Verif.Spec
