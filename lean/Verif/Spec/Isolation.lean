import Verif.Spec.Net
/-!
# Networks that share a simulation

A group is a set of devices and channels.  If devices of the group are attached to channels of the group only, and all
other devices to other channels only, the group is a network of its own.
-/

namespace Verif.Spec

/-- Devices and channels of one network. -/
structure Group where
  dev : DevId → Bool
  chan : ChanId → Bool

/-- The effect is one of the group. -/
def Group.ev (G : Group) : Ev → Bool
  | .macTx d _ | .macTxDrop d _ | .sniffer d _ | .promiscSniffer d _ | .phyTxBegin d _ | .phyTxEnd d _
  | .phyTxDrop d _ | .phyRxEnd d _ | .phyRxDrop d _ | .macRxDrop d _ | .macPromiscRx d _ | .macRx d _
  | .rxCallback d _ _ _ | .promiscCallback d _ _ _ _ _ | .linkChange d | .onAir d _ _ | .recvCall d _ _ _
  | .sendRet d _ _ _ _ _ | .sendFromRet d _ | .attachRet d _ _ => G.dev d
  | .txrx c _ _ _ _ _ | .detachRet c _ _ => G.chan c

/-- The pending event is one of the group. -/
def Group.act (G : Group) : Action → Bool
  | .txComplete d _ => G.dev d
  | .receive d _ _ _ => G.dev d

/-- The operation is a call on a device or channel (not the passing of time). -/
def isCall : Op → Bool
  | .run | .wait _ => false
  | _ => true

/-- The operation is a call on a device or channel of the group. -/
def Group.op (G : Group) : Op → Bool
  | .send d _ _ _ | .sendFrom d _ _ _ _ | .attach d _ | .setAddress d _ | .setSide d _ | .setRate d _ | .setGap d _
  | .setMtu d _ | .setTxPower d _ | .setRxThreshold d _ | .setRxGain d _ | .setRxLoss d _ | .setPromisc d _ => G.dev d
  | .detach c _ => G.chan c
  | .run | .wait _ => false

/-- The operation attaches no device of the group to a channel outside, and none from outside to a channel of the group. -/
def Group.Keeps (G : Group) : Op → Prop
  | .attach d c => G.dev d = G.chan c
  | _ => True

/-- The error model decides by device, time and frame. -/
def Steady (E : Env) : Prop := ∀ d t n n' f, E.corrupt d t n f = E.corrupt d t n' f

/-- `t` is what the group sees of `s`. -/
structure Group.View (G : Group) (s t : Sys) : Prop where
  dev : ∀ d, G.dev d = true → t.dev d = s.dev d
  chan : ∀ c, G.chan c = true → t.chan c = s.chan c
  now : t.now = s.now
  pending : t.pending = s.pending.filter fun p => G.act p.act
  log : t.log = s.log.filter fun e => G.ev e.2

end Verif.Spec
