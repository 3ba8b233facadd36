import Verif.Model.Sky
import Mathlib.Logic.Equiv.Defs
/-!
# Changes of names, of the origin of time and of the frame of reference (C115)
-/

namespace Verif
namespace Spec

/-- Other names for devices and channels (no two get the same), other nodes, and a clock that is ahead. -/
structure Recast where
  dt : Time
  node : NodeId → NodeId
  dev : DevId ≃ DevId
  chan : ChanId ≃ ChanId

namespace Recast
variable (R : Recast)

/-- A device on the other node and in the channel with the other name. -/
def onDev (v : Dev) : Dev := { v with node := v.node.map R.node, chan := v.chan.map R.chan }

/-- A channel whose devices have other names. -/
def onChan (c : Chan) : Chan :=
  { c with link := c.link.map R.dev, gnd := c.gnd.map fun x => (x.1, R.dev x.2), sat := c.sat.map fun x => (x.1, R.dev x.2) }

/-- An event for a device with another name. -/
def onAct : Action → Action
  | .txComplete d dest => .txComplete (R.dev d) dest
  | .receive dst f src p => .receive (R.dev dst) f (R.dev src) p

/-- An effect with other names. -/
def onEv : Ev → Ev
  | .macTx d f => .macTx (R.dev d) f
  | .macTxDrop d f => .macTxDrop (R.dev d) f
  | .sniffer d f => .sniffer (R.dev d) f
  | .promiscSniffer d f => .promiscSniffer (R.dev d) f
  | .phyTxBegin d f => .phyTxBegin (R.dev d) f
  | .phyTxEnd d f => .phyTxEnd (R.dev d) f
  | .phyTxDrop d f => .phyTxDrop (R.dev d) f
  | .phyRxEnd d f => .phyRxEnd (R.dev d) f
  | .phyRxDrop d f => .phyRxDrop (R.dev d) f
  | .macRxDrop d f => .macRxDrop (R.dev d) f
  | .macPromiscRx d f => .macPromiscRx (R.dev d) f
  | .macRx d f => .macRx (R.dev d) f
  | .rxCallback d p proto src => .rxCallback (R.dev d) p proto src
  | .promiscCallback d p proto src dst ty => .promiscCallback (R.dev d) p proto src dst ty
  | .linkChange d => .linkChange (R.dev d)
  | .txrx c f src dst tx del => .txrx (R.chan c) f (R.dev src) (R.dev dst) tx del
  | .onAir d f dest => .onAir (R.dev d) f dest
  | .recvCall dst f src p => .recvCall (R.dev dst) f (R.dev src) p
  | .sendRet d p dest proto r a => .sendRet (R.dev d) p dest proto r a
  | .sendFromRet d r => .sendFromRet (R.dev d) r
  | .detachRet c slot r => .detachRet (R.chan c) slot r
  | .attachRet d c slot => .attachRet (R.dev d) (R.chan c) slot

/-- The same call for objects with other names. -/
def onOp : Op → Op
  | .send d p dest proto => .send (R.dev d) p dest proto
  | .sendFrom d p src dest proto => .sendFrom (R.dev d) p src dest proto
  | .attach d c => .attach (R.dev d) (R.chan c)
  | .detach c slot => .detach (R.chan c) slot
  | .setAddress d a => .setAddress (R.dev d) a
  | .setSide d x => .setSide (R.dev d) x
  | .setRate d x => .setRate (R.dev d) x
  | .setGap d x => .setGap (R.dev d) x
  | .setMtu d x => .setMtu (R.dev d) x
  | .setTxPower d x => .setTxPower (R.dev d) x
  | .setRxThreshold d x => .setRxThreshold (R.dev d) x
  | .setRxGain d x => .setRxGain (R.dev d) x
  | .setRxLoss d x => .setRxLoss (R.dev d) x
  | .setPromisc d x => .setPromisc (R.dev d) x
  | .run => .run
  | .wait dt => .wait dt

/-- The system with other names and a clock that is ahead. -/
def onSys (s : Sys) : Sys where
  dev d := R.onDev (s.dev (R.dev.symm d))
  chan c := R.onChan (s.chan (R.chan.symm c))
  now := s.now + R.dt
  pending := s.pending.map fun p => ⟨p.time + R.dt, R.onAct p.act⟩
  log := s.log.map fun e => (e.1 + R.dt, R.onEv e.2)

/-- What is seen of an environment through the other names and the other clock. -/
def envSeen (E : Env) : Env where
  hasMob n := E.hasMob (R.node n)
  loss c := (E.loss (R.chan c)).map fun l tx a b t => l tx (R.node a) (R.node b) (t + R.dt)
  delay c := (E.delay (R.chan c)).map fun l a b t => l (R.node a) (R.node b) (t + R.dt)
  fcs := E.fcs
  txTime := E.txTime
  corrupt d t n f := E.corrupt (R.dev d) (t + R.dt) n f

/-- The nodes of a sky seen through the other names and the other clock. -/
def skySeen (K : Sky) : Sky where
  pos n := (K.pos (R.node n)).map fun r t => r (t + R.dt)
  budget c := K.budget (R.chan c)
  speed := K.speed
  ofSeconds := K.ofSeconds

end Recast

/-- A change of the frame of reference around the centre of the Earth: rotations, also time-dependent ones, and reflections. -/
def Frame (T : Vec → Vec) : Prop :=
  ∀ a b : Vec, (T a).x * (T b).x + (T a).y * (T b).y + (T a).z * (T b).z = a.x * b.x + a.y * b.y + a.z * b.z

/-- The sky in another frame of reference. -/
def inFrame (T : Time → Vec → Vec) (K : Sky) : Sky := { K with pos := fun n => (K.pos n).map fun r t => T t (r t) }

/-- Turned about the axis of the Earth. -/
noncomputable def turn (α : ℝ) (v : Vec) : Vec := ⟨Real.cos α * v.x - Real.sin α * v.y, Real.sin α * v.x + Real.cos α * v.y, v.z⟩

/-- The orbit of a satellite that is ahead by the angle it moves in `dt`. -/
noncomputable def advanced (dt : Time) (o : Orbit) : Orbit :=
  { o with off := o.off + (if o.incl > Real.pi / 2 then -1 else 1) * (o.speed * seconds dt / (earthRadKm * 1000)) }

/-- Nodes that are satellites on these orbits and nothing else.  Their positions at `t` are the ones of `q t`, the time of the last
update. -/
noncomputable def satellitesOnly (q : Time → Time) (orbit : NodeId → Option Orbit) (K : Sky) : Sky :=
  { K with pos := fun n => (orbit n).map fun o t => o.position (q t) }

/-- `planes` planes of `sats` satellites at one height and inclination, evenly spread. -/
noncomputable def evenly (planes sats : ℕ) (height incl : ℝ) (n : ℕ) : Option Orbit :=
  if n < planes * sats then some ⟨height, incl, 2 * Real.pi * ((n / sats : ℕ) / (planes : ℝ)), 2 * Real.pi * ((n % sats : ℕ) / (sats : ℝ))⟩
  else none

/-- The satellite with the same number in the next plane. -/
def nextPlane (planes sats : ℕ) (n : ℕ) : ℕ :=
  if n < planes * sats then (n + sats) % (planes * sats) else n

end Spec
end Verif
