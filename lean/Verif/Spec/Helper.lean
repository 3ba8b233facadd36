import Verif.Model.Helper
/-!
# Specification of helpers

What the helper headers promise: which devices and channels a setting is for, when an attribute is in force, the table of
constellation presets, what a neighbour cache answers.
-/

namespace Verif.Spec

/-- The answer of a neighbour cache. -/
def answer (k : Cache) (ip : Ip) : Option Mac48 := (k.find? (fun p => p.1 == ip)).map (·.2)

/-- Two devices of a container need each other's address: not both on the same side of a ground/space channel. -/
def Peers (v w : Dev) : Prop := ¬ (v.leo = true ∧ w.leo = true ∧ v.side = w.side)

instance (v w : Dev) : Decidable (Peers v w) := by unfold Peers; infer_instance

/-- The devices of a container, seen from position `i`, whose address is entered under `ip` when the IP address of a
device is taken to be the one at its interface index. -/
def writers (b : Build) (all : List DevId) (ips : List Ip) (i : Nat) (d : DevId) (ip : Ip) : List DevId :=
  (all.zipIdx.filter fun x =>
    x.2 ≠ i ∧ Peers (b.sys.dev d) (b.sys.dev x.1) ∧ ips[b.ifIndex x.1]? = some ip).map (·.1)

/-- A constellation preset (table of model/leo-starlink-constants.h and model/leo-telesat-constants.h). -/
structure Preset where
  name : String
  eirp : Rat
  elev : Rat
  fspl : Rat
  atm : Rat
  margin : Rat
  mbps : Rat
  rxGain : Rat

/-- The four presets offered by name. -/
def presets : List Preset :=
  [⟨"StarlinkGateway", 98.4, 40, 186.1, 2.9, 1.02, 2682.1, 40.9⟩,
   ⟨"StarlinkUser", 66.7, 40, 179.6, 0.53, 0.82, 674.3, 37.7⟩,
   ⟨"TelesatGateway", 105.9, 20, 189.3, 4.8, 0.36, 9857.1, 31.8⟩,
   ⟨"TelesatUser", 64.6, 55, 178.6, 0.41, 0.76, 599.4, 38.3⟩]

/-- The five kinds of devices `LeoHelper` installs. -/
inductive Kind where
  | isl | gwSat | gwGnd | utSat | utGnd
  deriving DecidableEq, Repr

/-- The devices of a kind among those installed: on the ground/space networks satellites come first. -/
def devsOf (n : LeoHelper.Nets) (sats : Nat) : Kind → List DevId
  | .isl => n.isl
  | .gwSat => n.gw.take sats
  | .gwGnd => n.gw.drop sats
  | .utSat => n.ut.take sats
  | .utGnd => n.ut.drop sats

/-- An attribute is in force on a device. -/
def InForce (v : Dev) : DevAttr → Prop
  | .mtu n => v.mtu = n
  | .address a => v.addr = a
  | .rate r => v.rate = r
  | .gap t => v.gap = t
  | .rxThreshold p => v.rxThreshold = p
  | .txPower p => v.txPower = p
  | .txQueue q => v.hasQueue = true ∧ v.cap = q.cap
  | .deviceType s => v.side = s
  | .rxGain p => v.rxGain = p
  | .rxLoss p => v.rxLoss = p

/-- The device attribute a setting gives to devices of a kind. -/
def devFor (k : Kind) : Setting → Option DevAttr
  | .device a => some a
  | .gndGwDevice a => if k = .gwGnd then some a else none
  | .gndUtDevice a => if k = .utGnd then some a else none
  | .satUtDevice a => if k = .utSat then some a else none
  | .satGwDevice a => if k = .gwSat then some a else none
  | .islDevice a => if k = .isl then some a else none
  | _ => none

/-- The queue arguments a setting gives to devices of a kind ("all devices" for `SetQueue`). -/
def queueFor (k : Kind) : Setting → Option QueueArgs
  | .queue a => some a
  | .gndGwQueue a => if k = .gwGnd then some a else none
  | .gndUtQueue a => if k = .utGnd then some a else none
  | .satGwQueue a => if k = .gwSat then some a else none
  | .satUtQueue a => if k = .utSat then some a else none
  | _ => none

/-- The three channels. -/
inductive Net where
  | isl | gw | ut
  deriving DecidableEq, Repr

/-- The channel attribute a setting gives to a channel. -/
def chanFor (n : Net) : Setting → Option ChanAttr
  | .channel a => some a
  | .islChannel a => if n = .isl then some a else none
  | .utChannel a => if n = .ut then some a else none
  | .gwChannel a => if n = .gw then some a else none
  | _ => none

/-- Value of a named attribute of a queue. -/
def queueParam (q : QueueObj) (name : String) : Option Nat := (q.params.find? (fun p => p.1 == name)).map (·.2)

/-- The attributes named by the arguments of a queue setting, in order. -/
def argPairs (a : QueueArgs) : List (String × Nat) := [a.n1, a.n2, a.n3, a.n4].filter (fun p => p.1 ≠ "")

/-- A setting that names the device type. -/
def namesType : ChanSetting → Prop
  | .gndDevice a => a.key = .deviceType
  | .satDevice a => a.key = .deviceType
  | _ => False

/-- Device `d` is ready for use at position `i` of channel `c`, on node `n`. -/
structure InstalledAt (b : Build) (c : ChanId) (i : Nat) (d : DevId) (n : NodeId) : Prop where
  node : (b.sys.dev d).node = some n
  up : (b.sys.dev d).linkUp = true
  chan : (b.sys.dev d).chan = some c
  slot : (b.sys.dev d).chanSlot = i
  link : (b.sys.chan c).link[i]? = some d
  idle : (b.sys.dev d).busy = false ∧ (b.sys.dev d).cur = none
  queue : (b.sys.dev d).hasQueue = true ∧ (b.sys.dev d).queue = []
  callback : (b.sys.dev d).rxCb = true

/-- An installation uses LEO devices on the ground/space channel, as the helpers' constructors set up. -/
def leoDevices : Install → Prop
  | .leo h _ _ => h.satDev.leo = true ∧ h.gndDev.leo = true
  | .isl _ _ => True

end Verif.Spec
