import Verif.Model.Net
/-!
# Channel helpers, LEO helper and neighbour caches

Models `LeoChannelHelper` (helper/leo-channel-helper.cc), `IslHelper` (helper/isl-helper.cc), `LeoHelper`
(helper/leo-helper.cc), `ArpCacheHelper` (helper/arp-cache-helper.cc), `NdCacheHelper` (helper/nd-cache-helper.cc) and the
parts of ns-3 they use: `ObjectFactory`, `Mac48Address::Allocate`, `Node::AddDevice`.

Trace helpers (pcap, ascii) are modelled in Model/TraceFile.
-/

namespace Verif

/-! ## Factories -/

/-- A queue as created by its factory: type and attribute values.  Simplification: attribute values are numbers (for
`MaxSize`: packets); an unknown queue type or attribute ends the program in ns-3 and is not modelled. -/
structure QueueObj where
  tid : String
  params : List (String × Nat)
  deriving DecidableEq, Repr

/-- Capacity in packets; `MaxSize` of an ns-3 `DropTailQueue` defaults to 100 packets. -/
def QueueObj.cap (q : QueueObj) : Nat := (q.params.lookup "MaxSize").getD 100

/-- `ObjectFactory` of a queue (`m_queueFactory`, `m_gndQueueFactory`, `m_satQueueFactory`). -/
structure QueueFactory where
  tid : String
  params : List (String × Nat)
  deriving DecidableEq, Repr

/-- `ObjectFactory::SetTypeId` (ns-3 core): the parameters are kept. -/
def QueueFactory.setTypeId (f : QueueFactory) (t : String) : QueueFactory := { f with tid := t }

/-- `ObjectFactory::Set` (ns-3 core): an empty name is ignored, an earlier value of the same name is replaced. -/
def QueueFactory.set (f : QueueFactory) (name : String) (v : Nat) : QueueFactory :=
  if name = "" then f else { f with params := f.params.filter (fun p => p.1 ≠ name) ++ [(name, v)] }

/-- `ObjectFactory::Create` for queues. -/
def QueueFactory.create (f : QueueFactory) : QueueObj := ⟨f.tid, f.params⟩

/-- `QueueBase::AppendItemTypeIfNotPresent (type, "Packet")` (ns-3 network). -/
def appendItemType (type : String) : String :=
  if type.toList.getLast? = some '>' then type else type ++ "<Packet>"

/-- Arguments of the `SetQueue` functions: the type and four attributes (an empty name stands for an absent one, the
default arguments in helper/isl-helper.h and helper/leo-channel-helper.h). -/
structure QueueArgs where
  type : String
  n1 : String × Nat := ("", 0)
  n2 : String × Nat := ("", 0)
  n3 : String × Nat := ("", 0)
  n4 : String × Nat := ("", 0)
  deriving DecidableEq, Repr

/-- `LeoChannelHelper::SetQueue` (helper/leo-channel-helper.cc:153-168) and `IslHelper::SetQueue`
(helper/isl-helper.cc:49-63), acting on the factory. -/
def QueueFactory.setQueue (f : QueueFactory) (a : QueueArgs) : QueueFactory :=
  ((((f.setTypeId (appendItemType a.type)).set a.n1.1 a.n1.2).set a.n2.1 a.n2.2).set a.n3.1 a.n3.2).set a.n4.1 a.n4.2

/-- A net device attribute with a value (model/mock-net-device.cc:42-180; the last three are those of
`LeoMockNetDevice`, model/leo-mock-net-device.cc:33-59).  Not modelled: `ReceiveErrorModel` (part of the environment);
names and value types that no class registers, which end the program. -/
inductive DevAttr where
  | mtu (n : Nat)
  | address (a : Mac48)
  | rate (bps : Nat)
  | gap (t : Time)
  | rxThreshold (p : Power)
  | txPower (p : Power)
  | txQueue (q : QueueObj)
  | deviceType (s : Side)
  | rxGain (p : Power)
  | rxLoss (p : Power)
  deriving DecidableEq, Repr

/-- Attribute names. -/
inductive DevKey where
  | mtu | address | rate | gap | rxThreshold | txPower | txQueue | deviceType | rxGain | rxLoss
  deriving DecidableEq, Repr

/-- Name of an attribute. -/
def DevAttr.key : DevAttr → DevKey
  | .mtu _ => .mtu
  | .address _ => .address
  | .rate _ => .rate
  | .gap _ => .gap
  | .rxThreshold _ => .rxThreshold
  | .txPower _ => .txPower
  | .txQueue _ => .txQueue
  | .deviceType _ => .deviceType
  | .rxGain _ => .rxGain
  | .rxLoss _ => .rxLoss

/-- The attributes only `LeoMockNetDevice` registers (model/leo-mock-net-device.cc:33-59). -/
def DevKey.leoOnly : DevKey → Bool
  | .deviceType | .rxGain | .rxLoss => true
  | _ => false

/-- Effect of an attribute on the object (the accessors in model/mock-net-device.cc:42-180 and
model/leo-mock-net-device.cc:33-59). -/
def DevAttr.apply (v : Dev) : DevAttr → Dev
  | .mtu n => { v with mtu := n }
  | .address a => { v with addr := a }
  | .rate r => { v with rate := r }
  | .gap t => { v with gap := t }
  | .rxThreshold p => { v with rxThreshold := p }
  | .txPower p => { v with txPower := p }
  | .txQueue q => { v with hasQueue := true, cap := q.cap }
  | .deviceType s => { v with side := s }
  | .rxGain p => { v with rxGain := p }
  | .rxLoss p => { v with rxLoss := p }

/-- `ObjectFactory` of a net device; `leo` tells the type id (`ns3::LeoMockNetDevice` or `ns3::MockNetDevice`). -/
structure DevFactory where
  leo : Bool
  params : List DevAttr

/-- `ObjectFactory::Set` (ns-3 core): replaces an earlier value of the same name; a name the type does not register ends
the program. -/
def DevFactory.set (f : DevFactory) (a : DevAttr) : Outcome DevFactory :=
  if a.key.leoOnly && !f.leo then .fail .invalidAttribute
  else .ok { f with params := f.params.filter (fun p => p.key ≠ a.key) ++ [a] }

/-- A device before its attributes are set: defaults of model/mock-net-device.cc:42-190 and
model/leo-mock-net-device.cc:33-59; no node, queue, callback or channel. -/
def Dev.blank (leo : Bool) : Dev :=
  { leo, side := .gnd, node := none, addr := Mac48.broadcast, linkUp := false, busy := false, cur := none,
    hasQueue := false, queue := [], cap := 0, chan := none, chanSlot := 0, rate := 32768, gap := 0, mtu := 1500,
    txPower := 1, rxThreshold := -1000, rxGain := 0, rxLoss := 0, rxCb := false, promiscCb := false }

/-- `ObjectFactory::Create` for net devices.  Names are unique, so the order of the assignments does not matter. -/
def DevFactory.create (f : DevFactory) : Dev := f.params.foldl DevAttr.apply (Dev.blank f.leo)

/-- Attribute values of `LeoPropagationLossModel` (model/leo-propagation-loss-model.cc:34-63, with their defaults). -/
structure LeoLossConf where
  elev : Rat := 40
  atm : Rat := 0
  fspl : Rat := 0
  margin : Rat := 0
  deriving DecidableEq, Repr

/-- A propagation loss model as installed in a channel. -/
inductive LossModel where
  | leo (c : LeoLossConf)
  | isl
  | other (id : Nat)
  deriving DecidableEq, Repr

/-- A propagation delay model as installed in a channel. -/
inductive DelayModel where
  | constantSpeed (speed : Rat)
  | other (id : Nat)
  deriving DecidableEq, Repr

/-- The attributes of `MockChannel` (model/mock-channel.cc:37-57); the subclasses have no others. -/
inductive ChanAttr where
  | loss (m : Option LossModel)
  | delay (m : Option DelayModel)
  deriving DecidableEq, Repr

/-- `ObjectFactory` of a channel: the value held for each of the two attributes, if any. -/
structure ChanFactory where
  loss : Option (Option LossModel)
  delay : Option (Option DelayModel)
  deriving DecidableEq, Repr

/-- `ObjectFactory::Set` for a channel. -/
def ChanFactory.set (f : ChanFactory) : ChanAttr → ChanFactory
  | .loss m => { f with loss := some m }
  | .delay m => { f with delay := some m }

/-! ## Helpers -/

/-- Members of `LeoChannelHelper` (helper/leo-channel-helper.h).  Simplification: the two propagation model factories are
represented by the attribute values they hold. -/
structure LeoChannelHelper where
  gndQueue : QueueFactory
  satQueue : QueueFactory
  gndDev : DevFactory
  satDev : DevFactory
  chan : ChanFactory
  loss : LeoLossConf
  speed : Rat

/-- Default speed of `ConstantSpeedPropagationDelayModel` (ns-3 propagation). -/
def defaultSpeed : Rat := 299792458

/-- `LeoChannelHelper::LeoChannelHelper ()` (helper/leo-channel-helper.cc:41-60); the speed is
`LEO_SPEED_OF_LIGHT_IN_AIR` (model/leo-propagation-loss-model.h:26). -/
def LeoChannelHelper.create : LeoChannelHelper :=
  { gndQueue := ⟨"ns3::DropTailQueue<Packet>", []⟩, satQueue := ⟨"ns3::DropTailQueue<Packet>", []⟩,
    gndDev := ⟨true, [.deviceType .gnd]⟩, satDev := ⟨true, [.deviceType .sat]⟩,
    chan := ⟨none, some (some (.constantSpeed defaultSpeed))⟩, loss := {}, speed := 299702458 }

/-- Members of `IslHelper` (helper/isl-helper.h). -/
structure IslHelper where
  queue : QueueFactory
  dev : DevFactory
  chan : ChanFactory

/-- `IslHelper::IslHelper ()` (helper/isl-helper.cc:40-47). -/
def IslHelper.create : IslHelper :=
  { queue := ⟨"ns3::DropTailQueue<Packet>", []⟩, dev := ⟨false, []⟩,
    chan := ⟨some (some .isl), some (some (.constantSpeed defaultSpeed))⟩ }

namespace LeoChannelHelper

/-- `SetGndQueue` (helper/leo-channel-helper.cc:170-178). -/
def setGndQueue (h : LeoChannelHelper) (a : QueueArgs) : LeoChannelHelper :=
  { h with gndQueue := h.gndQueue.setQueue a }

/-- `SetSatQueue` (helper/leo-channel-helper.cc:180-189). -/
def setSatQueue (h : LeoChannelHelper) (a : QueueArgs) : LeoChannelHelper :=
  { h with satQueue := h.satQueue.setQueue a }

/-- `SetGndDeviceAttribute` (helper/leo-channel-helper.cc:192-196). -/
def setGndDevice (h : LeoChannelHelper) (a : DevAttr) : Outcome LeoChannelHelper := do
  let f ← h.gndDev.set a
  .ok { h with gndDev := f }

/-- `SetSatDeviceAttribute` (helper/leo-channel-helper.cc:198-202). -/
def setSatDevice (h : LeoChannelHelper) (a : DevAttr) : Outcome LeoChannelHelper := do
  let f ← h.satDev.set a
  .ok { h with satDev := f }

/-- `SetChannelAttribute` (helper/leo-channel-helper.cc:204-208). -/
def setChannel (h : LeoChannelHelper) (a : ChanAttr) : LeoChannelHelper := { h with chan := h.chan.set a }

/-- `SetConstellationAttributes` (helper/leo-channel-helper.cc:125-151).  Simplification: the data rate string is given
in bit/s. -/
def setConstellationAttributes (h : LeoChannelHelper) (eirp elev fspl atm margin : Rat) (rate : Nat)
    (rxGain rxLoss : Rat) : Outcome LeoChannelHelper := do
  let h ← h.setGndDevice (.txPower eirp)
  let h ← h.setSatDevice (.txPower eirp)
  let h ← h.setGndDevice (.rxLoss rxLoss)
  let h ← h.setGndDevice (.rxGain rxGain)
  let h ← h.setSatDevice (.rxLoss rxLoss)
  let h ← h.setSatDevice (.rxGain rxGain)
  let h ← h.setGndDevice (.rate rate)
  let h ← h.setSatDevice (.rate rate)
  .ok { h with loss := { elev := elev, fspl := fspl, atm := atm, margin := margin } }

/-- `SetConstellation` (helper/leo-channel-helper.cc:68-123) with the constants of model/leo-starlink-constants.h:42-85
and model/leo-telesat-constants.h:42-85. -/
def setConstellation (h : LeoChannelHelper) (name : String) : Outcome LeoChannelHelper :=
  if name = "StarlinkGateway" then
    h.setConstellationAttributes 98.4 40 186.1 2.9 1.02 2682100000 40.9 0
  else if name = "StarlinkUser" then
    h.setConstellationAttributes 66.7 40 179.6 0.53 0.82 674300000 37.7 0
  else if name = "TelesatGateway" then
    h.setConstellationAttributes 105.9 20 189.3 4.8 0.36 9857100000 31.8 0
  else if name = "TelesatUser" then
    h.setConstellationAttributes 64.6 55 178.6 0.41 0.76 599400000 38.3 0
  else .fail .unknownConstellation

/-- `LeoChannelHelper (std::string)` (helper/leo-channel-helper.cc:62-66). -/
def createNamed (name : String) : Outcome LeoChannelHelper := create.setConstellation name

end LeoChannelHelper

namespace IslHelper

/-- `IslHelper::SetQueue` (helper/isl-helper.cc:49-63). -/
def setQueue (h : IslHelper) (a : QueueArgs) : IslHelper := { h with queue := h.queue.setQueue a }

/-- `IslHelper::SetDeviceAttribute` (helper/isl-helper.cc:65-69). -/
def setDevice (h : IslHelper) (a : DevAttr) : Outcome IslHelper := do
  let f ← h.dev.set a
  .ok { h with dev := f }

/-- `IslHelper::SetChannelAttribute` (helper/isl-helper.cc:71-75). -/
def setChannel (h : IslHelper) (a : ChanAttr) : IslHelper := { h with chan := h.chan.set a }

end IslHelper

/-! ## Installation -/

/-- The objects made so far: the network, the next free identities, the last address given out by
`Mac48Address::Allocate`, the devices of each node (`Node::m_devices`), each device's interface index, queue object, and
each channel's propagation models. -/
structure Build where
  sys : Sys
  nextDev : Nat
  nextChan : Nat
  lastMac : Nat
  nodeDevs : NodeId → List DevId
  ifIndex : DevId → Nat
  queueOf : DevId → Option QueueObj
  lossOf : ChanId → Option LossModel
  delayOf : ChanId → Option DelayModel

namespace Build

/-- Create a channel from its factory (attributes without a value default to null, model/mock-channel.cc:37-57). -/
def newChannel (b : Build) (kind : ChanKind) (f : ChanFactory) : Build :=
  { b with
    sys := b.sys.setChan b.nextChan ⟨kind, [], [], []⟩
    nextChan := b.nextChan + 1
    lossOf := fun x => if x = b.nextChan then f.loss.getD none else b.lossOf x
    delayOf := fun x => if x = b.nextChan then f.delay.getD none else b.delayOf x }

/-- `MockChannel::SetPropagationLoss` (model/mock-channel.cc:158-162). -/
def setLoss (b : Build) (c : ChanId) (m : LossModel) : Build :=
  { b with lossOf := fun x => if x = c then some m else b.lossOf x }

/-- `MockChannel::SetPropagationDelay` (model/mock-channel.cc:210-214). -/
def setDelay (b : Build) (c : ChanId) (m : DelayModel) : Build :=
  { b with delayOf := fun x => if x = c then some m else b.delayOf x }

/-- The body of the installation loops (helper/leo-channel-helper.cc:362-378 and 382-398, helper/isl-helper.cc:237-245):
create the device, give it the next address (`Mac48Address::Allocate`: a static counter, written as 48 bits, most
significant byte first), `Node::AddDevice` (interface index = position in the node's list, receive callback set), create
and set the queue, attach.  Not modelled: the `NetDeviceQueueInterface`. -/
def installOne (f : DevFactory) (qf : QueueFactory) (c : ChanId) (n : NodeId) (b : Build) : Outcome (Build × DevId) := do
  let d := b.nextDev
  let q := qf.create
  let v : Dev := { f.create with
    addr := Mac48.ofNat (b.lastMac + 1), node := some n, rxCb := true, hasQueue := true, queue := [], cap := q.cap }
  let s ← attach (b.sys.setDev d v) d c
  .ok ({ b with
    sys := s, nextDev := d + 1, lastMac := b.lastMac + 1
    nodeDevs := fun x => if x = n then b.nodeDevs n ++ [d] else b.nodeDevs x
    ifIndex := fun x => if x = d then (b.nodeDevs n).length else b.ifIndex x
    queueOf := fun x => if x = d then some q else b.queueOf x }, d)

/-- One installation loop; the result is the part of the container it adds. -/
def installAll (f : DevFactory) (qf : QueueFactory) (c : ChanId) : List NodeId → Build → Outcome (Build × List DevId)
  | [], b => .ok (b, [])
  | n :: ns, b => do
    let (b1, d) ← installOne f qf c n b
    let (b2, ds) ← installAll f qf c ns b1
    .ok (b2, d :: ds)

end Build

/-- `LeoChannelHelper::Install` (helper/leo-channel-helper.cc:351-401; 403-409 for containers). -/
def LeoChannelHelper.install (h : LeoChannelHelper) (satellites stations : List NodeId) (b : Build) :
    Outcome (Build × List DevId) := do
  let c := b.nextChan
  let b := b.newChannel .leo h.chan
  let b := b.setLoss c (.leo h.loss)
  let b := b.setDelay c (.constantSpeed h.speed)
  let (b, sats) ← b.installAll h.satDev h.satQueue c satellites
  let (b, gnds) ← b.installAll h.gndDev h.gndQueue c stations
  .ok (b, sats ++ gnds)

/-- `IslHelper::Install` (helper/isl-helper.cc:226-249; 218-223 for containers). -/
def IslHelper.install (h : IslHelper) (nodes : List NodeId) (b : Build) : Outcome (Build × List DevId) := do
  let c := b.nextChan
  let b := b.newChannel .isl h.chan
  b.installAll h.dev h.queue c nodes

/-- `Names::Find` on a list of names; a missing name gives a null pointer, on which the installation calls a method. -/
def findAll (find : String → Option NodeId) : List String → Outcome (List NodeId)
  | [] => .ok []
  | x :: xs => match find x with
    | none => .fail .nullNode
    | some n => do
      let ns ← findAll find xs
      .ok (n :: ns)

/-- `LeoChannelHelper::Install` by node names (helper/leo-channel-helper.cc:411-432).  Simplification: the null pointer of
a missing name is reported at the lookup instead of at the first use; nothing in between can end the program. -/
def LeoChannelHelper.installNamed (h : LeoChannelHelper) (find : String → Option NodeId) (satellites stations : List String)
    (b : Build) : Outcome (Build × List DevId) := do
  let sats ← findAll find satellites
  let gnds ← findAll find stations
  h.install sats gnds b

/-- `IslHelper::Install` by node names (helper/isl-helper.cc:251-262), with the same simplification. -/
def IslHelper.installNamed (h : IslHelper) (find : String → Option NodeId) (names : List String) (b : Build) :
    Outcome (Build × List DevId) := do
  let nodes ← findAll find names
  h.install nodes b

/-- One installation by one of the helpers. -/
inductive Install where
  | leo (h : LeoChannelHelper) (satellites stations : List NodeId)
  | isl (h : IslHelper) (nodes : List NodeId)

/-- A sequence of installations, as a simulation script makes them. -/
def Build.run : List Install → Build → Outcome Build
  | [], b => .ok b
  | .leo h sats gnds :: is, b => do
    let (b, _) ← h.install sats gnds b
    Build.run is b
  | .isl h nodes :: is, b => do
    let (b, _) ← h.install nodes b
    Build.run is b

/-- Before the first installation: no devices, channels or addresses; the contents of `s` for objects that do not exist
yet are arbitrary. -/
def Build.start (s : Sys) : Build :=
  { sys := s, nextDev := 0, nextChan := 0, lastMac := 0, nodeDevs := fun _ => [], ifIndex := fun _ => 0,
    queueOf := fun _ => none, lossOf := fun _ => none, delayOf := fun _ => none }

/-- The setting functions of `LeoChannelHelper`. -/
inductive ChanSetting where
  | gndQueue (a : QueueArgs)
  | satQueue (a : QueueArgs)
  | gndDevice (a : DevAttr)
  | satDevice (a : DevAttr)
  | channel (a : ChanAttr)
  | constellation (name : String)

/-- Call of a setting function of `LeoChannelHelper` (helper/leo-channel-helper.cc:68-208). -/
def LeoChannelHelper.apply (h : LeoChannelHelper) : ChanSetting → Outcome LeoChannelHelper
  | .gndQueue a => .ok (h.setGndQueue a)
  | .satQueue a => .ok (h.setSatQueue a)
  | .gndDevice a => h.setGndDevice a
  | .satDevice a => h.setSatDevice a
  | .channel a => .ok (h.setChannel a)
  | .constellation n => h.setConstellation n

/-- A sequence of settings. -/
def LeoChannelHelper.configure (h : LeoChannelHelper) : List ChanSetting → Outcome LeoChannelHelper
  | [] => .ok h
  | s :: ss => do
    let h ← h.apply s
    h.configure ss

/-! ## Neighbour caches -/

/-- An IP address (v4 or v6) as a number. -/
abbrev Ip := Nat

/-- A neighbour cache: `ArpCache` or `NdiscCache` (ns-3 internet), the addresses it has entries for with the link-layer
address of the entry. -/
abbrev Cache := List (Ip × Mac48)

/-- `Lookup`, `Add` if absent, `SetMacAddress`. -/
def Cache.put (ip : Ip) (m : Mac48) : Cache → Cache
  | [] => [(ip, m)]
  | (i, x) :: rest => if i = ip then (i, m) :: rest else (i, x) :: Cache.put ip m rest

/-- The test of helper/arp-cache-helper.cc:55-60: both devices are `LeoMockNetDevice`s of the same type. -/
def sameType (b : Build) (d e : DevId) : Bool :=
  (b.sys.dev d).leo && (b.sys.dev e).leo && decide ((b.sys.dev d).side = (b.sys.dev e).side)

/-- The inner loop (helper/arp-cache-helper.cc:48-74) for the device at position `i`; `rest` are the devices from
position `j` on, `ips` the addresses of the interface container by position.  The address of the other device is looked
up at its *interface index*; beyond the end of the container this is undefined behaviour. -/
def fillOne (b : Build) (ips : List Ip) (i : Nat) (d : DevId) : List DevId → Nat → Cache → Outcome Cache
  | [], _, k => .ok k
  | e :: es, j, k =>
    if i = j || sameType b d e then fillOne b ips i d es (j + 1) k
    else match ips[b.ifIndex e]? with
      | none => .fail .indexOutOfRange
      | some ip => fillOne b ips i d es (j + 1) (Cache.put ip (b.sys.dev e).addr k)

/-- The outer loop (helper/arp-cache-helper.cc:37-75).  The caches are those of the interfaces of the devices
(`GetInterfaceForDevice`), identified with the devices. -/
def fillAll (b : Build) (ips : List Ip) (all : List DevId) : List DevId → Nat → (DevId → Cache) → Outcome (DevId → Cache)
  | [], _, caches => .ok caches
  | d :: ds, i, caches => do
    let k ← fillOne b ips i d all 0 (caches d)
    fillAll b ips all ds (i + 1) (fun x => if x = d then k else caches x)

/-- `ArpCacheHelper::Install` (helper/arp-cache-helper.cc:32-76); `ips` are the first addresses (index 0) of the interfaces
of the container. -/
def arpInstall (b : Build) (devices : List DevId) (ips : List Ip) (caches : DevId → Cache) : Outcome (DevId → Cache) :=
  fillAll b ips devices devices 0 caches

/-- `NdCacheHelper::Install` (helper/nd-cache-helper.cc:32-75): the same loops; `ips` are the second addresses (index 1) of
the interfaces. -/
def ndInstall (b : Build) (devices : List DevId) (ips : List Ip) (caches : DevId → Cache) : Outcome (DevId → Cache) :=
  fillAll b ips devices devices 0 caches

/-! ## LeoHelper -/

/-- Members of `LeoHelper` (helper/leo-helper.h). -/
structure LeoHelper where
  isl : IslHelper
  gw : LeoChannelHelper
  ut : LeoChannelHelper

/-- `LeoHelper::LeoHelper ()` (helper/leo-helper.cc:27-29): the members' default constructors. -/
def LeoHelper.create : LeoHelper := ⟨IslHelper.create, LeoChannelHelper.create, LeoChannelHelper.create⟩

/-- The setting functions of `LeoHelper` (helper/leo-helper.cc:79-191). -/
inductive Setting where
  | queue (a : QueueArgs)
  | gndGwQueue (a : QueueArgs)
  | gndUtQueue (a : QueueArgs)
  | satGwQueue (a : QueueArgs)
  | satUtQueue (a : QueueArgs)
  | device (a : DevAttr)
  | gndGwDevice (a : DevAttr)
  | gndUtDevice (a : DevAttr)
  | satUtDevice (a : DevAttr)
  | satGwDevice (a : DevAttr)
  | islDevice (a : DevAttr)
  | channel (a : ChanAttr)
  | islChannel (a : ChanAttr)
  | utChannel (a : ChanAttr)
  | gwChannel (a : ChanAttr)

namespace LeoHelper

/-- Call of a setting function (helper/leo-helper.cc:79-191).  `SetQueue` (79-90) passes on to the four gateway and
terminal queues only. -/
def apply (h : LeoHelper) : Setting → Outcome LeoHelper
  | .queue a => .ok { h with
      gw := (h.gw.setGndQueue a).setSatQueue a
      ut := (h.ut.setGndQueue a).setSatQueue a }
  | .gndGwQueue a => .ok { h with gw := h.gw.setGndQueue a }
  | .gndUtQueue a => .ok { h with ut := h.ut.setGndQueue a }
  | .satGwQueue a => .ok { h with gw := h.gw.setSatQueue a }
  | .satUtQueue a => .ok { h with ut := h.ut.setSatQueue a }
  | .device a => do
    let isl ← h.isl.setDevice a
    let gw ← h.gw.setGndDevice a
    let gw ← gw.setSatDevice a
    let ut ← h.ut.setGndDevice a
    let ut ← ut.setSatDevice a
    .ok ⟨isl, gw, ut⟩
  | .gndGwDevice a => do
    let gw ← h.gw.setGndDevice a
    .ok { h with gw := gw }
  | .gndUtDevice a => do
    let ut ← h.ut.setGndDevice a
    .ok { h with ut := ut }
  | .satUtDevice a => do
    let ut ← h.ut.setSatDevice a
    .ok { h with ut := ut }
  | .satGwDevice a => do
    let gw ← h.gw.setSatDevice a
    .ok { h with gw := gw }
  | .islDevice a => do
    let isl ← h.isl.setDevice a
    .ok { h with isl := isl }
  | .channel a => .ok { isl := h.isl.setChannel a, ut := h.ut.setChannel a, gw := h.gw.setChannel a }
  | .islChannel a => .ok { h with isl := h.isl.setChannel a }
  | .utChannel a => .ok { h with ut := h.ut.setChannel a }
  | .gwChannel a => .ok { h with gw := h.gw.setChannel a }

/-- A sequence of settings. -/
def configure (h : LeoHelper) : List Setting → Outcome LeoHelper
  | [] => .ok h
  | s :: ss => do
    let h ← h.apply s
    h.configure ss

/-- The three networks made by `LeoHelper::Install`. -/
structure Nets where
  isl : List DevId
  gw : List DevId
  ut : List DevId

/-- The channels and devices of `LeoHelper::Install` (helper/leo-helper.cc:38-42). -/
def installNets (h : LeoHelper) (satellites gateways terminals : List NodeId) (b : Build) : Outcome (Build × Nets) := do
  let (b, isl) ← h.isl.install satellites b
  let (b, gw) ← h.gw.install satellites gateways b
  let (b, ut) ← h.ut.install satellites terminals b
  .ok (b, ⟨isl, gw, ut⟩)

/-- `LeoHelper::Install` (helper/leo-helper.cc:32-77).  `islIps`, `gwIps`, `utIps` are the addresses which
`Ipv4AddressHelper::Assign` gives to the interfaces of the three containers, by position.  Simplification: the internet
stack (a loopback device is added behind the others) and the address assignment itself are ns-3's and are not modelled
further. -/
def install (h : LeoHelper) (satellites gateways terminals : List NodeId) (islIps gwIps utIps : List Ip)
    (caches : DevId → Cache) (b : Build) : Outcome (Build × List DevId × (DevId → Cache)) := do
  let (b, n) ← h.installNets satellites gateways terminals b
  let caches ← arpInstall b n.isl islIps caches
  let caches ← arpInstall b n.gw gwIps caches
  let caches ← arpInstall b n.ut utIps caches
  .ok (b, n.isl ++ n.gw ++ n.ut, caches)

end LeoHelper

end Verif
