import Verif.Model.TraceFile
/-!
# Flow control between the device and the layer above

`LeoChannelHelper::Install` gives every device a `NetDeviceQueueInterface` of ns-3 and connects its transmission queue 0 to
the trace sources of the device queue (helper/leo-channel-helper.cc:370-373 and 389-392); `MockNetDevice` remembers the
interface (`NotifyNewAggregate`, model/mock-net-device.cc:271-286) and connects the queue once more when it is initialized
(`DoInitialize`, 254-269).  The traffic control layer of ns-3 reads the flag `stopped` before it calls `Send`.  `IslHelper` does
not create an interface.

The sinks are those of `ns3::NetDeviceQueue` (ns-3 network, not part of the repository): `PacketEnqueued` stops if the queue
cannot hold another packet, `PacketDequeued` wakes if it can, `PacketDiscarded` stops.

Simplifications: nothing is called back when the queue is woken (a `Send` on the device from there is a call from the
Dequeue trace of Model/Reentrant); no queue limits are installed (the default), so the byte counts are only added up.
-/

namespace Verif

/-- The network with the `NetDeviceQueue` of each device: whether the device knows an interface (`m_queueInterface`), whether
it has been initialized, how often the sinks are connected to its queue, the flag, and the bytes reported by
`NotifyQueuedBytes` and `NotifyTransmittedBytes`. -/
structure FSys where
  sys : Sys
  aggregated : DevId → Bool
  initialized : DevId → Bool
  conns : DevId → Nat
  stopped : DevId → Bool
  bytesIn : DevId → Nat
  bytesOut : DevId → Nat

/-- One of the three sinks, called once; `n` is the number of packets in the queue at that moment. -/
def FSys.sink (h : FSys) (n : Nat) : QEv → FSys
  | .enqueue d f =>
    { h with
      bytesIn := fun x => if x = d then h.bytesIn x + f.length else h.bytesIn x
      stopped := fun x => if x = d ∧ (h.sys.dev d).cap < n + 1 then true else h.stopped x }
  | .dequeue d f =>
    { h with
      bytesOut := fun x => if x = d then h.bytesOut x + f.length else h.bytesOut x
      stopped := fun x => if x = d ∧ ¬ (h.sys.dev d).cap < n + 1 then false else h.stopped x }
  | .drop d _ => { h with stopped := fun x => if x = d then true else h.stopped x }

/-- The device of a report. -/
def QEv.dev : QEv → DevId
  | .enqueue d _ => d
  | .dequeue d _ => d
  | .drop d _ => d

/-- Packets in the queue right after a report, if there were `n` before: `ns3::Queue` reports Enqueue and Dequeue after it
has changed its content. -/
def QEv.count (n : Nat) : QEv → Nat
  | .enqueue .. => n + 1
  | .dequeue .. => n - 1
  | .drop .. => n

/-- A trace source calls every connected sink. -/
def FSys.report (h : FSys) (n : Nat) (q : QEv) : FSys := (fun h => h.sink n q)^[h.conns q.dev] h

/-- The reports of one operation; `n` counts the packets in the queue concerned (an operation changes one queue at most). -/
def FSys.reports (h : FSys) (n : Nat) : List QEv → FSys
  | [] => h
  | q :: l => (h.report (q.count n) q).reports (q.count n) l

/-- Packets in the queue to which the reports of an operation belong. -/
def queueBefore (s : Sys) : List QEv → Nat
  | [] => 0
  | q :: _ => (s.dev q.dev).queue.length

/-- What a program may do. -/
inductive FOp where
  /-- `ndqi->GetTxQueue (0)->ConnectQueueTraces (queue)` (helper/leo-channel-helper.cc:372, 391) -/
  | connect (d : DevId)
  /-- `dev->AggregateObject (ndqi)` (helper/leo-channel-helper.cc:373, 392) -/
  | aggregate (d : DevId)
  /-- `Object::Initialize` of the device -/
  | init (d : DevId)
  | op (o : Op)

/-- One operation. -/
def stepF (E : Env) (h : FSys) : FOp → Outcome FSys
  | .connect d =>
    if !(h.sys.dev d).hasQueue then .fail .nullQueue
    else .ok { h with conns := fun x => if x = d then h.conns x + 1 else h.conns x }
  | .aggregate d => .ok { h with aggregated := fun x => if x = d then true else h.aggregated x }
  | .init d =>
    if h.initialized d then .ok h
    else if h.aggregated d then
      if !(h.sys.dev d).hasQueue then .fail .nullQueue
      else .ok { h with
        initialized := fun x => if x = d then true else h.initialized x
        conns := fun x => if x = d then h.conns x + 1 else h.conns x }
    else .ok { h with initialized := fun x => if x = d then true else h.initialized x }
  | .op o => do
    let s' ← step E h.sys o
    let q := queueEvents E h.sys o
    .ok { h.reports (queueBefore h.sys q) q with sys := s' }

/-- A history of operations; the first fault ends it. -/
def execF (E : Env) : FSys → List FOp → Outcome FSys
  | h, [] => .ok h
  | h, op :: ops => do
    let h' ← stepF E h op
    execF E h' ops

/-- Nothing is connected and nothing has been reported. -/
structure FInitial (h : FSys) : Prop where
  sys : Initial h.sys
  aggregated : ∀ d, h.aggregated d = false
  initialized : ∀ d, h.initialized d = false
  conns : ∀ d, h.conns d = 0
  stopped : ∀ d, h.stopped d = false
  bytes : ∀ d, h.bytesIn d = 0 ∧ h.bytesOut d = 0

/-- What `LeoChannelHelper::Install` does for one device (helper/leo-channel-helper.cc:370-375 and 389-394). -/
def flowInstall (d : DevId) (c : ChanId) : List FOp := [.connect d, .aggregate d, .op (.attach d c)]

end Verif
