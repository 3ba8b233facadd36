import Verif.Model.Net
/-!
# Queues as objects

In the code a transmit queue is an object of its own: a device holds a pointer to it
(`Ptr<Queue<Packet> > m_queue`, model/mock-net-device.h:359).  The pointer can be replaced at any time with `SetQueue`
(model/mock-net-device.cc:401-406) or through the attribute TxQueue (model/mock-net-device.cc:88-92), also by null; two devices
can be given the same queue; and whoever calls `GetQueue` (model/mock-net-device.cc:533-538) can add and remove packets without
the device knowing.  Model/Net.lean gives each device one queue of its own for its whole life.  Here queues are objects.
The class of the queue is not part of the code: as in Model/Net.lean it is a `DropTailQueue`, first in first out with a capacity
in packets.
-/

namespace Verif

/-- Identity of a queue object. -/
abbrev QueueId := Nat

/-- Devices, channels and queue objects: the packets in each queue (oldest first), its capacity (attribute MaxSize), and the
queue each device points at (`m_queue`, model/mock-net-device.h:359; `none` is the null pointer). -/
structure QSys where
  sys : Sys
  store : QueueId → List Bytes
  cap : QueueId → Nat
  own : DevId → Option QueueId

/-- The device as it finds itself when it runs: its queue is what the object it points at contains now. -/
def QSys.devView (S : QSys) (d : DevId) : Dev :=
  match S.own d with
  | some q => { S.sys.dev d with hasQueue := true, queue := S.store q, cap := S.cap q }
  | none => { S.sys.dev d with hasQueue := false, queue := [] }

/-- The system as the devices find it. -/
def QSys.view (S : QSys) : Sys := { S.sys with dev := S.devView }

/-- What can be done: an operation of Model/Net.lean, replacing the queue of a device (model/mock-net-device.cc:401-406), or
adding to and removing from a queue that was obtained with `GetQueue` (model/mock-net-device.cc:533-538). -/
inductive QOp where
  | op (o : Op)
  | setQueue (d : DevId) (q : Option QueueId)
  | put (q : QueueId) (f : Bytes)
  | take (q : QueueId)

/-- The device whose member functions use its queue in this operation: `Send` (model/mock-net-device.cc:690, 697) and the
`TransmitComplete` that is dispatched (model/mock-net-device.cc:368). -/
def toucher (s : Sys) : Op → Option DevId
  | .send d _ _ _ => some d
  | .run =>
    match s.pending with
    | ⟨_, .txComplete d _⟩ :: _ => some d
    | _ => none
  | _ => none

/-- After an operation: the queue the device pointed at contains what the device left in it. -/
def QSys.writeBack (S : QSys) (s' : Sys) (d : Option DevId) : QSys :=
  { S with
    sys := s'
    store := match d with
      | none => S.store
      | some x =>
        match S.own x with
        | none => S.store
        | some q => fun r => if r = q then (s'.dev x).queue else S.store r }

/-- One operation.  `SetQueue` only replaces the pointer (model/mock-net-device.cc:405): what is in the old queue stays there,
and nothing is started if the transmitter is READY and the new queue is not empty. -/
def stepQ (E : Env) (S : QSys) : QOp → Outcome QSys
  | .op o => do
    let s' ← step E S.view o
    .ok (S.writeBack s' (toucher S.sys o))
  | .setQueue d q => .ok { S with own := fun x => if x = d then q else S.own x }
  | .put q f =>
    if (S.store q).length < S.cap q then
      .ok { S with store := fun r => if r = q then S.store q ++ [f] else S.store r }
    else .ok S
  | .take q => .ok { S with store := fun r => if r = q then (S.store q).tail else S.store r }

/-- A history of operations; the first fault ends it. -/
def execQ (E : Env) : QSys → List QOp → Outcome QSys
  | S, [] => .ok S
  | S, o :: ops => do
    let S' ← stepQ E S o
    execQ E S' ops

/-- As many queue objects as devices, device `d` having queue `d`: what Model/Net.lean describes. -/
def QSys.ofSys (s : Sys) : QSys :=
  { sys := s
    store := fun q => (s.dev q).queue
    cap := fun q => (s.dev q).cap
    own := fun d => if (s.dev d).hasQueue then some d else none }

end Verif
