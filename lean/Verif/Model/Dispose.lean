import Verif.Model.Net
/-!
# Disposing of a device

Models `MockNetDevice::DoDispose` (model/mock-net-device.cc:288-299) together with everything else a
program may do in the same simulation.
-/

namespace Verif

/-- What `MockNetDevice::DoDispose` leaves of a device (model/mock-net-device.cc:292-297): node, channel,
current packet and queue are null (`m_queueInterface` is modelled in Model/Flow.lean only, and the
error model is part of the environment, see `Env.without`).  Address, channel id, link state, transmitter
state and callbacks stay as they are. -/
def Dev.disposed (v : Dev) : Dev :=
  { v with node := none, chan := none, cur := none, hasQueue := false, queue := [] }

/-- A system of which some devices have been disposed of. -/
structure DSys where
  sys : Sys
  gone : DevId → Bool

/-- The environment once the error models of the given devices are null (`m_receiveErrorModel = 0`,
model/mock-net-device.cc:294; test at 435). -/
def Env.without (E : Env) (gone : DevId → Bool) : Env :=
  { E with corrupt := fun d t n f => if gone d then false else E.corrupt d t n f }

/-- `Dispose ()` of one device, or anything else. -/
inductive DOp where
  | dispose (d : DevId)
  | op (o : Op)

/-- One operation; `dispose` is `MockNetDevice::DoDispose` (model/mock-net-device.cc:288-299).  Channels and
pending events keep their references to the device. -/
def stepD (E : Env) (s : DSys) : DOp → Outcome DSys
  | .dispose d => .ok ⟨s.sys.setDev d (s.sys.dev d).disposed, fun x => if x = d then true else s.gone x⟩
  | .op o => do
    let t ← step (E.without s.gone) s.sys o
    .ok ⟨t, s.gone⟩

/-- A history of operations; the first fault ends it. -/
def execD (E : Env) : DSys → List DOp → Outcome DSys
  | s, [] => .ok s
  | s, o :: ops => do
    let s' ← stepD E s o
    execD E s' ops

/-- A system in which nothing has been disposed of. -/
def DSys.start (s : Sys) : DSys := ⟨s, fun _ => false⟩

end Verif
