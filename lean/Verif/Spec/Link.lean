import Verif.Spec.Channel
/-!
# Specification vocabulary for link states and device ids (C78, C79)
-/

namespace Verif.Spec

/-- Told from the log: the device was attached to a channel and has not been detached from any since. -/
def LinkIsUp (d : DevId) (log : List (Time × Ev)) : Prop :=
  ∃ l1 t c i l2, log = l1 ++ (t, Ev.attachRet d c i) :: l2 ∧
    ∀ t' c' slot, (t', Ev.detachRet c' slot true) ∈ l2 → (slots c' log)[slot]? ≠ some d

/-- How often the listeners of a device were told that its link state changed. -/
def linkNotices (d : DevId) (log : List (Time × Ev)) : Nat :=
  (log.filter fun e => decide (e.2 = .linkChange d)).length

/-- The ids that `Attach` returned on a channel, with the devices, in order. -/
def handedIds (c : ChanId) (log : List (Time × Ev)) : List (Nat × DevId) :=
  log.filterMap fun e => match e.2 with
    | .attachRet d c' i => if c' = c then some (i, d) else none
    | _ => none

/-- A device attached to one channel at a time: it is attached only while it is attached to no channel, and detached only
from a channel to which it is attached. -/
structure OneChannel (E : Env) (d : DevId) (s : Sys) (ops : List Op) : Prop where
  attach : ∀ o1 c o2 s1, ops = o1 ++ Op.attach d c :: o2 → exec E s o1 = .ok s1 → ∀ c', d ∉ members c' s1.log
  detach : ∀ o1 c slot o2 s1, ops = o1 ++ Op.detach c slot :: o2 → exec E s o1 = .ok s1 →
    (slots c s1.log)[slot]? = some d → d ∈ members c s1.log

end Verif.Spec

namespace Verif.Spec

/-- RFC 1112, section 6.4: the Ethernet address of an IPv4 group carries the low 23 bits of the group. -/
def rfc1112 (group : BitVec 32) : Mac48 :=
  let n := group.toNat % 2 ^ 23
  ⟨0x01, 0x00, 0x5e, UInt8.ofNat (n / 65536), UInt8.ofNat (n / 256 % 256), UInt8.ofNat (n % 256)⟩

/-- RFC 2464, section 7: the Ethernet address of an IPv6 multicast address carries its low 32 bits. -/
def rfc2464 (addr : BitVec 128) : Mac48 :=
  let n := addr.toNat % 2 ^ 32
  ⟨0x33, 0x33, UInt8.ofNat (n / 16777216), UInt8.ofNat (n / 65536 % 256), UInt8.ofNat (n / 256 % 256), UInt8.ofNat (n % 256)⟩

end Verif.Spec
