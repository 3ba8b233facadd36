import Verif.Spec.Channel
/-!
# Proper use of the network code

The rules a program has to keep, stated for one operation at a time, in terms of what the program can
know: arguments of its own calls, how it set up its devices, and the calls it made before.
-/

namespace Verif.Spec

/-- A device the way `Node::AddDevice` and the helpers leave it: on a node (which also registers the
receive callback), with a transmit queue. -/
structure Equipped (v : Dev) : Prop where
  node : v.node ≠ none
  queue : v.hasQueue = true
  callback : v.rxCb = true

/-- The rules for one operation: orderly use of addresses and device types; `Send` is given a MAC
address and at most 65527 bytes; only equipped devices are attached, and to LEO channels only LEO
devices; `Detach` on a LEO channel names a slot that exists; `SetAddress` is given a MAC address. -/
def Proper (s : Sys) (op : Op) : Prop :=
  Orderly s op ∧
  match op with
  | .send _ p dest _ => dest ≠ .other ∧ p.length ≤ 65527
  | .attach d c => Equipped (s.dev d) ∧ ((s.chan c).kind = .leo → (s.dev d).leo = true)
  | .detach c slot => (s.chan c).kind = .leo → slot < (slots c s.log).length
  | .setAddress _ a => a ≠ .other
  | _ => True

/-- Every operation of a history keeps the rules in the state it is applied to. -/
def ProperRun (E : Env) (s : Sys) (ops : List Op) : Prop :=
  ∀ o1 op o2 s1, ops = o1 ++ op :: o2 → exec E s o1 = .ok s1 → Proper s1 op

end Verif.Spec
