import Verif.Model.Flood
import Verif.Spec.Relay
/-! Forwarding with a hop limit, and endless routes. -/

namespace Verif.Spec

/-- The code sends at most `B` packets on for one it gets, each with a smaller number of remaining hops, of at most 1492 bytes and to a
MAC address. -/
def HopLimited (hops : Bytes → Nat) (B : Nat) (R : Flooder) : Prop :=
  ∀ s x p proto sa, (R s x p proto sa).length ≤ B ∧
    ∀ e ∈ R s x p proto sa, hops e.2.1 < hops p ∧ e.2.1.length ≤ 1492 ∧ e.2.2.1 ≠ .other

/-- The calls of `Send` by which the code answers what was passed up between `s` and `t`, in order. -/
def answers (R : Flooder) (s t : Sys) : List Op :=
  ((allUps t.log).drop (allUps s.log).length).flatMap fun u =>
    (R t u.2.1 u.2.2.1 u.2.2.2.1 u.2.2.2.2).map fun c => .send c.1 c.2.1 c.2.2.1 c.2.2.2

/-- How many events a packet with `k` hops can lead to where a frame reaches at most `N` devices: the end of its transmission and `N`
receptions, after each of which up to `B` packets with fewer hops are sent. -/
def floodCost (N B : Nat) : Nat → Nat
  | 0 => 1 + N
  | k + 1 => 1 + N * (1 + B * floodCost N B k)

/-- The number of `Attach` calls of a history. -/
def attachCalls (ops : List Op) : Nat :=
  (ops.filter fun op => match op with | .attach .. => true | _ => false).length

/-- The time at which hop `i` of an endless route starts. -/
def startOf (t : Time) (route : Nat → Hop) : Nat → Time
  | 0 => t
  | i + 1 => startOf t route i + (route i).delay

/-- An endless route: the decisions lead from every hop to the next, every hop can be made when its time comes, and a device that sends
again has finished before. -/
structure Endless (E : Env) (s : Sys) (R : Forwarder) (route : Nat → Hop) : Prop where
  leads : ∀ i, R (route i).dst (route i).packet (route i).proto (s.dev (route i).src).addr =
    some ((route (i + 1)).src, (route (i + 1)).packet, .mac (s.dev (route (i + 1)).dst).addr, (route (i + 1)).proto)
  hop : ∀ i, HopOk E s (startOf s.now route i) (route i)
  apart : ∀ i j, i < j → (route i).src = (route j).src →
    startOf s.now route i + (route i).occupies E s < startOf s.now route j

/-- Two hops in turn. -/
def turns (a b : Hop) : Nat → Hop := fun i => if i % 2 = 0 then a else b

end Verif.Spec
