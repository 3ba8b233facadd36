import Verif.Spec.Flood
/-! Flooding: every node sends a packet on once, to everybody. -/

namespace Verif.Spec

/-- How often the packet was passed up at devices of the node. -/
def heardBy (t : Sys) (n : NodeId) (p : Bytes) (proto : UInt16) : Nat :=
  ((allUps t.log).filter fun e => decide ((t.dev e.2.1).node = some n ∧ e.2.2.1 = p ∧ e.2.2.2.1 = proto)).length

/-- The calls by which a node sends a packet to everybody: one on each of its ports, to the broadcast address. -/
def onAll (ports : NodeId → List DevId) (n : NodeId) (p : Bytes) (proto : UInt16) : List (DevId × Bytes × Addr × UInt16) :=
  (ports n).map fun d => (d, p, .mac Mac48.broadcast, proto)

/-- Flooding: a node sends a packet to everybody when it gets it for the first time and has not brought it up itself. -/
def floodOnce (own : NodeId → Bytes → UInt16 → Bool) (ports : NodeId → List DevId) : Flooder := fun t x p proto _ =>
  match (t.dev x).node with
  | none => []
  | some n => if own n p proto = false ∧ heardBy t n p proto = 1 then onAll ports n p proto else []

/-- From now until `T` a frame of `size` bytes that `d` sends to everybody gets to `x` within `δ`: `d` has its link up and room in its
queue, both are attached to the channel (on a ground/space channel: on different sides; on an inter-satellite channel: where nobody
has the broadcast address as its own), and the propagation models let it through with enough power for the receiver. -/
def Lasting (E : Env) (s : Sys) (size : Nat) (T : Time) (d x : DevId) (δ : Time) : Prop :=
  (s.dev d).linkUp = true ∧ 0 < (s.dev d).cap ∧ ∃ c, (s.dev d).chan = some c ∧ d ≠ x ∧
    ((s.chan c).kind = .leo → d ∈ members c s.log ∧ x ∈ members c s.log ∧ (s.dev x).side ≠ (s.dev d).side) ∧
    ((s.chan c).kind = .isl → x ∈ slots c s.log ∧ ∀ y ∈ slots c s.log, (s.dev y).addr ≠ Mac48.broadcast) ∧
    ∀ t, s.now ≤ t → t ≤ T → ∃ δ' pw, δ' ≤ δ ∧
      reachDev E { s with now := t } c d (E.txTime (s.dev d).rate size) x = some (δ', pw) ∧
      (s.dev x).rxThreshold ≤ effectivePower (s.dev x) pw

/-- A path of lasting links leads from the node `n0` to the node, which it reaches by the time. -/
inductive PathBy (E : Env) (s : Sys) (size : Nat) (ports : NodeId → List DevId) (n0 : NodeId) : NodeId → Time → Prop
  | start : PathBy E s size ports n0 n0 s.now
  | hop {n m : NodeId} {T δ : Time} {d x : DevId} (h : PathBy E s size ports n0 n T) (hd : d ∈ ports n)
      (hl : Lasting E s size T d x δ) (hx : (s.dev x).node = some m) : PathBy E s size ports n0 m (T + δ)

/-- At some time from now on a frame of `size` bytes that `d` sends to everybody gets to `x` with power `pw`. -/
def Gets (E : Env) (s : Sys) (size : Nat) (d x : DevId) (pw : Power) : Prop :=
  ∃ c t δ, (s.dev d).chan = some c ∧
    ((s.chan c).kind = .leo → d ∈ members c s.log ∧ x ∈ members c s.log ∧ (s.dev x).side ≠ (s.dev d).side) ∧
    ((s.chan c).kind = .isl → x ∈ slots c s.log) ∧ s.now ≤ t ∧
    reachDev E { s with now := t } c d (E.txTime (s.dev d).rate size) x = some (δ, pw)

/-- At some time from now on `x` is near enough to hear what `d` sends to everybody. -/
def CanHear (E : Env) (s : Sys) (size : Nat) (d x : DevId) : Prop :=
  d ≠ x ∧ ∃ pw, Gets E s size d x pw ∧ (s.dev x).rxThreshold ≤ effectivePower (s.dev x) pw

/-- Nodes that a chain of devices that can hear each other connects with `n0`. -/
inductive LinkedTo (E : Env) (s : Sys) (size : Nat) (ports : NodeId → List DevId) (n0 : NodeId) : NodeId → Prop
  | start : LinkedTo E s size ports n0 n0
  | hop {n m : NodeId} {d x : DevId} (h : LinkedTo E s size ports n0 n) (hd : d ∈ ports n)
      (hl : CanHear E s size d x) (hx : (s.dev x).node = some m) : LinkedTo E s size ports n0 m

/-- The ports of the nodes: devices of theirs, none twice, and only the listed nodes have any. -/
structure PortsOf (s : Sys) (nodes : List NodeId) (ports : NodeId → List DevId) : Prop where
  own : ∀ n, ∀ d ∈ ports n, (s.dev d).node = some n
  once : ∀ n, (ports n).Nodup
  all : ∀ n, ports n ≠ [] → n ∈ nodes

/-- The number of all ports. -/
def portCount (nodes : List NodeId) (ports : NodeId → List DevId) : Nat := (nodes.map fun n => (ports n).length).sum

end Verif.Spec
