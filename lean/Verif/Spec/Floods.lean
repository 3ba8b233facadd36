import Verif.Spec.Spread
import Verif.Spec.Ledger
/-! # Many floods at once -/

namespace Verif.Spec

/-- The calls of `Send` of a history, in order. -/
def callsMade (log : List (Time × Ev)) : List (DevId × Bytes × Addr × UInt16) :=
  log.filterMap fun e => match e.2 with
    | .sendRet d p dest proto _ _ => some (d, p, dest, proto)
    | _ => none

/-- Calls other than `Send` and the dispatch of events. -/
def Aside : Op → Prop
  | .send .. | .run => False
  | _ => True

/-- The histories of a network whose nodes flood, with the packets brought up in them: at any time a node brings up a packet, an event
happens (and the code above sends on what is passed up), or something else is called: devices are attached and detached, set up anew,
time passes. -/
inductive FloodRuns (E : Env) (own : NodeId → Bytes → UInt16 → Bool) (ports : NodeId → List DevId) (s0 : Sys) :
    List (NodeId × Bytes × UInt16) → Sys → Prop
  | start : FloodRuns E own ports s0 [] s0
  | bring {bs : List (NodeId × Bytes × UInt16)} {t u : Sys} {n : NodeId} {p : Bytes} {proto : UInt16} (h : FloodRuns E own ports s0 bs t)
      (hb : sendAll E (onAll ports n p proto) t = .ok u) : FloodRuns E own ports s0 (bs ++ [(n, p, proto)]) u
  | event {bs : List (NodeId × Bytes × UInt16)} {t u : Sys} (h : FloodRuns E own ports s0 bs t)
      (he : flood E (floodOnce own ports) 1 t = .ok u) : FloodRuns E own ports s0 bs u
  | aside {bs : List (NodeId × Bytes × UInt16)} {t u : Sys} {op : Op} (h : FloodRuns E own ports s0 bs t) (ha : Aside op)
      (hs : step E t op = .ok u) : FloodRuns E own ports s0 bs u

/-- Packets that can be told apart and that fit, each known to the node that brings it up as its own, and to no other. -/
structure Distinct (own : NodeId → Bytes → UInt16 → Bool) (bs : List (NodeId × Bytes × UInt16)) : Prop where
  apart : bs.Pairwise fun a b => a.2 ≠ b.2
  short : ∀ b ∈ bs, b.2.1.length ≤ 1492
  own : ∀ b ∈ bs, ∀ n, own n b.2.1 b.2.2 = decide (n = b.1)

/-- The nodes that have a packet: the one that brought it up, and those at whose devices it was passed up. -/
def owners (nodes : List NodeId) (t : Sys) (b : NodeId × Bytes × UInt16) : List NodeId :=
  nodes.filter fun n => decide (n = b.1 ∨ 0 < heardBy t n b.2.1 b.2.2)

/-- For every packet one call on each port of each node that has it. -/
def onceEach (nodes : List NodeId) (ports : NodeId → List DevId) (bs : List (NodeId × Bytes × UInt16)) (t : Sys) :
    List (DevId × Bytes × Addr × UInt16) :=
  bs.flatMap fun b => (owners nodes t b).flatMap fun n => onAll ports n b.2.1 b.2.2

end Verif.Spec
