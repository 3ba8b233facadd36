import Verif.Spec.Channel
/-!
# Book-keeping: what has become of the packets
-/

namespace Verif.Spec

/-- What trace sources and return values tell about one packet. -/
inductive Fate where
  /-- a call of `Send` has returned -/
  | sent
  /-- MacTxDrop -/
  | macTxDrop
  /-- PhyTxBegin -/
  | begun
  /-- PhyTxDrop -/
  | phyTxDrop
  /-- the channel hands a copy to a receiver (TxRx) -/
  | copied
  /-- a copy has arrived -/
  | arrived
  /-- MacRxDrop -/
  | macRxDrop
  /-- PhyRxEnd -/
  | heard
  /-- PhyRxDrop -/
  | phyRxDrop
  /-- the receive callback is called -/
  | passedUp
  deriving DecidableEq, Repr

def fate : Ev → Option Fate
  | .sendRet .. => some .sent
  | .macTxDrop .. => some .macTxDrop
  | .phyTxBegin .. => some .begun
  | .phyTxDrop .. => some .phyTxDrop
  | .txrx .. => some .copied
  | .recvCall .. => some .arrived
  | .macRxDrop .. => some .macRxDrop
  | .phyRxEnd .. => some .heard
  | .phyRxDrop .. => some .phyRxDrop
  | .rxCallback .. => some .passedUp
  | _ => none

/-- How often something happened. -/
def tally (k : Fate) (log : List (Time × Ev)) : Nat := log.countP fun e => decide (fate e.2 = some k)

/-- Copies on their way. -/
def inFlight (s : Sys) : Nat := s.pending.countP fun p => match p.act with | .receive .. => true | _ => false

/-- Frames in the queues of the first `n` devices. -/
def waiting (n : Nat) (s : Sys) : Nat := ((List.range n).map fun d => (s.dev d).queue.length).sum

/-- Packets that were dropped somewhere with a trace, or given to the upper layer. -/
def accounted (log : List (Time × Ev)) : Nat :=
  tally .macTxDrop log + tally .phyTxDrop log + tally .macRxDrop log + tally .phyRxDrop log + tally .passedUp log

/-- Whenever the simulation comes to rest, every packet given to a device has been reported as dropped or has been passed up. -/
def NothingVanishes : Prop :=
  ∀ (E : Env) (s0 s : Sys) (ops : List Op), Initial s0 → exec E s0 ops = .ok s → s.pending = [] → tally .sent s.log ≤ accounted s.log

/-- Only the first `n` devices send. -/
def SendersBelow (n : Nat) (ops : List Op) : Prop := ∀ d p dest proto, .send d p dest proto ∈ ops → d < n

/-- Inter-satellite links only, every device has one peer to which it sends, and addresses stay as they are. -/
structure OnePeer (s0 : Sys) (peer : DevId → Mac48) (ops : List Op) : Prop where
  sends : ∀ d p dest proto, .send d p dest proto ∈ ops → dest = .mac (peer d) ∧ peer d ≠ Mac48.broadcast
  isl : ∀ d c, .attach d c ∈ ops → (s0.chan c).kind = .isl
  fixed : ∀ d a, .setAddress d a ∉ ops

end Verif.Spec
