import Verif.Spec.Ledger
import Verif.Model.PacketTrace
/-!
# What a metered list of packets says
-/

namespace Verif.Spec

/-- Where, on which device and of which frame: the drops. -/
def dropOf : Ev → Option (String × DevId × Bytes)
  | .macTxDrop d f => some ("MacTxDrop", d, f)
  | .phyTxDrop d f => some ("PhyTxDrop", d, f)
  | .macRxDrop d f => some ("MacRxDrop", d, f)
  | .phyRxDrop d f => some ("PhyRxDrop", d, f)
  | _ => none

/-- Packets that enter or leave the network through a device. -/
def passageOf : Ev → Option (String × DevId × Bytes)
  | .macTx d f => some ("MacTx", d, f)
  | .macRx d f => some ("MacRx", d, f)
  | _ => none

/-- Either. -/
def eitherOf (e : Ev) : Option (String × DevId × Bytes) := (dropOf e).or (passageOf e)

/-- The entries of a log of one kind, in order, with their times. -/
def entries (k : Ev → Option (String × DevId × Bytes)) (log : List (Time × Ev)) : List (Time × String × DevId × Bytes) :=
  log.filterMap fun e => (k e.2).map fun x => (e.1, x)

/-- A list of lines, one for each packet in order, each with the size of all packets so far (as far as 64 bits tell). -/
structure Metered (size : Bytes → Nat) (seen : List (Time × String × DevId × Bytes)) (lines : List TraceLine) : Prop where
  length : lines.length = seen.length
  line : ∀ i (hi : i < lines.length) (hs : i < seen.length), lines[i].now = seen[i].1 ∧ lines[i].source = seen[i].2.1 ∧ lines[i].dev = seen[i].2.2.1
  count : ∀ i (hi : i < lines.length), lines[i].count = ((seen.take (i + 1)).map fun x => size x.2.2.2).sum % 2 ^ 64

/-- Every transmission that is lost has a line in the trace of drops (README.rst, section Output). -/
def DropsAreLogged : Prop :=
  ∀ (E : Env) (s0 s : Sys) (ops : List Op) (ser : Bytes → Nat) (lines : List TraceLine), Initial s0 → exec E s0 ops = .ok s → s.pending = [] →
    packetTrace ser false true false s.log = some lines → tally .sent s.log ≤ tally .passedUp s.log + lines.length

/-- The option `traceTxRx` works: the program does not stop, and there is a line for every frame that a device has received. -/
def TxRxWorks (insists : Bool) : Prop :=
  ∀ (E : Env) (s0 s : Sys) (ops : List Op) (ser : Bytes → Nat), Initial s0 → exec E s0 ops = .ok s →
    ∃ lines, packetTrace ser insists false true s.log = some lines ∧
      ∀ t d f, (t, Ev.phyRxEnd d f) ∈ s.log → ∃ l ∈ lines, l.now = t ∧ l.dev = d

end Verif.Spec
