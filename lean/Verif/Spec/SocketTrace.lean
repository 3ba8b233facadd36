import Verif.Model.SocketTrace
/-!
# What the bulk-send program should print
-/

namespace Verif.Spec

/-- The simulation itself connects nothing. -/
def OnlySimulates (run : List TcpOp) : Prop := ∀ src, TcpOp.connect src ∉ run

/-- Every number stands for one socket, which is made before anything happens to it. -/
def SocketsOnce (ops : List TcpOp) : Prop :=
  ∀ a b n k, ops = a ++ .create n k :: b → ∀ op ∈ a, (∀ m, op ≠ .create m k) ∧ op ≠ .close k ∧ ∀ t src uid seq, op ≠ .segment t k src uid seq

/-- After `ops` socket `k` is among the sockets of some node. -/
def Listed (ops : List TcpOp) (k : Nat) : Prop := ∃ a n b, ops = a ++ .create n k :: b ∧ TcpOp.close k ∉ b

/-- The bytes that reached the sink. -/
def sinkBytes : List TcpOp → Nat
  | [] => 0
  | .receive b :: more => b + sinkBytes more
  | _ :: more => sinkBytes more

/-- There is a line for every segment that is sent or received. -/
def SegmentsAreEchoed (insists : Bool) : Prop :=
  ∀ (l r : Nat) (run : List TcpOp), OnlySimulates run → SocketsOnce run → ∃ lines last, bulkOutput insists l r run = some (lines, last) ∧
    ∀ t k src uid seq, TcpOp.segment t k src uid seq ∈ run → (⟨t, k, src, uid, seq⟩ : TcpLine) ∈ lines

end Verif.Spec
