import Verif.Model.Net
/-!
# The output of the bulk-send program

examples/leo-bulk-send-example.cc:31-35 prints a line for every TCP segment that a connected socket sends or receives; lines 158-161 connect it, between the
installation of the applications (lines 146-156) and the simulation (lines 177-179); line 186 prints the number of bytes that the sink has received.
The TCP layer itself (ns-3 internet) is not modelled: what happens to sockets during the simulation is an arbitrary list.
-/

namespace Verif

/-- The trace sources `Tx` and `Rx` of `TcpSocketBase` (ns-3 internet). -/
inductive TcpSource where
  | tx | rx
  deriving DecidableEq, Repr

/-- What happens to the TCP layers: sockets are made (`TcpL4Protocol::CreateSocket`, and by accepting a connection) and enter the list `SocketList` of their node, or leave it
(`TcpL4Protocol::RemoveSocket`), segments are sent and received, bytes reach the sink application (`PacketSink::HandleRead`), and `Config::Connect` is called with
`/NodeList/*/$ns3::TcpL4Protocol/SocketList/*/Tx` or `Rx`.  A number stands for one socket of the whole simulation. -/
inductive TcpOp where
  | create (node : Nat) (k : Nat)
  | close (k : Nat)
  | segment (now : Nat) (k : Nat) (source : TcpSource) (uid : Nat) (seq : Nat)
  | receive (bytes : Nat)
  | connect (source : TcpSource)
  deriving DecidableEq, Repr

/-- A line of `EchoTxRx`, examples/leo-bulk-send-example.cc:31-35: the context is given by the source and the socket; `GetNode` prints the pointer to the node of the socket. -/
structure TcpLine where
  now : Nat
  k : Nat
  source : TcpSource
  uid : Nat
  seq : Nat
  deriving DecidableEq, Repr

/-- The sockets in the lists of the nodes, the connections of `EchoTxRx`, the lines printed, and the bytes received by the sink (`m_totalRx`, a `uint64_t`). -/
structure TcpSt where
  sockets : List (Nat × Nat)
  sinks : List (Nat × TcpSource)
  lines : List TcpLine
  total : Nat

/-- After installing applications (`BulkSendHelper::Install`, `PacketSinkHelper::Install`, examples/leo-bulk-send-example.cc:146-156): these make no sockets, which is up to
`StartApplication`, an event of the simulation (ns-3 applications and network); routing protocols use no TCP. -/
def TcpSt.start : TcpSt := ⟨[], [], [], 0⟩

/-- One operation.  `Config::Connect` (ns-3 core) connects to the objects that match at the time of the call; where it insists on a match a path that leads nowhere is an
`NS_FATAL_ERROR` (`none`).  A socket keeps its connections when it leaves the list. -/
def TcpSt.step (insists : Bool) (s : TcpSt) : TcpOp → Option TcpSt
  | .create n k => some { s with sockets := s.sockets ++ [(n, k)] }
  | .close k => some { s with sockets := s.sockets.filter (·.2 != k) }
  | .segment t k src uid seq =>
    some { s with lines := s.lines ++ (s.sinks.filter (· == (k, src))).map fun c => ⟨t, c.1, c.2, uid, seq⟩ }
  | .receive b => some { s with total := (s.total + b) % 2 ^ 64 }
  | .connect src =>
    if s.sockets.isEmpty && insists then none
    else some { s with sinks := s.sinks ++ s.sockets.map fun x => (x.2, src) }

/-- Operations one after the other. -/
def TcpSt.exec (insists : Bool) : TcpSt → List TcpOp → Option TcpSt
  | s, [] => some s
  | s, op :: more => (s.step insists op).bind fun s' => s'.exec insists more

/-- The program from examples/leo-bulk-send-example.cc:145 to 186: two connections, then the simulation, then the last line (numbers of the users, bytes received).  `none`: it stops
before the simulation. -/
def bulkOutput (insists : Bool) (local_ remote : Nat) (run : List TcpOp) : Option (List TcpLine × (Nat × Nat × Nat)) :=
  (TcpSt.start.exec insists (.connect .tx :: .connect .rx :: run)).map fun s => (s.lines, (local_, remote, s.total))

end Verif
