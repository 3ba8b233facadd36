import Verif.Spec.Net
import Verif.Spec.Channel
import Verif.Model.TraceFile
import Verif.Model.Helper
/-!
# What trace files have to contain

Told from what devices and channels did, not from the trace sources the files are connected to.
-/

namespace Verif.Spec

/-- The next thing device `d` does is to discard a frame it received. -/
def Discards (d : DevId) : List (Time × Ev) → Bool
  | (_, .phyRxDrop e _) :: _ => decide (e = d)
  | _ => false

/-- The frames which pass device `d`: those it hands to its channel and those it receives and does not discard for lack of
power, for corruption or for their checksum. -/
def captured (d : DevId) : List (Time × Ev) → List (Time × Bytes)
  | [] => []
  | (t, .onAir e f _) :: l => if e = d then (t, f) :: captured d l else captured d l
  | (t, .phyRxEnd e f) :: l => if e = d ∧ Discards d l = false then (t, f) :: captured d l else captured d l
  | _ :: l => captured d l

/-- A frame device `d` lost: a packet that `Send` framed and did not accept, or a frame that was discarded at reception. -/
def lostEv (d : DevId) : Ev → Option Bytes
  | .sendRet x p _ _ false f => if x = d ∧ f ≠ p then some f else none
  | .phyRxDrop x f => if x = d then some f else none
  | _ => none

/-- A frame for which device `d` called its receive callback. -/
def handedUpEv (d : DevId) : Ev → Option Bytes
  | .macRx x f => if x = d then some f else none
  | _ => none

/-- The records with letter `+`. -/
def pluses (l : List (Time × Line)) : List (Time × Bytes) :=
  l.filterMap fun | (t, .plus f) => some (t, f) | _ => none
/-- The records with letter `-`. -/
def minuses (l : List (Time × Line)) : List (Time × Bytes) :=
  l.filterMap fun | (t, .minus f) => some (t, f) | _ => none
/-- The records with letter `d`. -/
def losses (l : List (Time × Line)) : List (Time × Bytes) :=
  l.filterMap fun | (t, .drop f) => some (t, f) | _ => none
/-- The records with letter `r`. -/
def receipts (l : List (Time × Line)) : List (Time × Bytes) :=
  l.filterMap fun | (t, .recv f) => some (t, f) | _ => none

/-- Follow a queue through a trace file: `+` appends a frame, `-` takes the first one, which must be the one recorded. -/
def replay : List Bytes → List (Time × Line) → Option (List Bytes)
  | q, [] => some q
  | q, (_, .plus f) :: l => replay (q ++ [f]) l
  | g :: q, (_, .minus f) :: l => if g = f then replay q l else none
  | [], (_, .minus _) :: _ => none
  | q, _ :: l => replay q l

/-- Trace file `r` of device `d` tells what happened while `log` grew: `+` and `-` when a frame was accepted and when its
transmission began, `r` when one was handed to the layer above, `d` when one was lost, all in order and with their times;
and `+` and `-` lead from the queue `q` at the beginning to the queue `q'` at the end. -/
structure Faithful (d : DevId) (q q' : List Bytes) (log : List (Time × Ev)) (r : List (Time × Line)) : Prop where
  plus : pluses r = projT (acceptedEv d) log
  minus : minuses r = projT (begunEv d) log
  loss : losses r = projT (lostEv d) log
  recv : receipts r = projT (handedUpEv d) log
  queue : replay q r = some q'

/-- How often a helper connects device `v`. -/
def times (t : Tracer) (v : Dev) : Nat :=
  match t with
  | .isl => 1
  | .leoChannel => if v.leo then 1 else 0
  | .leo => if v.leo then 3 else 1

/-- The network has a history. -/
def Arises (E : Env) (s : Sys) : Prop := ∃ s0 ops, Initial s0 ∧ exec E s0 ops = .ok s

/-- The operations of the network in a history. -/
def netOps : List TOp → List Op
  | [] => []
  | .net op :: l => op :: netOps l
  | _ :: l => netOps l

/-- The file of device `d`. -/
def fileOf (h : TSys) (pre : FileName) (d : DevId) (explicit : Bool) (ext : String) : FileName :=
  if explicit then pre else fileName pre ((h.sys.dev d).node.getD 0) (h.ifIndex d) ext.toList

/-- Number of writers of a file. -/
def openings {α : Type} (ws : List (Writer α)) (name : FileName) : Nat := ws.countP fun w => decide (w.name = name)

/-- The records with the context of interface `i` of node `n` in a shared stream. -/
def ofContext (n : NodeId) (i : Nat) (l : List (Time × Entry)) : List (Time × Line) :=
  l.filterMap fun e => if e.2.node = n ∧ e.2.ifIndex = i then some (e.1, e.2.line) else none

/-- A network made by the helpers, before any trace is enabled. -/
def untraced (b : Build) : TSys :=
  { sys := b.sys, ifIndex := b.ifIndex, pcap := [], ascii := [], hooks := [], streams := fun _ => [] }

end Verif.Spec
