import Verif.Spec.Channel
/-!
# Specification vocabulary for receptions over time (C25-C30)
-/

namespace Verif.Spec

/-- A reception of frame `frame` of `src` at `dst` at time `time`. -/
structure Arrival where
  time : Time
  dst : DevId
  frame : Bytes
  src : DevId
  deriving DecidableEq, Repr

/-- Receptions announced by hand-overs: time of the hand-over plus its delay. -/
def announced (log : List (Time × Ev)) : List Arrival :=
  log.filterMap fun e => match e.2 with
    | .txrx _ f src dst _ del => some ⟨e.1 + del, dst, f, src⟩
    | _ => none

/-- Receptions that happened: calls of `Receive`. -/
def happened (log : List (Time × Ev)) : List Arrival :=
  log.filterMap fun e => match e.2 with
    | .recvCall dst f src _ => some ⟨e.1, dst, f, src⟩
    | _ => none

/-- The reception a pending event stands for, if it is one. -/
def arrivalOf (p : Pending) : Option Arrival :=
  match p.act with
  | .receive dst f src _ => some ⟨p.time, dst, f, src⟩
  | .txComplete _ _ => none

/-- Receptions still scheduled. -/
def scheduled (ps : List Pending) : List Arrival := ps.filterMap arrivalOf

/-- The part of a list of receptions that concerns one sender and one receiver. -/
def between (src dst : DevId) (l : List Arrival) : List Arrival :=
  l.filter (fun a => decide (a.src = src) && decide (a.dst = dst))

/-- The delay the specification prescribes for a hand-over from node `ns` to node `nd`. -/
def DelayLaw (E : Env) (c : ChanId) (ns nd : NodeId) (now txTime del : Time) : Prop :=
  (E.hasMob ns = true → E.hasMob nd = true → ∀ g, E.delay c = some g → del = g ns nd now) ∧
  (E.hasMob ns = true → E.hasMob nd = true → E.delay c = none → del = 0) ∧
  (E.hasMob ns = false ∨ E.hasMob nd = false → del = txTime)

end Verif.Spec
