import Verif.Model.Fleet
/-!
# Calls from inside course-change sinks

In `Model/Fleet` code connected to the trace source `CourseChange` only prints.  `Update`
(model/leo-circular-orbit-mobility-model.cc:158-169) sets the position, hands control to the connected code and reads the precision
*afterwards*; that code may call the setters of this and of other mobility models, which notify in turn.  Here the calls of `Update`
that are waiting for their sinks to return are a stack, and a history says what the connected code does: the calls it makes, and
`ret` when the code connected to the innermost notification has returned.

Simplification: the sinks that print run before those that make calls.
-/

namespace Verif
open Real

/-- The first part of `Update`, model/leo-circular-orbit-mobility-model.cc:160-161: new position, notification. -/
noncomputable def Fleet.notify (F : Fleet) (i : Nat) : Fleet :=
  match F.mobs[i]? with
  | none => F
  | some m =>
    let m := { m with pos := m.orbit.position F.now }
    { F with
      mobs := F.mobs.set i m
      log := F.log ++ [(F.now, i)]
      out := F.out ++ List.replicate (F.sinks i) (m.line F.now i) }

/-- The second part of `Update`, model/leo-circular-orbit-mobility-model.cc:163-168, when the sinks have returned. -/
def Fleet.arm (F : Fleet) (i : Nat) : Fleet :=
  match F.mobs[i]? with
  | none => F
  | some m => { F with pending := if m.prec > 0 then insertFleetEv (F.now + m.prec.toNat) (.update i) F.pending else F.pending }

/-- A simulation and the nodes of the calls of `Update` whose sinks are running, innermost first. -/
structure Course where
  fleet : Fleet
  stack : List Nat

/-- `Update` of node `i` up to the call of the sinks. -/
noncomputable def Course.enter (C : Course) (i : Nat) : Course :=
  ⟨C.fleet.notify i, if i < C.fleet.mobs.length then i :: C.stack else C.stack⟩

/-- What happens: a call (by the program or by the code connected to the innermost notification), the dispatch of an event, time
passing, or the return of the code connected to the innermost notification. -/
inductive CourseOp where
  | op (o : FleetOp)
  | ret

open Classical in
/-- One step.  The setters are model/leo-circular-orbit-mobility-model.cc:182-215.  No event is dispatched and no time passes while sinks
are running. -/
noncomputable def Course.step (junk : ℝ) (C : Course) : CourseOp → Outcome Course
  | .op (.setPosition i v) =>
    .ok (Course.enter ⟨C.fleet.change i fun m => { m with orbit := { m.orbit with lon := v.x, off := v.y } }, C.stack⟩ i)
  | .op (.setAltitude i h) =>
    .ok (Course.enter ⟨C.fleet.change i fun m => { m with orbit := { m.orbit with height := earthRadKm + h } }, C.stack⟩ i)
  | .op (.setInclination i x) => if x = 0 then .fail .zeroInclination
    else .ok (Course.enter ⟨C.fleet.change i fun m => { m with orbit := { m.orbit with incl := (x / 180) * Real.pi } }, C.stack⟩ i)
  | .op .run =>
    if C.stack ≠ [] ∨ C.fleet.stopped = true then .ok C else
    match C.fleet.pending with
    | [] => .ok C
    | (t, .update i) :: rest => .ok (Course.enter ⟨{ C.fleet with now := t, pending := rest }, []⟩ i)
    | (t, .stop) :: rest => .ok ⟨{ C.fleet with now := t, pending := rest, stopped := true }, []⟩
  | .op (.wait dt) => if C.stack ≠ [] then .ok C else C.fleet.step junk (.wait dt) >>= fun F => .ok ⟨F, []⟩
  | .op o => C.fleet.step junk o >>= fun F => .ok ⟨F, C.stack⟩
  | .ret =>
    match C.stack with
    | [] => .ok C
    | i :: st => .ok ⟨C.fleet.arm i, st⟩

/-- A history. -/
noncomputable def Course.exec (junk : ℝ) (C : Course) : List CourseOp → Outcome Course
  | [] => .ok C
  | o :: os => C.step junk o >>= fun C' => C'.exec junk os

end Verif
