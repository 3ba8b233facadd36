import Verif.Model.Parse
/-!
# Many satellites in one simulation, and the program that traces them

`Model/OrbitSched` has one satellite and the events that belong to it.  Here all satellites share the event list of the
simulator, as in examples/leo-circular-orbit-tracing-example.cc.
-/

namespace Verif
open Real

/-- A mobility model: members of model/leo-circular-orbit-mobility-model.h:94-119. -/
structure Mob where
  orbit : Orbit
  pos : Vec
  prec : Int

/-- `DoGetPosition`, model/leo-circular-orbit-mobility-model.cc:171-180. -/
noncomputable def Mob.getPosition (m : Mob) (now : Time) : Vec := if m.prec = 0 then m.orbit.position now else m.pos

/-- `DoGetVelocity`, model/leo-circular-orbit-mobility-model.cc:98-105. -/
noncomputable def Mob.getVelocity (m : Mob) (now : Time) : Vec := m.orbit.velocity now (m.getPosition now)

/-- What the sink `CourseChange` prints (examples/leo-circular-orbit-tracing-example.cc:29-34): time, node, position and
speed.  The text form of a line is not modelled. -/
structure TrackLine where
  time : Time
  node : Nat
  pos : Vec
  speed : ℝ

/-- The sink, lines 29-34, for the mobility model of a node. -/
noncomputable def Mob.line (m : Mob) (now : Time) (node : Nat) : TrackLine :=
  ⟨now, node, m.getPosition now, (m.getVelocity now).len⟩

/-- Events: `Update` of the mobility model of a node, and the event scheduled by `Simulator::Stop (Time)`. -/
inductive FleetEv where
  | update (i : Nat)
  | stop
  deriving DecidableEq

/-- All satellites of a simulation; the node id is the position in the list.  `log` has every course-change notification
(time and node), `sinks` the number of sinks connected to the trace source of a node and `out` what they printed. -/
structure Fleet where
  now : Time
  mobs : List Mob
  pending : List (Time × FleetEv)
  log : List (Time × Nat)
  sinks : Nat → Nat
  out : List TrackLine
  stopped : Bool

/-- The simulation before anything is done. -/
def Fleet.empty : Fleet := ⟨0, [], [], [], fun _ => 0, [], false⟩

/-- `Simulator::Schedule`: after all events at the same or an earlier time (ns-3 core). -/
def insertFleetEv (t : Time) (e : FleetEv) : List (Time × FleetEv) → List (Time × FleetEv)
  | [] => [(t, e)]
  | u :: us => if u.1 ≤ t then u :: insertFleetEv t e us else (t, e) :: u :: us

/-- `Update` of the mobility model of node `i`, model/leo-circular-orbit-mobility-model.cc:158-169. -/
noncomputable def Fleet.update (F : Fleet) (i : Nat) : Fleet :=
  match F.mobs[i]? with
  | none => F
  | some m =>
    let m := { m with pos := m.orbit.position F.now }
    { F with
      mobs := F.mobs.set i m
      log := F.log ++ [(F.now, i)]
      out := F.out ++ List.replicate (F.sinks i) (m.line F.now i)
      pending := if m.prec > 0 then insertFleetEv (F.now + m.prec.toNat) (.update i) F.pending else F.pending }

/-- Change members of the mobility model of node `i`. -/
def Fleet.change (F : Fleet) (i : Nat) (f : Mob → Mob) : Fleet := { F with mobs := F.mobs.modify i f }

/-- Calls and the dispatch of events. -/
inductive FleetOp where
  /-- create a node with a mobility model with these attributes -/
  | create (alt inc : ℝ) (prec : Int)
  | setPosition (i : Nat) (v : Vec)
  | setAltitude (i : Nat) (h : ℝ)
  | setInclination (i : Nat) (x : ℝ)
  | setPrecision (i : Nat) (p : Int)
  /-- `Config::Connect` of the sink with the course changes of all nodes there are -/
  | connect
  /-- `Simulator::Stop (Time)` -/
  | stopAfter (dt : Time)
  /-- dispatch of the next event by `Simulator::Run` -/
  | run
  /-- time passing without an event (of this model) -/
  | wait (dt : Time)

open Classical in
/-- One operation.  Construction is that of `Sat.create` (the notifications during construction have no sink yet); the setters are
model/leo-circular-orbit-mobility-model.cc:53, 182-215; the stop event ends `Simulator::Run`: no more events are dispatched. -/
noncomputable def Fleet.step (junk : ℝ) (F : Fleet) : FleetOp → Outcome Fleet
  | .create alt inc prec => Sat.create junk F.now alt inc prec >>= fun s =>
    .ok { F with mobs := F.mobs ++ [⟨s.orbit, s.pos, s.prec⟩], log := F.log ++ s.log.map fun t => (t, F.mobs.length) }
  | .setPosition i v => .ok ((F.change i fun m => { m with orbit := { m.orbit with lon := v.x, off := v.y } }).update i)
  | .setAltitude i h => .ok ((F.change i fun m => { m with orbit := { m.orbit with height := earthRadKm + h } }).update i)
  | .setInclination i x => if x = 0 then .fail .zeroInclination
    else .ok ((F.change i fun m => { m with orbit := { m.orbit with incl := (x / 180) * Real.pi } }).update i)
  | .setPrecision i p => .ok (F.change i fun m => { m with prec := p })
  | .connect => .ok { F with sinks := fun i => if i < F.mobs.length then F.sinks i + 1 else F.sinks i }
  | .stopAfter dt => .ok { F with pending := insertFleetEv (F.now + dt) .stop F.pending }
  | .run => if F.stopped then .ok F else
    match F.pending with
    | [] => .ok F
    | (t, .update i) :: rest => .ok ({ F with now := t, pending := rest }.update i)
    | (t, .stop) :: rest => .ok { F with now := t, pending := rest, stopped := true }
  | .wait dt => match F.pending with
    | [] => .ok { F with now := F.now + dt }
    | (t, _) :: _ => if F.now + dt ≤ t then .ok { F with now := F.now + dt } else .ok F

/-- A history. -/
noncomputable def Fleet.exec (junk : ℝ) (F : Fleet) : List FleetOp → Outcome Fleet
  | [] => .ok F
  | op :: ops => F.step junk op >>= fun F' => F'.exec junk ops

/-- One round of `MobilityHelper::Install` in `LeoOrbitNodeHelper::Install (LeoOrbit)` (helper/leo-orbit-node-helper.cc:52-70), see
`placeSat`; `prec` is the default value of the attribute `Precision`, which the option `--precision` of the program
sets. -/
noncomputable def fleetPlace (junk : ℝ) (prec : Int) (o : OrbitRec) (x : Fleet × CircAlloc) : Outcome (Unit × (Fleet × CircAlloc)) :=
  x.1.step junk (.create o.alt o.inc prec) >>= fun F =>
    x.2.next >>= fun r => F.step junk (.setPosition x.1.mobs.length (r.1.getD ⟨0, 0, 0⟩)) >>= fun F' => .ok ((), (F', r.2))

/-- `LeoOrbitNodeHelper::Install (LeoOrbit)`, helper/leo-orbit-node-helper.cc:52-70, see `orbitInstall`. -/
noncomputable def fleetOrbit (junk : ℝ) (prec : Int) (F : Fleet) (o : OrbitRec) : Outcome Fleet :=
  if o.sats * o.planes > 2147483647 then .fail .signedOverflow
  else takeN (fleetPlace junk prec o) (o.sats * o.planes) (F, CircAlloc.create o.planes o.sats) >>= fun r => .ok r.2.1

/-- `LeoOrbitNodeHelper::Install (vector<LeoOrbit>)`, helper/leo-orbit-node-helper.cc:93-108. -/
noncomputable def fleetOrbits (junk : ℝ) (prec : Int) (F : Fleet) : List OrbitRec → Outcome Fleet
  | [] => .ok F
  | o :: os => fleetOrbit junk prec F o >>= fun F' => fleetOrbits junk prec F' os

/-- The orbits of the program (examples/leo-circular-orbit-tracing-example.cc:49-57): those of the file given by
`--orbitFile`, read as by `LeoOrbitNodeHelper::Install (string)` (`none`: it cannot be opened), else two built-in orbits. -/
noncomputable def tracingOrbits (mem : Nat → Char × Char × Char) (file : Option (Option (List Char))) : List OrbitRec :=
  match file with
  | some f => (readOrbits mem ((f.getD []).length + 1) (Stream.open f) ⟨0, 0, 0, 0⟩).map OrbitTxt.toRec
  | none => [⟨1200, 20, 32, 16⟩, ⟨1180, 30, 12, 10⟩]

/-- `main` (examples/leo-circular-orbit-tracing-example.cc:36-80) for the given orbits, up to the dispatch of `k` events by
`Simulator::Run`: install the satellites, connect the sink, schedule the stop, run.  The result's `out` is what is printed below
the heading. -/
noncomputable def tracingMain (junk : ℝ) (prec : Int) (duration : Time) (os : List OrbitRec) (k : Nat) : Outcome Fleet :=
  fleetOrbits junk prec Fleet.empty os >>= fun F => F.exec junk (.connect :: .stopAfter duration :: List.replicate k .run)

end Verif
