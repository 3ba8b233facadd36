import Mathlib.Data.Rat.Defs
import Mathlib.Algebra.Order.Field.Rat
import Mathlib.Tactic.Linarith
import Verif.Model.Waypoint
/-!
# Satellites with waypoints in the simulation

`LeoSatNodeHelper` gives every satellite a `WaypointMobilityModel` (helper/satellite-node-helper.cc:31-38, 52-63).  That class is ns-3 core
code: its lazy `Update` is modelled here statement by statement, with exact rational coordinates and times in nanoseconds, so that
what the waypoints of a file mean for the positions of a satellite can be stated.  Notifications are not modelled.
-/

namespace Verif

/-- The state of a `WaypointMobilityModel` (ns-3): `m_current`, `m_next`, `m_waypoints` and `m_velocity` (metres per nanosecond). -/
structure WMob where
  cur : WSample
  next : WSample
  queue : List WSample
  vx : ℚ
  vy : ℚ
  vz : ℚ
  deriving DecidableEq, Repr

namespace WMob

/-- The model after the calls of `AddWaypoint` in helper/satellite-node-helper.cc:58-62 (ns-3: the first waypoint becomes `m_current` and
`m_next`, the others are queued).  Without a waypoint everything is zero. -/
def create : List WSample → WMob
  | [] => ⟨⟨0, 0, 0, 0⟩, ⟨0, 0, 0, 0⟩, [], 0, 0, 0⟩
  | a :: q => ⟨a, a, q, 0, 0, 0⟩

/-- The loop of `WaypointMobilityModel::Update` (ns-3): waypoints up to `now` are taken from the queue.  Behind the last one the satellite
stops; the result is then marked with `true` (the function returns).  `NS_ASSERT (t_span > 0)`. -/
def loop (now : Int) (cur next : WSample) (vx vy vz : ℚ) : List WSample → Outcome (WMob × Bool)
  | [] =>
    if next.time ≤ now then
      if cur.time ≤ next.time then .ok (⟨{ next with time := now }, { next with time := -1000000000 }, [], 0, 0, 0⟩, true)
      else .ok (⟨{ cur with time := now }, next, [], vx, vy, vz⟩, true)
    else .ok (⟨cur, next, [], vx, vy, vz⟩, false)
  | w :: ws =>
    if next.time ≤ now then
      if w.time ≤ next.time then .fail .waypointNotLater
      else
        let span : ℚ := (w.time - next.time : Int)
        loop now next w ((w.x - next.x) / span) ((w.y - next.y) / span) ((w.z - next.z) / span) ws
    else .ok (⟨cur, next, w :: ws, vx, vy, vz⟩, false)

/-- `WaypointMobilityModel::Update` (ns-3) at time `now`. -/
def update (now : Int) (m : WMob) : Outcome WMob :=
  if now < m.cur.time then .ok m
  else do
    let (m, done) ← loop now m.cur m.next m.vx m.vy m.vz m.queue
    if done then .ok m
    else
      if m.cur.time < now then
        let d : ℚ := (now - m.cur.time : Int)
        .ok { m with cur := ⟨now, m.cur.x + m.vx * d, m.cur.y + m.vy * d, m.cur.z + m.vz * d⟩ }
      else .ok m

/-- `DoGetPosition` (ns-3) at a sequence of times: the positions returned. -/
def ask : WMob → List Int → Outcome (List (ℚ × ℚ × ℚ))
  | _, [] => .ok []
  | m, t :: ts => do
    let m ← m.update t
    let l ← ask m ts
    .ok ((m.cur.x, m.cur.y, m.cur.z) :: l)

end WMob
end Verif
