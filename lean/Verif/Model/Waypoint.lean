import Mathlib.Data.Rat.Defs
import Verif.Base
/-!
# Waypoint files
(helper/leo-input-fstream-container.cc, helper/satellite-node-helper.cc)

The extraction of a single `ns3::Waypoint` from text is ns-3 core code and is not modelled character by character: a
file is the list of waypoints that successive extractions yield before the first one fails.  A failed extraction sets
the failure state of the stream, leaves the position alone and replaces the time by `Time ("")`, which converts an
uninitialised `double`: that value is a parameter `junk`.
-/

namespace Verif

/-- `ns3::Waypoint`; times are signed 64 bit integers in ns-3, idealised by `Int`. -/
structure WSample where
  time : Int
  x : ℚ
  y : ℚ
  z : ℚ
  deriving DecidableEq, Repr

/-- The files that exist, by path. -/
abbrev Files := String → Option (List WSample)

/-- `LeoWaypointInputFileStreamContainer`, helper/leo-input-fstream-container.h:108-115.  `stream` is `m_input`: `none`
while closed, otherwise the contents of the open file and the part not yet read (a stream that has failed is at its
end, and stays there until it is cleared or opened again). -/
structure WReader where
  path : String
  last : Int
  stream : Option (List WSample × List WSample)
  deriving DecidableEq, Repr

namespace WReader

/-- Constructors, helper/leo-input-fstream-container.cc:47-57. -/
def create (path : String) (last : Int) : WReader := ⟨path, last, none⟩

/-- `m_input.open (m_filePath)`: on success the state flags are cleared. -/
def openFile (fs : Files) (r : WReader) : WReader := { r with stream := (fs r.path).map (fun c => (c, c)) }

/-- The loop of `GetNextSample`, helper/leo-input-fstream-container.cc:84-87: `s` is the sample, `upd` is `updated`. -/
def scan (last junk : Int) : List WSample → WSample → Bool → Bool × WSample × List WSample
  | [], s, upd => if s.time ≤ last then (upd, { s with time := junk }, []) else (upd, s, [])
  | w :: ws, s, upd => if s.time ≤ last then scan last junk ws w true else (upd, s, w :: ws)

/-- `GetNextSample`, helper/leo-input-fstream-container.cc:64-95: the sample if the call returns true.  `bad ()` does
not occur. -/
def getNext (fs : Files) (junk : Int) (r : WReader) : Outcome (WReader × Option WSample) :=
  let r := if r.stream.isNone then r.openFile fs else r
  match r.stream with
  | none => .fail .fileNotOpen
  | some (c, rest) =>
    match scan r.last junk rest ⟨0, 0, 0, 0⟩ false with
    | (true, s, rest') => .ok (⟨r.path, s.time, some (c, rest')⟩, some s)
    | (false, _, rest') => .ok (⟨r.path, r.last, some (c, rest')⟩, none)

/-- `SetFile`, helper/leo-input-fstream-container.cc:97-103. -/
def setFile (fs : Files) (path : String) (r : WReader) : WReader := openFile fs { r with path := path, stream := none }

/-- `SetLastTime`, helper/leo-input-fstream-container.cc:111-117. -/
def setLastTime (t : Int) (r : WReader) : WReader :=
  { r with last := t, stream := r.stream.map (fun p => (p.1, p.1)) }

/-- Attribute "File", helper/leo-input-fstream-container.cc:33-37: only the path changes. -/
def setFileAttribute (path : String) (r : WReader) : WReader := { r with path := path }

/-- Attribute "LastTime", helper/leo-input-fstream-container.cc:38-42. -/
def setLastTimeAttribute (t : Int) (r : WReader) : WReader := { r with last := t }

/-- `GetNextSample` until it returns false, at most `n` times: the samples returned.  `junk n` is the indeterminate
value of a call. -/
def drain (fs : Files) (junk : Nat → Int) : Nat → WReader → Outcome (List WSample × WReader)
  | 0, r => .ok ([], r)
  | n + 1, r => do
    let (r, o) ← r.getNext fs (junk n)
    match o with
    | none => .ok ([], r)
    | some s => do
      let (l, r) ← drain fs junk n r
      .ok (s :: l, r)

/-- Calls on a reader. -/
inductive Op where
  | getNext (junk : Int)
  | setFile (path : String)
  | setLastTime (t : Int)
  | setFileAttribute (path : String)
  | setLastTimeAttribute (t : Int)
  deriving DecidableEq, Repr

/-- One call. -/
def step (fs : Files) (r : WReader) : Op → Outcome WReader
  | .getNext junk => do let (r, _) ← r.getNext fs junk; .ok r
  | .setFile p => .ok (r.setFile fs p)
  | .setLastTime t => .ok (r.setLastTime t)
  | .setFileAttribute p => .ok (r.setFileAttribute p)
  | .setLastTimeAttribute t => .ok (r.setLastTimeAttribute t)

/-- A sequence of calls. -/
def run (fs : Files) : WReader → List Op → Outcome WReader
  | r, [] => .ok r
  | r, o :: os => do let r ← step fs r o; run fs r os

end WReader

/-- `WaypointMobilityModel::AddWaypoint` (ns-3 core): the first waypoint becomes the current one, the others are
queued, and one that is not later than the last queued one aborts.  The change notification it schedules is not
modelled. -/
def addWaypoint (l : List WSample) (s : WSample) : Outcome (List WSample) :=
  match l with
  | [] => .ok [s]
  | [a] => .ok [a, s]
  | l => if (l.getLast?.map (·.time)).getD 0 ≥ s.time then .fail .waypointNotLater else .ok (l ++ [s])

/-- The inner loop of `LeoSatNodeHelper::Install`, helper/satellite-node-helper.cc:58-62, at most `n` rounds. -/
def fillWaypoints (fs : Files) (junk : Nat → Int) : Nat → WReader → List WSample → Outcome (WReader × List WSample)
  | 0, r, l => .ok (r, l)
  | n + 1, r, l => do
    let (r, o) ← r.getNext fs (junk n)
    match o with
    | none => .ok (r, l)
    | some s => do
      let l ← addWaypoint l s
      fillWaypoints fs junk n r l

/-- `LeoSatNodeHelper::Install`, helper/satellite-node-helper.cc:46-71: the waypoints of each satellite.  Every call of
`GetNextSample` that returns true consumes a record, so the length of the file bounds the rounds. -/
def satInstall (fs : Files) (junk : Nat → Nat → Int) : WReader → List String → Outcome (WReader × List (List WSample))
  | r, [] => .ok (r, [])
  | r, p :: ps => do
    let r := r.setFile fs p
    let (r, l) ← fillWaypoints fs (junk ps.length) (((fs p).getD []).length + 1) r []
    let (r, ls) ← satInstall fs junk r ps
    .ok (r, l :: ls)

end Verif
