import Verif.Model.Parse
/-!
# Text form of orbits and locations, with numbers as `double`

`Model/Parse` idealises a `double` by the exact value of its text.  Here the conversion is that of the hardware format (IEEE 754
binary64): the nearest number of the format, or a failed extraction if the text is beyond its range.  A number of the format is
represented by its value; zero has no sign (a printed -0 is `-0` in C++, `0` here, and reads back as zero in both cases).
-/

namespace Verif

/-- The largest finite `double`. -/
def maxDouble : ℚ := (2 ^ 53 - 1) * 2 ^ (971 : Int)

/-- `strtod` on the characters of a number (C library): the nearest `double`, ties to the even significand; `none` if the result
would be infinite.  Small numbers lose digits (subnormal numbers) or become zero. -/
def toDouble (q : ℚ) : Option ℚ :=
  if q = 0 then some 0
  else
    let e := max (Int.log 2 |q| - 52) (-1074)
    let r := (roundEven (|q| / 2 ^ e) : ℚ) * 2 ^ e
    if r < 2 ^ (1024 : Int) then some (if q < 0 then -r else r) else none

/-- `operator>> (istream, double)` (libstdc++ `num_get`, `__convert_to_v`): beyond the range the extraction fails and the variable
becomes the largest number of that sign. -/
def Stream.getDouble64 (s : Stream) (old : ℚ) : Stream × ℚ :=
  match s.sentry with
  | (false, s') => (s', old)
  | (true, s') =>
    let (v, r) := scanFloat s'.rest
    match v with
    | none => (⟨r, r.isEmpty, true⟩, 0)
    | some q => match toDouble q with
      | none => (⟨r, r.isEmpty, true⟩, if q < 0 then -maxDouble else maxDouble)
      | some x => (⟨r, r.isEmpty, false⟩, x)

/-- `operator>> (istream, LeoLatLong)`, model/leo-lat-long.cc:29-38, see `readLatLong`. -/
def readLatLong64 (s : Stream) (c1 : Char) (old : LatLongRec) : Stream × LatLongRec :=
  let (s, a) := s.getDouble64 old.latitude
  let (s, c1) := s.getChar c1
  let (s, b) := s.getDouble64 old.longitude
  (if c1 ≠ ':' then { s with fail := true } else s, ⟨a, b⟩)

/-- `operator>> (istream, LeoOrbit)`, model/leo-orbit.cc:29-40, see `readOrbit`. -/
def readOrbit64 (s : Stream) (c1 c2 c3 : Char) (old : OrbitTxt) : Stream × OrbitTxt :=
  let (s, alt) := s.getDouble64 old.alt
  let (s, c1) := s.getChar c1
  let (s, inc) := s.getDouble64 old.inc
  let (s, c2) := s.getChar c2
  let (s, planes) := s.getUShort old.planes
  let (s, c3) := s.getChar c3
  let (s, sats) := s.getUShort old.sats
  (if c1 ≠ ':' ∨ c2 ≠ ':' ∨ c3 ≠ ':' then { s with fail := true } else s, ⟨alt, inc, planes, sats⟩)

/-- The loop `while ((stream >> loc))` of helper/ground-node-helper.cc:62-71, see `readLocations`. -/
def readLocations64 (junk : Nat → Char) : Nat → Stream → LatLongRec → List LatLongRec
  | 0, _, _ => []
  | n + 1, s, old =>
    let (s', r) := readLatLong64 s (junk n) old
    if s'.fail then [] else r :: readLocations64 junk n s' r

/-- The loop `while ((orbits >> orbit))` of helper/leo-orbit-node-helper.cc:81-85, see `readOrbits`. -/
def readOrbits64 (junk : Nat → Char × Char × Char) : Nat → Stream → OrbitTxt → List OrbitTxt
  | 0, _, _ => []
  | n + 1, s, old =>
    let (s', r) := readOrbit64 s (junk n).1 (junk n).2.1 (junk n).2.2 old
    if s'.fail then [] else r :: readOrbits64 junk n s' r

/-- `LeoGndNodeHelper::Install (file)`, helper/ground-node-helper.cc:53-77, see `gndInstallFile`. -/
noncomputable def gndInstallFile64 (junk : Nat → Char) (file : Option (List Char)) : List Vec :=
  (readLocations64 junk ((file.getD []).length + 1) (Stream.open file) ⟨0, 0⟩).map
    (fun l => earthPosition ⟨l.latitude, l.longitude⟩)

/-- `LeoOrbitNodeHelper::Install (file)`, helper/leo-orbit-node-helper.cc:72-91, see `orbitInstallFile`. -/
noncomputable def orbitInstallFile64 (junk : Nat → Char × Char × Char) (mem : ℝ) (now : Time) (file : Option (List Char)) :
    Outcome (List Sat) :=
  orbitsInstall mem now
    ((readOrbits64 junk ((file.getD []).length + 1) (Stream.open file) ⟨0, 0, 0, 0⟩).map OrbitTxt.toRec)

end Verif
