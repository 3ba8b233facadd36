import Mathlib.Data.Int.Log
import Mathlib.Data.Rat.Floor
import Verif.Model.Placement
/-!
# Text form of orbits and locations, and installation from files
(model/leo-orbit.cc, model/leo-lat-long.cc, helper/ground-node-helper.cc, helper/leo-orbit-node-helper.cc)

Formatted input and output of libstdc++ in the "C" locale with default flags, as far as the code uses it.
A `double` is idealised by a rational number: conversion from text is exact and does not overflow.
-/

namespace Verif

/-- Numeric value of a digit character. -/
def digitVal (c : Char) : Nat := c.toNat - 48

/-- The digit character of a number below 10. -/
def digitChar (n : Nat) : Char := Char.ofNat (48 + n)

/-- `std::isspace` in the "C" locale. -/
def isBlank (c : Char) : Bool := c = ' ' || c = '\t' || c = '\n' || c = '\x0b' || c = '\x0c' || c = '\r'

/-- An input stream: the characters not yet read and the `eofbit` and `failbit`. -/
structure Stream where
  rest : List Char
  eof : Bool
  fail : Bool
  deriving DecidableEq, Repr

/-- A stream just opened on a file; `none` is a file that cannot be opened (`ifstream::open` sets `failbit`). -/
def Stream.open : Option (List Char) → Stream
  | some t => ⟨t, false, false⟩
  | none => ⟨[], false, true⟩

/-- `ios::good` (the `badbit` does not occur). -/
def Stream.good (s : Stream) : Bool := !s.eof && !s.fail

/-- The sentry of a formatted extraction: skips blanks; fails on a stream that is not good or has only blanks left. -/
def Stream.sentry (s : Stream) : Bool × Stream :=
  if s.good then
    match s.rest.dropWhile isBlank with
    | [] => (false, ⟨[], true, true⟩)
    | c :: cs => (true, ⟨c :: cs, false, false⟩)
  else (false, { s with fail := true })

/-- `operator>> (istream, char)`: the variable keeps its value if the extraction fails. -/
def Stream.getChar (s : Stream) (old : Char) : Stream × Char :=
  match s.sentry with
  | (false, s') => (s', old)
  | (true, s') => match s'.rest with
    | [] => ({ s' with eof := true, fail := true }, old)
    | c :: cs => ({ s' with rest := cs }, c)

/-- Value of a string of digits. -/
def natVal (l : List Char) : Nat := l.foldl (fun acc c => acc * 10 + digitVal c) 0

/-- Optional sign. -/
def takeSign : List Char → Bool × List Char
  | [] => (false, [])
  | c :: cs => if c = '+' then (false, cs) else if c = '-' then (true, cs) else (false, c :: cs)

/-- Decimal point and the digits after it. -/
def takeFrac : List Char → List Char × List Char
  | [] => ([], [])
  | c :: cs => if c = '.' then (cs.takeWhile Char.isDigit, cs.dropWhile Char.isDigit) else ([], c :: cs)

/-- Exponent, looked for only after a mantissa digit; `none` if there is an exponent without digits. -/
def takeExp (mantissa : Bool) : List Char → Option Int × List Char
  | [] => (some 0, [])
  | c :: cs =>
    if mantissa && (c = 'e' || c = 'E') then
      let (neg, r) := takeSign cs
      let x := r.takeWhile Char.isDigit
      (if x = [] then none else some (if neg then -(natVal x : Int) else natVal x), r.dropWhile Char.isDigit)
    else (some 0, c :: cs)

/-- `num_get::do_get (double)`: accumulate the characters that can belong to a number, then convert them; `none` if they
are not a number. -/
def scanFloat (t : List Char) : Option ℚ × List Char :=
  let (neg, t1) := takeSign t
  let i := t1.takeWhile Char.isDigit
  let (d, t3) := takeFrac (t1.dropWhile Char.isDigit)
  let m := i ++ d
  let (e, t4) := takeExp (m ≠ []) t3
  (if m = [] then none
   else e.map (fun e => (if neg then -1 else 1) * ((natVal m : ℚ) / 10 ^ d.length) * 10 ^ e), t4)

/-- `operator>> (istream, double)`: on a failed conversion the variable becomes 0; the end of the text sets `eofbit`. -/
def Stream.getDouble (s : Stream) (old : ℚ) : Stream × ℚ :=
  match s.sentry with
  | (false, s') => (s', old)
  | (true, s') =>
    let (v, r) := scanFloat s'.rest
    (⟨r, r.isEmpty, v.isNone⟩, v.getD 0)

/-- `num_get::do_get (unsigned short)`, base 10: a minus sign negates modulo 2^16, overflow fails with the largest value. -/
def scanUShort (t : List Char) : Bool × Nat × List Char :=
  let (neg, t1) := takeSign t
  let x := t1.takeWhile Char.isDigit
  let r := t1.dropWhile Char.isDigit
  if x = [] then (false, 0, r)
  else if natVal x > 65535 then (false, 65535, r)
  else (true, if neg then (65536 - natVal x) % 65536 else natVal x, r)

/-- `operator>> (istream, uint16_t)`. -/
def Stream.getUShort (s : Stream) (old : Nat) : Stream × Nat :=
  match s.sentry with
  | (false, s') => (s', old)
  | (true, s') =>
    let (ok, v, r) := scanUShort s'.rest
    (⟨r, r.isEmpty, !ok⟩, v)

/-- `LeoLatLong`, model/leo-lat-long.h, with rational coordinates. -/
structure LatLongRec where
  latitude : ℚ
  longitude : ℚ
  deriving DecidableEq, Repr

/-- `operator>> (istream, LeoLatLong)`, model/leo-lat-long.cc:29-38; `c1` is the indeterminate value of the local
variable. -/
def readLatLong (s : Stream) (c1 : Char) (old : LatLongRec) : Stream × LatLongRec :=
  let (s, a) := s.getDouble old.latitude
  let (s, c1) := s.getChar c1
  let (s, b) := s.getDouble old.longitude
  (if c1 ≠ ':' then { s with fail := true } else s, ⟨a, b⟩)

/-- `LeoOrbit`, model/leo-orbit.h, with rational altitude and inclination. -/
structure OrbitTxt where
  alt : ℚ
  inc : ℚ
  planes : Nat
  sats : Nat
  deriving DecidableEq, Repr

/-- `operator>> (istream, LeoOrbit)`, model/leo-orbit.cc:29-40; `c1 c2 c3` are the indeterminate values of the local
variables. -/
def readOrbit (s : Stream) (c1 c2 c3 : Char) (old : OrbitTxt) : Stream × OrbitTxt :=
  let (s, alt) := s.getDouble old.alt
  let (s, c1) := s.getChar c1
  let (s, inc) := s.getDouble old.inc
  let (s, c2) := s.getChar c2
  let (s, planes) := s.getUShort old.planes
  let (s, c3) := s.getChar c3
  let (s, sats) := s.getUShort old.sats
  (if c1 ≠ ':' ∨ c2 ≠ ':' ∨ c3 ≠ ':' then { s with fail := true } else s, ⟨alt, inc, planes, sats⟩)

/-- The loop `while ((stream >> loc))` of helper/ground-node-helper.cc:62-71: the records read.  `junk n` is the
indeterminate character of the n-th extraction.  Every successful extraction consumes a character, so the length of
the text bounds the number of rounds. -/
def readLocations (junk : Nat → Char) : Nat → Stream → LatLongRec → List LatLongRec
  | 0, _, _ => []
  | n + 1, s, old =>
    let (s', r) := readLatLong s (junk n) old
    if s'.fail then [] else r :: readLocations junk n s' r

/-- The loop `while ((orbits >> orbit))` of helper/leo-orbit-node-helper.cc:81-85. -/
def readOrbits (junk : Nat → Char × Char × Char) : Nat → Stream → OrbitTxt → List OrbitTxt
  | 0, _, _ => []
  | n + 1, s, old =>
    let (s', r) := readOrbit s (junk n).1 (junk n).2.1 (junk n).2.2 old
    if s'.fail then [] else r :: readOrbits junk n s' r

/-- `LeoGndNodeHelper::Install (file)`, helper/ground-node-helper.cc:53-77: the positions of the nodes. -/
noncomputable def gndInstallFile (junk : Nat → Char) (file : Option (List Char)) : List Vec :=
  (readLocations junk ((file.getD []).length + 1) (Stream.open file) ⟨0, 0⟩).map
    (fun l => earthPosition ⟨l.latitude, l.longitude⟩)

/-- The record as the installation takes it. -/
noncomputable def OrbitTxt.toRec (o : OrbitTxt) : OrbitRec := ⟨o.alt, o.inc, o.planes, o.sats⟩

/-- `LeoOrbitNodeHelper::Install (file)`, helper/leo-orbit-node-helper.cc:72-91.  The nodes of a record are installed
before the next record is read; reading has no effect on them. -/
noncomputable def orbitInstallFile (junk : Nat → Char × Char × Char) (mem : ℝ) (now : Time) (file : Option (List Char)) :
    Outcome (List Sat) :=
  orbitsInstall mem now
    ((readOrbits junk ((file.getD []).length + 1) (Stream.open file) ⟨0, 0, 0, 0⟩).map OrbitTxt.toRec)

/-! ## Output -/

/-- Decimal digits of a number. -/
def showNat (n : Nat) : List Char :=
  if n < 10 then [digitChar n] else showNat (n / 10) ++ [digitChar (n % 10)]
termination_by n

/-- The last `k` decimal digits of a number. -/
def padDigits : Nat → Nat → List Char
  | 0, _ => []
  | k + 1, n => padDigits k (n / 10) ++ [digitChar (n % 10)]

/-- `m / 10^f` in positional notation with `f` digits after the point. -/
def showDec (m f : Nat) : List Char :=
  showNat (m / 10 ^ f) ++ (if f = 0 then [] else '.' :: padDigits f (m % 10 ^ f))

/-- Removal of trailing zeros after the decimal point. -/
def stripZeros : Nat → Nat → Nat × Nat
  | m, 0 => (m, 0)
  | m, f + 1 => if m % 10 = 0 then stripZeros (m / 10) f else (m, f + 1)

/-- Rounding to the nearest integer, ties to even. -/
def roundEven (x : ℚ) : Int :=
  let f := ⌊x⌋
  let d := x - f
  if d < 1 / 2 then f else if 1 / 2 < d then f + 1 else if f % 2 = 0 then f else f + 1

/-- Two digits at least. -/
def showExp (n : Nat) : List Char := if n < 10 then ['0', digitChar n] else showNat n

/-- `operator<< (ostream, double)` with the default precision: `printf ("%g")`, six significant digits. -/
def showDouble (q : ℚ) : List Char :=
  if q = 0 then ['0']
  else
    let x0 := Int.log 10 |q|
    let n0 := (roundEven (|q| * 10 ^ (5 - x0))).toNat
    let x := if n0 = 10 ^ 6 then x0 + 1 else x0
    let n := if n0 = 10 ^ 6 then 10 ^ 5 else n0
    let sign := if q < 0 then ['-'] else []
    if -4 ≤ x ∧ x < 6 then
      let p := stripZeros n (5 - x).toNat
      sign ++ showDec p.1 p.2
    else
      let p := stripZeros n 5
      sign ++ showDec p.1 p.2 ++ ['e', if x < 0 then '-' else '+'] ++ showExp x.natAbs

/-- `operator<< (ostream, LeoLatLong)`, model/leo-lat-long.cc:23-27. -/
def showLatLong (l : LatLongRec) : List Char := showDouble l.latitude ++ [':'] ++ showDouble l.longitude

/-- `operator<< (ostream, LeoOrbit)`, model/leo-orbit.cc:23-27. -/
def showOrbit (o : OrbitTxt) : List Char :=
  showDouble o.alt ++ [':'] ++ showDouble o.inc ++ [':'] ++ showNat o.planes ++ [':'] ++ showNat o.sats

end Verif
