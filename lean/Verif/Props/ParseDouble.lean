import Verif.Lemmas.ParseDoubleRead
import Verif.Props.Parse
/-!
# Text records with numbers as `double`: C104
-/

namespace Verif
open Spec

/-- C104: a decimal number is converted to a nearest `double`; if two are equally near, to the even one (an even multiple of the
distance to the other).  The conversion fails exactly if the number is at least half a unit beyond the largest `double`.  A
number that is a `double` is converted to itself. -/
theorem C104_conversion (q : ℚ) :
    (∀ x, toDouble q = some x → Nearest q x ∧
      ∀ y, Nearest q y → y ≠ x → ∃ m e : Int, x = (2 * m : Int) * 2 ^ e ∧ |y - x| = 2 ^ e) ∧
    (toDouble q = none ↔ TooLarge q) ∧ (IsDouble q → toDouble q = some q) :=
  ⟨fun _ h => ⟨toDouble_nearest h, fun _ hy hne => toDouble_even h hy hne⟩, toDouble_none_iff q, toDouble_self⟩

/-- 0.1 is not a `double`, 0.5 is; the number just beside 2^53 is rounded to the even neighbour; 2^1024 is too large. -/
example : toDouble (1 / 10) = some (3602879701896397 / 36028797018963968) ∧ toDouble (1 / 2) = some (1 / 2) ∧
    toDouble 9007199254740993 = some 9007199254740992 ∧ toDouble 9007199254740995 = some 9007199254740996 ∧
    toDouble (2 ^ 1024) = none := by
  decide +kernel

theorem convertible {q : ℚ} : ¬ TooLarge q ↔ ∃ x, toDouble q = some x := by
  rw [← toDouble_none_iff, ← ne_eq, Option.ne_none_iff_exists']

/-- C104: from a stream in order a location is read successfully exactly if the text begins with one whose numbers are not too
large; the values are then nearest to those of the text. -/
theorem C104_location_accepted_iff {s : Stream} (h1 : s.fail = false) (h2 : s.eof = true → s.rest = []) (c1 : Char)
    (old : LatLongRec) :
    ((readLatLong64 s c1 old).1.fail = false ↔ ∃ a b rest, LocationText s.rest a b rest ∧ ¬ TooLarge a ∧ ¬ TooLarge b) ∧
    (∀ a b rest, LocationText s.rest a b rest → ¬ TooLarge a → ¬ TooLarge b →
      Nearest a (readLatLong64 s c1 old).2.latitude ∧ Nearest b (readLatLong64 s c1 old).2.longitude ∧
      (readLatLong64 s c1 old).1.rest = rest) := by
  have key : ∀ a b rest, LocationText s.rest a b rest → ¬ TooLarge a → ¬ TooLarge b → ∃ r : LatLongRec,
      toDouble a = some r.latitude ∧ toDouble b = some r.longitude ∧
      readLatLong64 s c1 old = (⟨rest, rest.isEmpty, false⟩, r) := by
    intro a b rest h ha hb
    obtain ⟨x, hx⟩ := convertible.mp ha
    obtain ⟨y, hy⟩ := convertible.mp hb
    exact ⟨⟨x, y⟩, hx, hy, (readLatLong64_iff ⟨h1, h2⟩ c1 old ⟨x, y⟩ rest).mpr ⟨a, b, h, hx, hy⟩⟩
  refine ⟨⟨?_, ?_⟩, ?_⟩
  · intro h
    obtain ⟨rest, r, e⟩ := readLatLong64_ok h
    obtain ⟨a, b, ht, ha, hb⟩ := (readLatLong64_iff ⟨h1, h2⟩ c1 old r rest).mp e
    exact ⟨a, b, rest, ht, convertible.mpr ⟨_, ha⟩, convertible.mpr ⟨_, hb⟩⟩
  · rintro ⟨a, b, rest, h, ha, hb⟩
    obtain ⟨r, _, _, e⟩ := key a b rest h ha hb
    rw [e]
  · intro a b rest h ha hb
    obtain ⟨r, e1, e2, e⟩ := key a b rest h ha hb
    rw [e]
    exact ⟨toDouble_nearest e1, toDouble_nearest e2, rfl⟩

/-- C104 for orbits. -/
theorem C104_orbit_accepted_iff {s : Stream} (h1 : s.fail = false) (h2 : s.eof = true → s.rest = []) (c1 c2 c3 : Char)
    (old : OrbitTxt) :
    ((readOrbit64 s c1 c2 c3 old).1.fail = false ↔
      ∃ a b p q rest, OrbitText s.rest a b p q rest ∧ ¬ TooLarge a ∧ ¬ TooLarge b) ∧
    (∀ a b p q rest, OrbitText s.rest a b p q rest → ¬ TooLarge a → ¬ TooLarge b →
      Nearest a (readOrbit64 s c1 c2 c3 old).2.alt ∧ Nearest b (readOrbit64 s c1 c2 c3 old).2.inc ∧
      (readOrbit64 s c1 c2 c3 old).2.planes = p ∧ (readOrbit64 s c1 c2 c3 old).2.sats = q ∧
      (readOrbit64 s c1 c2 c3 old).1.rest = rest) := by
  have key : ∀ a b p q rest, OrbitText s.rest a b p q rest → ¬ TooLarge a → ¬ TooLarge b → ∃ r : OrbitTxt,
      toDouble a = some r.alt ∧ toDouble b = some r.inc ∧ r.planes = p ∧ r.sats = q ∧
      readOrbit64 s c1 c2 c3 old = (⟨rest, rest.isEmpty, false⟩, r) := by
    intro a b p q rest h ha hb
    obtain ⟨x, hx⟩ := convertible.mp ha
    obtain ⟨y, hy⟩ := convertible.mp hb
    exact ⟨⟨x, y, p, q⟩, hx, hy, rfl, rfl, (readOrbit64_iff ⟨h1, h2⟩ c1 c2 c3 old ⟨x, y, p, q⟩ rest).mpr ⟨a, b, h, hx, hy⟩⟩
  refine ⟨⟨?_, ?_⟩, ?_⟩
  · intro h
    obtain ⟨rest, r, e⟩ := readOrbit64_ok h
    obtain ⟨a, b, ht, ha, hb⟩ := (readOrbit64_iff ⟨h1, h2⟩ c1 c2 c3 old r rest).mp e
    exact ⟨a, b, _, _, rest, ht, convertible.mpr ⟨_, ha⟩, convertible.mpr ⟨_, hb⟩⟩
  · rintro ⟨a, b, p, q, rest, h, ha, hb⟩
    obtain ⟨r, _, _, _, _, e⟩ := key a b p q rest h ha hb
    rw [e]
  · intro a b p q rest h ha hb
    obtain ⟨r, e1, e2, e3, e4, e⟩ := key a b p q rest h ha hb
    rw [e]
    exact ⟨toDouble_nearest e1, toDouble_nearest e2, e3, e4, rfl⟩

/-- A record with an overflowing number is refused although it is well-formed, and a record with a tiny one reads zero. -/
example : (readLatLong64 (Stream.open (some "1e999:0".toList)) ' ' ⟨0, 0⟩).1.fail = true ∧
    readLatLong64 (Stream.open (some "1e-999:-53.5".toList)) ' ' ⟨7, 7⟩ = (⟨[], true, false⟩, ⟨0, -107 / 2⟩) := by
  decide +kernel

/-! ## Round trips -/

theorem Spec.Written.shown {x q : ℚ} (hs : SixDigits q) (ht : Tame q) (hd : toDouble q = some x) :
    showDouble x = showDouble q := by
  refine show_converted hs ?_ hd
  rcases ht with h | h
  · exact Or.inl h
  · exact Or.inr (le_trans (zpow_le_zpow_right₀ (by norm_num) (by norm_num)) h)

theorem record_end {rest : List Char} (hr : ∀ c cs, rest = c :: cs → IsBlank c) :
    (∀ t, FloatEnds t rest) ∧ CountEnds rest := by
  cases rest with
  | nil => exact ⟨fun t => end_end.1 t, end_end.2⟩
  | cons c cs =>
    have : Blanks [c] := by
      intro x hx
      rw [List.mem_singleton] at hx
      subst hx
      exact hr x cs rfl
    exact ⟨fun t => (blanks_end this (by simp) (r := cs)).1 t, (blanks_end this (by simp) (r := cs)).2⟩

/-- C104: a location whose coordinates are written with six digits (that is, are `double`s nearest to such numbers) is the same
after it was printed and read. -/
theorem C104_location_round_trip {l : LatLongRec} (h1 : Written toDouble l.latitude) (h2 : Written toDouble l.longitude)
    (c1 : Char) (old : LatLongRec) {w rest : List Char} (hw : Blanks w) (hr : ∀ c cs, rest = c :: cs → IsBlank c) :
    readLatLong64 (Stream.open (some (w ++ showLatLong l ++ rest))) c1 old = (⟨rest, rest.isEmpty, false⟩, l) := by
  obtain ⟨a, a1, a2, a3⟩ := h1
  obtain ⟨b, b1, b2, b3⟩ := h2
  refine (readLatLong64_iff (Stream.ok_open _) c1 old l rest).mpr ⟨a, b, ?_, a3, b3⟩
  have e : showLatLong l = showLatLong ⟨a, b⟩ := by
    simp only [showLatLong, Written.shown a1 a2 a3, Written.shown b1 b2 b3]
  rw [e]
  exact showLatLong_spec (l := ⟨a, b⟩) a1 b1 ((record_end hr).1 _) hw

/-- C104: the same for an orbit. -/
theorem C104_orbit_round_trip {o : OrbitTxt} (h1 : Written toDouble o.alt) (h2 : Written toDouble o.inc)
    (h3 : o.planes < 65536) (h4 : o.sats < 65536) (c1 c2 c3 : Char) (old : OrbitTxt) {w rest : List Char} (hw : Blanks w)
    (hr : ∀ c cs, rest = c :: cs → IsBlank c) :
    readOrbit64 (Stream.open (some (w ++ showOrbit o ++ rest))) c1 c2 c3 old = (⟨rest, rest.isEmpty, false⟩, o) := by
  obtain ⟨a, a1, a2, a3⟩ := h1
  obtain ⟨b, b1, b2, b3⟩ := h2
  refine (readOrbit64_iff (Stream.ok_open _) c1 c2 c3 old o rest).mpr ⟨a, b, ?_, a3, b3⟩
  have e : showOrbit o = showOrbit ⟨a, b, o.planes, o.sats⟩ := by
    simp only [showOrbit, Written.shown a1 a2 a3, Written.shown b1 b2 b3]
  rw [e]
  exact showOrbit_spec (o := ⟨a, b, o.planes, o.sats⟩) a1 b1 h3 h4 (record_end hr).2 hw

/-- The record `550:53.8` of a shell: 53.8 is not a `double`, and survives. -/
example : ∃ x, toDouble (538 / 10) = some x ∧ x ≠ 538 / 10 ∧
    readLatLong64 (Stream.open (some (showLatLong ⟨550, x⟩))) ' ' ⟨0, 0⟩ = (⟨[], true, false⟩, ⟨550, x⟩) := by
  refine ⟨(538 / 10 : ℚ) |> toDouble |>.getD 0, by decide +kernel, by decide +kernel, ?_⟩
  have h := C104_location_round_trip (l := ⟨550, (toDouble (538 / 10)).getD 0⟩)
    ⟨550, ⟨550, 0, by norm_num, by norm_num⟩,
      Or.inr (le_trans (zpow_le_one_of_nonpos₀ (by norm_num) (by norm_num)) (by norm_num)), by decide +kernel⟩
    ⟨538 / 10, ⟨538, -1, by norm_num, by norm_num⟩,
      Or.inr (le_trans (zpow_le_one_of_nonpos₀ (by norm_num) (by norm_num)) (by norm_num [abs_of_pos])), by decide +kernel⟩
    ' ' ⟨0, 0⟩ (w := []) (rest := []) (by simp [Blanks]) (by simp)
  simpa using h

/-- The six digits that are printed of a location. -/
def LatLongRec.printed (l : LatLongRec) : LatLongRec := ⟨Verif.printed l.latitude, Verif.printed l.longitude⟩

def OrbitTxt.printed (o : OrbitTxt) : OrbitTxt := ⟨Verif.printed o.alt, Verif.printed o.inc, o.planes, o.sats⟩

theorem showLatLong_printed (l : LatLongRec) : showLatLong l.printed = showLatLong l := by
  simp only [showLatLong, LatLongRec.printed, showDouble_printed]

theorem showOrbit_printed (o : OrbitTxt) : showOrbit o.printed = showOrbit o := by
  simp only [showOrbit, OrbitTxt.printed, showDouble_printed]

theorem reread {x : ℚ} (h : IsDouble x) : ∃ x', toDouble (printed x) = some x' ∧ IsDouble x' ∧ Close x x' ∧
    (Tame x → showDouble x' = showDouble x) := by
  obtain ⟨x', hx⟩ := printed_converts h
  refine ⟨x', hx, (toDouble_nearest hx).1, printed_close h hx, fun ht => ?_⟩
  rw [show_converted (printed_six x) (tame_printed ht) hx, showDouble_printed]

/-- C104: every location of `double`s, also the largest ones, is accepted when it is read back; the coordinates differ by a
relative error of at most 1e-5.  Printing what was read gives the same text again, so nothing more is lost by further trips. -/
theorem C104_location_reread {l : LatLongRec} (h1 : IsDouble l.latitude) (h2 : IsDouble l.longitude) (c1 : Char)
    (old : LatLongRec) {w rest : List Char} (hw : Blanks w) (hr : ∀ c cs, rest = c :: cs → IsBlank c) :
    ∃ l' : LatLongRec,
      readLatLong64 (Stream.open (some (w ++ showLatLong l ++ rest))) c1 old = (⟨rest, rest.isEmpty, false⟩, l') ∧
      IsDouble l'.latitude ∧ IsDouble l'.longitude ∧
      Close l.latitude l'.latitude ∧ Close l.longitude l'.longitude ∧
      (Tame l.latitude → Tame l.longitude → showLatLong l' = showLatLong l) := by
  obtain ⟨x, x1, xd, x2, x3⟩ := reread h1
  obtain ⟨y, y1, yd, y2, y3⟩ := reread h2
  refine ⟨⟨x, y⟩, ?_, xd, yd, x2, y2, fun t1 t2 => by simp only [showLatLong, x3 t1, y3 t2]⟩
  refine (readLatLong64_iff (Stream.ok_open _) c1 old ⟨x, y⟩ rest).mpr ⟨_, _, ?_, x1, y1⟩
  rw [← showLatLong_printed]
  exact showLatLong_spec (l := l.printed) (printed_six _) (printed_six _) ((record_end hr).1 _) hw

/-- C104: the same for an orbit; the counts are exact. -/
theorem C104_orbit_reread {o : OrbitTxt} (h1 : IsDouble o.alt) (h2 : IsDouble o.inc) (h3 : o.planes < 65536)
    (h4 : o.sats < 65536) (c1 c2 c3 : Char) (old : OrbitTxt) {w rest : List Char} (hw : Blanks w)
    (hr : ∀ c cs, rest = c :: cs → IsBlank c) :
    ∃ o' : OrbitTxt,
      readOrbit64 (Stream.open (some (w ++ showOrbit o ++ rest))) c1 c2 c3 old = (⟨rest, rest.isEmpty, false⟩, o') ∧
      IsDouble o'.alt ∧ IsDouble o'.inc ∧
      Close o.alt o'.alt ∧ Close o.inc o'.inc ∧ o'.planes = o.planes ∧ o'.sats = o.sats ∧
      (Tame o.alt → Tame o.inc → showOrbit o' = showOrbit o) := by
  obtain ⟨x, x1, xd, x2, x3⟩ := reread h1
  obtain ⟨y, y1, yd, y2, y3⟩ := reread h2
  refine ⟨⟨x, y, o.planes, o.sats⟩, ?_, xd, yd, x2, y2, rfl, rfl, fun t1 t2 => by simp only [showOrbit, x3 t1, y3 t2]⟩
  refine (readOrbit64_iff (Stream.ok_open _) c1 c2 c3 old ⟨x, y, o.planes, o.sats⟩ rest).mpr ⟨_, _, ?_, x1, y1⟩
  rw [← showOrbit_printed]
  exact showOrbit_spec (o := o.printed) (printed_six _) (printed_six _) h3 h4 (record_end hr).2 hw

/-- The largest `double` is printed as 1.79769e+308, which can be read. -/
example : IsDouble maxDouble :=
  ⟨2 ^ 53 - 1, 971, by norm_num, by norm_num, by norm_num, congrArg (· * (2 : ℚ) ^ (971 : Int)) (by norm_num)⟩

/-! ## Files -/

theorem printed_map {α : Type} {print : α → List Char} {f : α → α} (hf : ∀ r, print (f r) = print r) {t : List Char}
    {l : List α} (h : Spec.Printed print t l) : Spec.Printed print t (l.map f) := by
  induction h with
  | nil hw => exact .nil hw
  | @last w r hw =>
    have := Spec.Printed.last (print := print) (r := f r) hw
    rwa [hf] at this
  | @cons w w' t r rs hw hw' hne _ ih =>
    have := Spec.Printed.cons (print := print) (r := f r) hw hw' hne ih
    rwa [hf] at this

theorem locations_converted {t : List Char} {ls ms : List LatLongRec} (ht : Spec.Printed showLatLong t ms)
    (h6 : ∀ l ∈ ms, SixDigits l.latitude ∧ SixDigits l.longitude)
    (h : List.Forall₂ (fun m l : LatLongRec => toDouble m.latitude = some l.latitude ∧ toDouble m.longitude = some l.longitude) ms ls)
    (junk : Nat → Char) (old : LatLongRec) :
    readLocations64 junk (t.length + 1) (Stream.open (some t)) old = ls := by
  have e := C50_location_file ht h6 junk old
  have h1 := readLocations_leading junk (t.length + 1) (Stream.open (some t)) old (Stream.ok_open t) (by simp [Stream.open])
  rw [e] at h1
  have h2 := readLocations64_leading junk (t.length + 1) (Stream.open (some t)) old (Stream.ok_open t) (by simp [Stream.open])
  refine leading_unique (P := Location64) (fun _ _ _ _ _ a b => location64_unique a b) h2 (leading_convert ?_ ?_ h1 h)
  · intro t r rest r' hp hc
    exact ⟨_, _, hp, hc.1, hc.2⟩
  · rintro t r' rest ⟨a, b, hp, _⟩
    exact ⟨⟨a, b⟩, hp⟩

theorem orbits_converted {t : List Char} {os ms : List OrbitTxt} (ht : Spec.Printed showOrbit t ms)
    (h6 : ∀ o ∈ ms, SixDigits o.alt ∧ SixDigits o.inc ∧ o.planes < 65536 ∧ o.sats < 65536)
    (h : List.Forall₂ (fun m o : OrbitTxt => toDouble m.alt = some o.alt ∧ toDouble m.inc = some o.inc ∧ m.planes = o.planes ∧
      m.sats = o.sats) ms os)
    (junk : Nat → Char × Char × Char) (old : OrbitTxt) :
    readOrbits64 junk (t.length + 1) (Stream.open (some t)) old = os := by
  have e := C50_orbit_file ht h6 junk old
  have h1 := readOrbits_leading junk (t.length + 1) (Stream.open (some t)) old (Stream.ok_open t) (by simp [Stream.open])
  rw [e] at h1
  have h2 := readOrbits64_leading junk (t.length + 1) (Stream.open (some t)) old (Stream.ok_open t) (by simp [Stream.open])
  refine leading_unique (P := Orbit64) (fun _ _ _ _ _ a b => orbit64_unique a b) h2 (leading_convert ?_ ?_ h1 h)
  · rintro t r rest r' hp ⟨c1, c2, c3, c4⟩
    exact ⟨_, _, by rw [← c3, ← c4]; exact hp, c1, c2⟩
  · rintro t r' rest ⟨a, b, hp, _⟩
    exact ⟨⟨a, b, r'.planes, r'.sats⟩, hp⟩

/-- A list with a partner for each element. -/
theorem exists_partners {α β : Type} {R : α → β → Prop} : ∀ {l : List α}, (∀ a ∈ l, ∃ b, R a b) → ∃ m, List.Forall₂ R l m
  | [], _ => ⟨[], .nil⟩
  | a :: l, h => by
    obtain ⟨b, hb⟩ := h a (by simp)
    obtain ⟨m, hm⟩ := exists_partners (l := l) (fun a ha => h a (by simp [ha]))
    exact ⟨b :: m, .cons hb hm⟩

/-- C104: a file of printed locations written with six digits is read back as exactly that list. -/
theorem C104_location_file {t : List Char} {ls : List LatLongRec} (ht : Spec.Printed showLatLong t ls)
    (h : ∀ l ∈ ls, Written toDouble l.latitude ∧ Written toDouble l.longitude) (junk : Nat → Char) (old : LatLongRec) :
    readLocations64 junk (t.length + 1) (Stream.open (some t)) old = ls := by
  have hx : ∀ l ∈ ls, ∃ m : LatLongRec, (SixDigits m.latitude ∧ SixDigits m.longitude) ∧ showLatLong m = showLatLong l ∧
      toDouble m.latitude = some l.latitude ∧ toDouble m.longitude = some l.longitude := by
    intro l hl
    obtain ⟨⟨a, a1, a2, a3⟩, b, b1, b2, b3⟩ := h l hl
    refine ⟨⟨a, b⟩, ⟨a1, b1⟩, ?_, a3, b3⟩
    simp only [showLatLong, Written.shown a1 a2 a3, Written.shown b1 b2 b3]
  obtain ⟨ms, hms⟩ := exists_partners hx
  refine locations_converted (ms := ms) ?_ ?_ ?_ junk old
  · clear h hx
    induction ht generalizing ms with
    | nil hw => cases hms; exact .nil hw
    | @last w r hw =>
      obtain _ | ⟨⟨_, h2, _⟩, h0⟩ := hms
      cases h0
      rw [← h2]
      exact .last hw
    | @cons w w' t r rs hw hw' hne _ ih =>
      obtain _ | ⟨⟨_, h2, _⟩, h0⟩ := hms
      rw [← h2]
      exact .cons hw hw' hne (ih _ h0)
  · clear h hx ht
    induction hms with
    | nil => simp
    | cons h _ ih =>
      intro l hl
      rcases List.mem_cons.mp hl with rfl | hl
      · exact h.1
      · exact ih l hl
  · exact (hms.imp fun _ _ h => h.2.2).flip

/-- C104: a file of printed orbits written with six digits is read back as exactly that list. -/
theorem C104_orbit_file {t : List Char} {os : List OrbitTxt} (ht : Spec.Printed showOrbit t os)
    (h : ∀ o ∈ os, Written toDouble o.alt ∧ Written toDouble o.inc ∧ o.planes < 65536 ∧ o.sats < 65536)
    (junk : Nat → Char × Char × Char) (old : OrbitTxt) :
    readOrbits64 junk (t.length + 1) (Stream.open (some t)) old = os := by
  have hx : ∀ o ∈ os, ∃ m : OrbitTxt, (SixDigits m.alt ∧ SixDigits m.inc ∧ m.planes < 65536 ∧ m.sats < 65536) ∧
      showOrbit m = showOrbit o ∧
      toDouble m.alt = some o.alt ∧ toDouble m.inc = some o.inc ∧ m.planes = o.planes ∧ m.sats = o.sats := by
    intro o ho
    obtain ⟨⟨a, a1, a2, a3⟩, ⟨b, b1, b2, b3⟩, h3, h4⟩ := h o ho
    refine ⟨⟨a, b, o.planes, o.sats⟩, ⟨a1, b1, h3, h4⟩, ?_, a3, b3, rfl, rfl⟩
    simp only [showOrbit, Written.shown a1 a2 a3, Written.shown b1 b2 b3]
  obtain ⟨ms, hms⟩ := exists_partners hx
  refine orbits_converted (ms := ms) ?_ ?_ ?_ junk old
  · clear h hx
    induction ht generalizing ms with
    | nil hw => cases hms; exact .nil hw
    | @last w r hw =>
      obtain _ | ⟨⟨_, h2, _⟩, h0⟩ := hms
      cases h0
      rw [← h2]
      exact .last hw
    | @cons w w' t r rs hw hw' hne _ ih =>
      obtain _ | ⟨⟨_, h2, _⟩, h0⟩ := hms
      rw [← h2]
      exact .cons hw hw' hne (ih _ h0)
  · clear h hx ht
    induction hms with
    | nil => simp
    | cons h _ ih =>
      intro l hl
      rcases List.mem_cons.mp hl with rfl | hl
      · exact h.1
      · exact ih l hl
  · exact (hms.imp fun _ _ h => h.2.2).flip

/-- C104: a file printed from any locations is read back as a list of the same length, near in every coordinate, that is
printed as the same records. -/
theorem C104_location_file_close {t : List Char} {ls : List LatLongRec} (ht : Spec.Printed showLatLong t ls)
    (h : ∀ l ∈ ls, IsDouble l.latitude ∧ IsDouble l.longitude) (junk : Nat → Char) (old : LatLongRec) :
    List.Forall₂ (fun l l' : LatLongRec => Close l.latitude l'.latitude ∧ Close l.longitude l'.longitude ∧
      (Tame l.latitude → Tame l.longitude → showLatLong l' = showLatLong l))
      ls (readLocations64 junk (t.length + 1) (Stream.open (some t)) old) := by
  have hx : ∀ l ∈ ls, ∃ l' : LatLongRec,
      (toDouble (printed l.latitude) = some l'.latitude ∧ toDouble (printed l.longitude) = some l'.longitude) ∧
      Close l.latitude l'.latitude ∧ Close l.longitude l'.longitude ∧
      (Tame l.latitude → Tame l.longitude → showLatLong l' = showLatLong l) := by
    intro l hl
    obtain ⟨h1, h2⟩ := h l hl
    obtain ⟨x, x1, _, x2, x3⟩ := reread h1
    obtain ⟨y, y1, _, y2, y3⟩ := reread h2
    exact ⟨⟨x, y⟩, ⟨x1, y1⟩, x2, y2, fun t1 t2 => by simp only [showLatLong, x3 t1, y3 t2]⟩
  obtain ⟨ms, hms⟩ := exists_partners hx
  have e := locations_converted (ls := ms) (printed_map showLatLong_printed ht) (by
    intro l hl
    obtain ⟨l0, _, rfl⟩ := List.mem_map.mp hl
    exact ⟨printed_six _, printed_six _⟩) (List.forall₂_map_left_iff.mpr (hms.imp fun _ _ h => h.1)) junk old
  rw [e]
  exact hms.imp fun _ _ h => h.2

/-- C104: the same for orbits. -/
theorem C104_orbit_file_close {t : List Char} {os : List OrbitTxt} (ht : Spec.Printed showOrbit t os)
    (h : ∀ o ∈ os, IsDouble o.alt ∧ IsDouble o.inc ∧ o.planes < 65536 ∧ o.sats < 65536)
    (junk : Nat → Char × Char × Char) (old : OrbitTxt) :
    List.Forall₂ (fun o o' : OrbitTxt => Close o.alt o'.alt ∧ Close o.inc o'.inc ∧ o'.planes = o.planes ∧ o'.sats = o.sats ∧
      (Tame o.alt → Tame o.inc → showOrbit o' = showOrbit o))
      os (readOrbits64 junk (t.length + 1) (Stream.open (some t)) old) := by
  have hx : ∀ o ∈ os, ∃ o' : OrbitTxt,
      (toDouble (printed o.alt) = some o'.alt ∧ toDouble (printed o.inc) = some o'.inc ∧ o.planes = o'.planes ∧ o.sats = o'.sats) ∧
      Close o.alt o'.alt ∧ Close o.inc o'.inc ∧ o'.planes = o.planes ∧ o'.sats = o.sats ∧
      (Tame o.alt → Tame o.inc → showOrbit o' = showOrbit o) := by
    intro o ho
    obtain ⟨h1, h2, _⟩ := h o ho
    obtain ⟨x, x1, _, x2, x3⟩ := reread h1
    obtain ⟨y, y1, _, y2, y3⟩ := reread h2
    exact ⟨⟨x, y, o.planes, o.sats⟩, ⟨x1, y1, rfl, rfl⟩, x2, y2, rfl, rfl, fun t1 t2 => by simp only [showOrbit, x3 t1, y3 t2]⟩
  obtain ⟨ms, hms⟩ := exists_partners hx
  have e := orbits_converted (os := ms) (printed_map showOrbit_printed ht) (by
    intro o ho
    obtain ⟨o0, ho0, rfl⟩ := List.mem_map.mp ho
    exact ⟨printed_six _, printed_six _, (h o0 ho0).2.2.1, (h o0 ho0).2.2.2⟩)
    (List.forall₂_map_left_iff.mpr (hms.imp fun _ _ h => h.1)) junk old
  rw [e]
  exact hms.imp fun _ _ h => h.2

theorem leading_nearest_locations {t : List Char} {ls} (h : Leading Location64 t ls) :
    Leading (fun t (r : LatLongRec) rest => ∃ a b, LocationText t a b rest ∧ ¬ TooLarge a ∧ ¬ TooLarge b ∧ Nearest a r.latitude ∧
      Nearest b r.longitude) t ls := by
  induction h with
  | stop hn =>
    refine .stop ?_
    rintro ⟨r, rest, a, b, ht, ha, hb, _⟩
    obtain ⟨x, hx⟩ := convertible.mp ha
    obtain ⟨y, hy⟩ := convertible.mp hb
    exact hn ⟨⟨x, y⟩, rest, a, b, ht, hx, hy⟩
  | more hp _ ih =>
    obtain ⟨a, b, ht, ha, hb⟩ := hp
    exact .more ⟨a, b, ht, convertible.mpr ⟨_, ha⟩, convertible.mpr ⟨_, hb⟩, toDouble_nearest ha, toDouble_nearest hb⟩ ih

/-- C104: the ground nodes installed from a file are those of the longest beginning of the file of well-formed records with numbers
in range, each at the position of the nearest `double`s. -/
theorem C104_ground_nodes (junk : Nat → Char) (t : List Char) : ∃ ls : List LatLongRec,
    Leading (fun t r rest => ∃ a b, LocationText t a b rest ∧ ¬ TooLarge a ∧ ¬ TooLarge b ∧ Nearest a r.latitude ∧
      Nearest b r.longitude) t ls ∧
    gndInstallFile64 junk (some t) = ls.map (fun l => earthPosition ⟨l.latitude, l.longitude⟩) :=
  ⟨_, leading_nearest_locations (readLocations64_leading junk (t.length + 1) (Stream.open (some t)) ⟨0, 0⟩ (Stream.ok_open t) (by simp [Stream.open])), rfl⟩

theorem leading_nearest_orbits {t : List Char} {ls} (h : Leading Orbit64 t ls) :
    Leading (fun t (r : OrbitTxt) rest => ∃ a b, OrbitText t a b r.planes r.sats rest ∧ ¬ TooLarge a ∧ ¬ TooLarge b ∧
      Nearest a r.alt ∧ Nearest b r.inc) t ls := by
  induction h with
  | stop hn =>
    refine .stop ?_
    rintro ⟨r, rest, a, b, ht, ha, hb, _⟩
    obtain ⟨x, hx⟩ := convertible.mp ha
    obtain ⟨y, hy⟩ := convertible.mp hb
    exact hn ⟨⟨x, y, r.planes, r.sats⟩, rest, a, b, ht, hx, hy⟩
  | more hp _ ih =>
    obtain ⟨a, b, ht, ha, hb⟩ := hp
    exact .more ⟨a, b, ht, convertible.mpr ⟨_, ha⟩, convertible.mpr ⟨_, hb⟩, toDouble_nearest ha, toDouble_nearest hb⟩ ih

/-- C104: the satellites installed from a file. -/
theorem C104_orbits (junk : Nat → Char × Char × Char) (mem : ℝ) (now : Time) (t : List Char) : ∃ os : List OrbitTxt,
    Leading (fun t r rest => ∃ a b, OrbitText t a b r.planes r.sats rest ∧ ¬ TooLarge a ∧ ¬ TooLarge b ∧ Nearest a r.alt ∧
      Nearest b r.inc) t os ∧
    orbitInstallFile64 junk mem now (some t) = orbitsInstall mem now (os.map OrbitTxt.toRec) :=
  ⟨_, leading_nearest_orbits (readOrbits64_leading junk (t.length + 1) (Stream.open (some t)) ⟨0, 0, 0, 0⟩ (Stream.ok_open t) (by simp [Stream.open])), rfl⟩

/-- A record that overflows ends the file like a malformed one: the station behind it is not created. -/
example : readLocations64 (fun _ => ':') 30 (Stream.open (some "1:2\n3e400:4\n5:6\n".toList)) ⟨0, 0⟩ = [⟨1, 2⟩] ∧
    readLocations (fun _ => ':') 30 (Stream.open (some "1:2\n3e400:4\n5:6\n".toList)) ⟨0, 0⟩ = [⟨1, 2⟩, ⟨3e400, 4⟩, ⟨5, 6⟩] := by
  decide +kernel

end Verif
