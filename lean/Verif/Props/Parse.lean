import Verif.Lemmas.ParseShow
import Verif.Props.Placement
/-!
# Text records and installation from files: C50-C52
-/

namespace Verif
open Spec

/-! ## C50 -/

/-- C50: reading what was printed for a location gives the location back, at any place of a text where the number
ends, whatever the variables held before. -/
theorem C50_location_round_trip {l : LatLongRec} (h1 : SixDigits l.latitude) (h2 : SixDigits l.longitude)
    (c1 : Char) (old : LatLongRec) {w rest : List Char} (hw : Blanks w)
    (hr : ∀ c cs, rest = c :: cs → IsBlank c) :
    readLatLong (Stream.open (some (w ++ showLatLong l ++ rest))) c1 old = (⟨rest, rest.isEmpty, false⟩, l) := by
  refine (readLatLong_iff (Stream.ok_open _) c1 old l rest).mpr ?_
  refine showLatLong_spec h1 h2 ?_ hw
  cases rest with
  | nil => exact end_end.1 _
  | cons c cs =>
    have : Blanks [c] := by
      intro x hx
      rw [List.mem_singleton] at hx
      subst hx
      exact hr x cs rfl
    exact (blanks_end this (by simp) (r := cs)).1 _

/-- C50: reading what was printed for an orbit gives the orbit back. -/
theorem C50_orbit_round_trip {o : OrbitTxt} (h1 : SixDigits o.alt) (h2 : SixDigits o.inc) (h3 : o.planes < 65536)
    (h4 : o.sats < 65536) (c1 c2 c3 : Char) (old : OrbitTxt) {w rest : List Char} (hw : Blanks w)
    (hr : ∀ c cs, rest = c :: cs → IsBlank c) :
    readOrbit (Stream.open (some (w ++ showOrbit o ++ rest))) c1 c2 c3 old = (⟨rest, rest.isEmpty, false⟩, o) := by
  refine (readOrbit_iff (Stream.ok_open _) c1 c2 c3 old o rest).mpr ?_
  refine showOrbit_spec h1 h2 h3 h4 ?_ hw
  cases rest with
  | nil => exact end_end.2
  | cons c cs =>
    have : Blanks [c] := by
      intro x hx
      rw [List.mem_singleton] at hx
      subst hx
      exact hr x cs rfl
    exact (blanks_end this (by simp) (r := cs)).2

/-- A file of printed records, each followed by white space (the last one possibly by the end of the file). -/
inductive Spec.Printed {α : Type} (print : α → List Char) : List Char → List α → Prop
  | nil {w : List Char} : Blanks w → Printed print w []
  | last {w : List Char} {r : α} : Blanks w → Printed print (w ++ print r) [r]
  | cons {w w' t : List Char} {r : α} {rs : List α} : Blanks w → Blanks w' → w' ≠ [] → Printed print t rs →
      Printed print (w ++ print r ++ (w' ++ t)) (r :: rs)

/-- C50: a file of printed locations is read back as exactly that list. -/
theorem C50_location_file {t : List Char} {ls : List LatLongRec} (ht : Spec.Printed showLatLong t ls)
    (h : ∀ l ∈ ls, SixDigits l.latitude ∧ SixDigits l.longitude) (junk : Nat → Char) (old : LatLongRec) :
    readLocations junk (t.length + 1) (Stream.open (some t)) old = ls := by
  have key : ∀ {t : List Char} {ls : List LatLongRec}, Spec.Printed showLatLong t ls →
      (∀ l ∈ ls, SixDigits l.latitude ∧ SixDigits l.longitude) → ∀ w, Blanks w →
      Leading (fun t r rest => LocationText t r.latitude r.longitude rest) (w ++ t) ls := by
    intro t ls ht
    induction ht with
    | nil hw =>
      intro _ w hw'
      apply Leading.stop
      rintro ⟨r, rest, hr⟩
      refine no_location_in_blanks ?_ hr
      intro c hc
      rcases List.mem_append.mp hc with hc | hc
      · exact hw' c hc
      · exact hw c hc
    | @last w' r hw' =>
      intro h w hw
      obtain ⟨h1, h2⟩ := h r (by simp)
      refine Leading.more (rest := []) ?_ ?_
      · have := showLatLong_spec h1 h2 (end_end.1 _) (w := w ++ w')
          (by intro c hc; rcases List.mem_append.mp hc with hc | hc; exacts [hw c hc, hw' c hc])
        simpa using this
      · apply Leading.stop
        rintro ⟨r, rest, hr⟩
        exact no_location_in_blanks (by simp [Blanks]) hr
    | @cons w1 w2 t r rs hw1 hw2 hne _ ih =>
      intro h w hw
      obtain ⟨h1, h2⟩ := h r (by simp)
      refine Leading.more (rest := w2 ++ t) ?_ (ih (fun l hl => h l (by simp [hl])) w2 hw2)
      have := showLatLong_spec h1 h2 ((blanks_end hw2 hne (r := t)).1 _) (w := w ++ w1)
        (by intro c hc; rcases List.mem_append.mp hc with hc | hc; exacts [hw c hc, hw1 c hc])
      simpa using this
  have h1 := key ht h [] (by simp [Blanks])
  have h2 := readLocations_leading junk (t.length + 1) (Stream.open (some t)) old (Stream.ok_open t) (by simp [Stream.open])
  refine leading_unique ?_ h2 h1
  intro t r rest r' rest' a b
  obtain ⟨e1, e2, e3⟩ := location_unique a b
  cases r; cases r'
  simp only at e1 e2
  subst e1; subst e2
  exact ⟨rfl, e3⟩

/-- C50: a file of printed orbits is read back as exactly that list. -/
theorem C50_orbit_file {t : List Char} {os : List OrbitTxt} (ht : Spec.Printed showOrbit t os)
    (h : ∀ o ∈ os, SixDigits o.alt ∧ SixDigits o.inc ∧ o.planes < 65536 ∧ o.sats < 65536)
    (junk : Nat → Char × Char × Char) (old : OrbitTxt) :
    readOrbits junk (t.length + 1) (Stream.open (some t)) old = os := by
  have key : ∀ {t : List Char} {os : List OrbitTxt}, Spec.Printed showOrbit t os →
      (∀ o ∈ os, SixDigits o.alt ∧ SixDigits o.inc ∧ o.planes < 65536 ∧ o.sats < 65536) → ∀ w, Blanks w →
      Leading (fun t r rest => OrbitText t r.alt r.inc r.planes r.sats rest) (w ++ t) os := by
    intro t os ht
    induction ht with
    | nil hw =>
      intro _ w hw'
      apply Leading.stop
      rintro ⟨r, rest, hr⟩
      refine no_orbit_in_blanks ?_ hr
      intro c hc
      rcases List.mem_append.mp hc with hc | hc
      · exact hw' c hc
      · exact hw c hc
    | @last w' r hw' =>
      intro h w hw
      obtain ⟨h1, h2, h3, h4⟩ := h r (by simp)
      refine Leading.more (rest := []) ?_ ?_
      · have := showOrbit_spec h1 h2 h3 h4 end_end.2 (w := w ++ w')
          (by intro c hc; rcases List.mem_append.mp hc with hc | hc; exacts [hw c hc, hw' c hc])
        simpa using this
      · apply Leading.stop
        rintro ⟨r, rest, hr⟩
        exact no_orbit_in_blanks (by simp [Blanks]) hr
    | @cons w1 w2 t r rs hw1 hw2 hne _ ih =>
      intro h w hw
      obtain ⟨h1, h2, h3, h4⟩ := h r (by simp)
      refine Leading.more (rest := w2 ++ t) ?_ (ih (fun l hl => h l (by simp [hl])) w2 hw2)
      have := showOrbit_spec h1 h2 h3 h4 (blanks_end hw2 hne (r := t)).2 (w := w ++ w1)
        (by intro c hc; rcases List.mem_append.mp hc with hc | hc; exacts [hw c hc, hw1 c hc])
      simpa using this
  have h1 := key ht h [] (by simp [Blanks])
  have h2 := readOrbits_leading junk (t.length + 1) (Stream.open (some t)) old (Stream.ok_open t) (by simp [Stream.open])
  refine leading_unique ?_ h2 h1
  intro t r rest r' rest' a b
  obtain ⟨e1, e2, e3, e4, e5⟩ := orbit_unique a b
  cases r; cases r'
  simp only at e1 e2 e3 e4
  subst e1; subst e2; subst e3; subst e4
  exact ⟨rfl, e5⟩

/-- The number of digits matters: a coordinate with seven significant digits is not printed exactly. -/
theorem C50_seven_digits_lost : ∃ l : LatLongRec,
    (readLatLong (Stream.open (some (showLatLong l))) ' ' ⟨0, 0⟩).1.fail = false ∧
    (readLatLong (Stream.open (some (showLatLong l))) ' ' ⟨0, 0⟩).2 ≠ l := by
  have s1 : SixDigits (1234570 : ℚ) := ⟨123457, 1, by norm_num, by norm_num⟩
  have hd : showDouble 1234567 = showDouble 1234570 := by
    have l1 : Int.log 10 |(1234567 : ℚ)| = 6 := by
      rw [abs_of_pos (by norm_num), Int.log_of_one_le_right 10 (by norm_num)]
      have h1 : ⌊(1234567 : ℚ)⌋₊ = 1234567 := by exact_mod_cast Nat.floor_natCast (R := ℚ) 1234567
      have h2 : Nat.log 10 1234567 = 6 := (Nat.log_eq_iff (Or.inl (by norm_num))).mpr (by norm_num)
      rw [h1, h2]
      rfl
    have l2 : Int.log 10 |(1234570 : ℚ)| = 6 := by
      rw [abs_of_pos (by norm_num), Int.log_of_one_le_right 10 (by norm_num)]
      have h1 : ⌊(1234570 : ℚ)⌋₊ = 1234570 := by exact_mod_cast Nat.floor_natCast (R := ℚ) 1234570
      have h2 : Nat.log 10 1234570 = 6 := (Nat.log_eq_iff (Or.inl (by norm_num))).mpr (by norm_num)
      rw [h1, h2]
      rfl
    have r1 : roundEven (|(1234567 : ℚ)| * 10 ^ (5 - (6 : Int))) = 123457 := by
      norm_num [roundEven]
    have r2 : roundEven (|(1234570 : ℚ)| * 10 ^ (5 - (6 : Int))) = 123457 := by
      norm_num [roundEven]
    simp only [showDouble, l1, l2, r1, r2]
    norm_num
  refine ⟨⟨1234567, 0⟩, ?_⟩
  have hs : showLatLong ⟨1234567, 0⟩ = [] ++ showLatLong ⟨1234570, 0⟩ ++ [] := by
    simp [showLatLong, hd]
  rw [hs, C50_location_round_trip (l := ⟨1234570, 0⟩) s1 ⟨0, 0, by norm_num, by norm_num⟩ _ _ (by simp [Blanks])
    (by simp)]
  refine ⟨rfl, ?_⟩
  intro h
  injection h with h _
  norm_num at h

/-- Satellites at 1150.5 km with an inclination of -0.25 degrees: the record is printed and read back. -/
example : readOrbit (Stream.open (some (showOrbit ⟨1150.5, -0.25, 32, 50⟩))) 'x' 'y' 'z' ⟨1, 2, 3, 4⟩ =
    (⟨[], true, false⟩, ⟨1150.5, -0.25, 32, 50⟩) := by
  have := C50_orbit_round_trip (o := ⟨1150.5, -0.25, 32, 50⟩) ⟨11505, -1, by norm_num, by norm_num⟩
    ⟨-25, -2, by norm_num, by norm_num⟩ (by norm_num) (by norm_num) 'x' 'y' 'z' ⟨1, 2, 3, 4⟩ (w := []) (rest := [])
    (by simp [Blanks]) (by simp)
  simpa using this

/-! ## C51 -/

/-- C51: from a stream in order (not failed, its end seen only if nothing is left) a location is read successfully
exactly if the text begins with one, and then its value is the one read. -/
theorem C51_location_accepted_iff {s : Stream} (h1 : s.fail = false) (h2 : s.eof = true → s.rest = []) (c1 : Char)
    (old : LatLongRec) :
    ((readLatLong s c1 old).1.fail = false ↔ ∃ a b rest, LocationText s.rest a b rest) ∧
    (∀ a b rest, LocationText s.rest a b rest →
      (readLatLong s c1 old).2 = ⟨a, b⟩ ∧ (readLatLong s c1 old).1.rest = rest) := by
  refine ⟨⟨?_, ?_⟩, ?_⟩
  · intro h
    obtain ⟨rest, r, e⟩ := readLatLong_ok h
    exact ⟨_, _, _, (readLatLong_iff ⟨h1, h2⟩ c1 old r rest).mp e⟩
  · rintro ⟨a, b, rest, h⟩
    rw [(readLatLong_iff ⟨h1, h2⟩ c1 old ⟨a, b⟩ rest).mpr h]
  · intro a b rest h
    rw [(readLatLong_iff ⟨h1, h2⟩ c1 old ⟨a, b⟩ rest).mpr h]
    exact ⟨rfl, rfl⟩

/-- C51 for orbits. -/
theorem C51_orbit_accepted_iff {s : Stream} (h1 : s.fail = false) (h2 : s.eof = true → s.rest = []) (c1 c2 c3 : Char)
    (old : OrbitTxt) :
    ((readOrbit s c1 c2 c3 old).1.fail = false ↔ ∃ a b p q rest, OrbitText s.rest a b p q rest) ∧
    (∀ a b p q rest, OrbitText s.rest a b p q rest →
      (readOrbit s c1 c2 c3 old).2 = ⟨a, b, p, q⟩ ∧ (readOrbit s c1 c2 c3 old).1.rest = rest) := by
  refine ⟨⟨?_, ?_⟩, ?_⟩
  · intro h
    obtain ⟨rest, r, e⟩ := readOrbit_ok h
    exact ⟨_, _, _, _, _, (readOrbit_iff ⟨h1, h2⟩ c1 c2 c3 old r rest).mp e⟩
  · rintro ⟨a, b, p, q, rest, h⟩
    rw [(readOrbit_iff ⟨h1, h2⟩ c1 c2 c3 old ⟨a, b, p, q⟩ rest).mpr h]
  · intro a b p q rest h
    rw [(readOrbit_iff ⟨h1, h2⟩ c1 c2 c3 old ⟨a, b, p, q⟩ rest).mpr h]
    exact ⟨rfl, rfl⟩

/-- C51: whether an extraction succeeds, and what it reads if it does, does not depend on the indeterminate separator
variables or on the previous contents of the record. -/
theorem C51_independent_of_memory {s : Stream} (h : s.eof = true → s.rest = []) :
    (∀ (c c' : Char) (old old' : LatLongRec),
      (readLatLong s c old).1.fail = (readLatLong s c' old').1.fail ∧
      ((readLatLong s c old).1.fail = false → readLatLong s c old = readLatLong s c' old')) ∧
    (∀ (c1 c2 c3 d1 d2 d3 : Char) (old old' : OrbitTxt),
      (readOrbit s c1 c2 c3 old).1.fail = (readOrbit s d1 d2 d3 old').1.fail ∧
      ((readOrbit s c1 c2 c3 old).1.fail = false → readOrbit s c1 c2 c3 old = readOrbit s d1 d2 d3 old')) := by
  cases hs : s.fail with
  | true =>
    have f1 : ∀ c old, (readLatLong s c old).1.fail = true := by
      intro c old
      have := getDouble_fail (old := old.longitude) (getChar_fail (old := c) (getDouble_fail (old := old.latitude) hs))
      simp only [readLatLong]
      split
      · rfl
      · exact this
    have f2 : ∀ c1 c2 c3 old, (readOrbit s c1 c2 c3 old).1.fail = true := by
      intro c1 c2 c3 old
      have a1 := getDouble_fail (old := old.alt) hs
      have a2 := getChar_fail (old := c1) a1
      have a3 := getDouble_fail (old := old.inc) a2
      have a4 := getChar_fail (old := c2) a3
      have a5 := getUShort_fail (old := old.planes) a4
      have a6 := getChar_fail (old := c3) a5
      have a7 := getUShort_fail (old := old.sats) a6
      simp only [readOrbit]
      split
      · rfl
      · exact a7
    refine ⟨fun c c' old old' => ⟨by rw [f1, f1], ?_⟩, fun c1 c2 c3 d1 d2 d3 old old' => ⟨by rw [f2, f2], ?_⟩⟩
    · intro hf; rw [f1] at hf; cases hf
    · intro hf; rw [f2] at hf; cases hf
  | false =>
    have ok : s.Ok := ⟨hs, h⟩
    have g1 : ∀ c c' old old', (readLatLong s c old).1.fail = false → readLatLong s c old = readLatLong s c' old' := by
      intro c c' old old' hf
      obtain ⟨rest, r, e⟩ := readLatLong_ok hf
      rw [e, (readLatLong_iff ok c' old' r rest).mpr ((readLatLong_iff ok c old r rest).mp e)]
    have g2 : ∀ c1 c2 c3 d1 d2 d3 old old', (readOrbit s c1 c2 c3 old).1.fail = false →
        readOrbit s c1 c2 c3 old = readOrbit s d1 d2 d3 old' := by
      intro c1 c2 c3 d1 d2 d3 old old' hf
      obtain ⟨rest, r, e⟩ := readOrbit_ok hf
      rw [e, (readOrbit_iff ok d1 d2 d3 old' r rest).mpr ((readOrbit_iff ok c1 c2 c3 old r rest).mp e)]
    have both : ∀ {a b : Bool}, (a = false → b = false) → (b = false → a = false) → a = b := by
      intro a b h1 h2
      cases a <;> cases b <;> simp_all
    refine ⟨fun c c' old old' => ⟨both ?_ ?_, g1 c c' old old'⟩,
      fun c1 c2 c3 d1 d2 d3 old old' => ⟨both ?_ ?_, g2 c1 c2 c3 d1 d2 d3 old old'⟩⟩
    · intro hf; rw [← g1 c c' old old' hf]; exact hf
    · intro hf; rw [← g1 c' c old' old hf]; exact hf
    · intro hf; rw [← g2 c1 c2 c3 d1 d2 d3 old old' hf]; exact hf
    · intro hf; rw [← g2 d1 d2 d3 c1 c2 c3 old' old hf]; exact hf

/-- C51: a text with too few separators is rejected. -/
theorem C51_missing_separator {t : List Char} :
    (':' ∉ t → ∀ c old, (readLatLong (Stream.open (some t)) c old).1.fail = true) ∧
    (t.count ':' < 3 → ∀ c1 c2 c3 old, (readOrbit (Stream.open (some t)) c1 c2 c3 old).1.fail = true) := by
  constructor
  · intro h c old
    rw [← Bool.not_eq_false]
    intro hf
    obtain ⟨a, b, rest, hl⟩ := (C51_location_accepted_iff (s := Stream.open (some t)) rfl (by simp [Stream.open]) c old).1.mp hf
    have : 1 ≤ t.count ':' := location_colons hl
    rw [List.count_eq_zero.mpr h] at this
    omega
  · intro h c1 c2 c3 old
    rw [← Bool.not_eq_false]
    intro hf
    obtain ⟨a, b, p, q, rest, hl⟩ :=
      (C51_orbit_accepted_iff (s := Stream.open (some t)) rfl (by simp [Stream.open]) c1 c2 c3 old).1.mp hf
    have : 3 ≤ t.count ':' := orbit_colons hl
    omega

/-- C51: a wrong character in place of the separator is rejected, even if the indeterminate variable held a colon. -/
theorem C51_wrong_separator {x y : List Char} {a : ℚ} {c : Char} (hx : IsFloat x a) (hc : ¬ IsBlank c)
    (hne : c ≠ ':') (he : FloatEnds x (c :: y)) (old : LatLongRec) (junk : Char) :
    (readLatLong (Stream.open (some (x ++ c :: y))) junk old).1.fail = true := by
  have e1 := getDouble_some (Stream.ok_open (x ++ c :: y)) (w := []) (by simp [Blanks]) rfl hx he old.latitude
  have e2 := getChar_some (Stream.ok_after (c :: y)) (w := []) (by simp [Blanks]) rfl hc junk
  simp only [Stream.open, readLatLong, e1, e2, ne_eq, hne, not_false_eq_true, if_true]

example : ∃ a b rest, LocationText " 12.5 :\t-3e1;".toList a b rest ∧ a = 25 / 2 ∧ b = -30 ∧ rest = [';'] := by
  refine ⟨25 / 2, -30, [';'], ⟨[' '], "12.5".toList, [' '], ['\t'], "-3e1".toList, ?_, ?_, ?_, ?_, ?_, ?_, by decide⟩, rfl, rfl, rfl⟩
  · simp [Blanks, IsBlank]
  · simp [Blanks, IsBlank]
  · simp [Blanks, IsBlank]
  · refine ⟨[], ['1', '2'], ['.', '5'], ['5'], [], 0, by simp [Digits, IsDigit], by simp [Digits, IsDigit], by simp,
      Or.inr rfl, Or.inl ⟨rfl, rfl⟩, by decide, Or.inl ⟨Or.inl ⟨rfl, id⟩, ?_⟩⟩
    have : value (['1', '2'] ++ ['5']) = 125 := by decide
    rw [this]
    norm_num
  · refine ⟨['-'], ['3'], [], [], ['e', '1'], 1, by simp [Digits, IsDigit], by simp [Digits], by simp,
      Or.inl ⟨rfl, rfl⟩, Or.inr ⟨'e', [], ['1'], Or.inl rfl, by simp [Digits, IsDigit], by simp, rfl, Or.inl ⟨Or.inl ⟨rfl, id⟩, by decide⟩⟩,
      by decide, Or.inr ⟨Or.inr (Or.inr ⟨rfl, trivial⟩), ?_⟩⟩
    have : value (['3'] ++ []) = 3 := by decide
    rw [this]
    norm_num
  · intro c cs h
    injection h with h _
    subst h
    refine ⟨by unfold IsDigit; decide, by decide, by decide⟩

/-! ## C52 -/

/-- C52: the ground nodes installed from a file are one per record of the longest well-formed beginning of the file,
in order, each at the position of its record; a file that cannot be opened gives none. -/
theorem C52_ground_nodes (junk : Nat → Char) :
    (∀ t : List Char, ∃ ls : List LatLongRec,
      Leading (fun t r rest => LocationText t r.latitude r.longitude rest) t ls ∧
      (∀ ls', Leading (fun t r rest => LocationText t r.latitude r.longitude rest) t ls' → ls' = ls) ∧
      gndInstallFile junk (some t) = ls.map (fun l => earthPosition ⟨l.latitude, l.longitude⟩)) ∧
    gndInstallFile junk none = [] := by
  constructor
  · intro t
    have h := readLocations_leading junk (t.length + 1) (Stream.open (some t)) ⟨0, 0⟩ (Stream.ok_open t) (by simp [Stream.open])
    refine ⟨_, h, ?_, rfl⟩
    intro ls' h'
    refine leading_unique ?_ h' h
    intro t r rest r' rest' a b
    obtain ⟨e1, e2, e3⟩ := location_unique a b
    cases r; cases r'
    simp only at e1 e2
    subst e1; subst e2
    exact ⟨rfl, e3⟩
  · have hf := ((C51_independent_of_memory (s := Stream.open none) (by simp [Stream.open])).1 (junk 0) (junk 0) ⟨0, 0⟩ ⟨0, 0⟩).1
    have : (readLatLong (Stream.open none) (junk 0) ⟨0, 0⟩).1.fail = true := by
      simp [readLatLong, Stream.open, Stream.getDouble, Stream.getChar, Stream.sentry, Stream.good]
    simp [gndInstallFile, readLocations, this]

/-- C52: the satellites installed from a file are those of the records of the longest well-formed beginning of the
file, in order; a file that cannot be opened gives none. -/
theorem C52_orbits (junk : Nat → Char × Char × Char) (mem : ℝ) (now : Time) :
    (∀ t : List Char, ∃ os : List OrbitTxt,
      Leading (fun t r rest => OrbitText t r.alt r.inc r.planes r.sats rest) t os ∧
      (∀ os', Leading (fun t r rest => OrbitText t r.alt r.inc r.planes r.sats rest) t os' → os' = os) ∧
      orbitInstallFile junk mem now (some t) = orbitsInstall mem now (os.map OrbitTxt.toRec) ∧
      ((∀ o ∈ os, 0 < o.planes ∧ 0 < o.sats ∧ o.planes * o.sats ≤ 2147483647 ∧ o.inc ≠ 0) →
        ∃ l, orbitInstallFile junk mem now (some t) = .ok l ∧ l.length = (os.map (fun o => o.planes * o.sats)).sum)) ∧
    orbitInstallFile junk mem now none = .ok [] := by
  constructor
  · intro t
    have h := readOrbits_leading junk (t.length + 1) (Stream.open (some t)) ⟨0, 0, 0, 0⟩ (Stream.ok_open t)
      (by simp [Stream.open])
    refine ⟨_, h, ?_, rfl, ?_⟩
    · intro os' h'
      refine leading_unique ?_ h' h
      intro t r rest r' rest' a b
      obtain ⟨e1, e2, e3, e4, e5⟩ := orbit_unique a b
      cases r; cases r'
      simp only at e1 e2 e3 e4
      subst e1; subst e2; subst e3; subst e4
      exact ⟨rfl, e5⟩
    · intro hall
      have := C53_orbit_list (junk := mem) (now := now)
        (os := (readOrbits junk (t.length + 1) (Stream.open (some t)) ⟨0, 0, 0, 0⟩).map OrbitTxt.toRec) ?_
      · obtain ⟨ls, _, h2, h3⟩ := this
        refine ⟨ls.flatten, h2, ?_⟩
        rw [h3, List.map_map]
        rfl
      · intro o ho
        obtain ⟨o', ho', rfl⟩ := List.mem_map.mp ho
        obtain ⟨a, b, c, d⟩ := hall o' ho'
        refine ⟨a, b, c, ?_⟩
        simp only [OrbitTxt.toRec]
        exact_mod_cast d
  · have : (readOrbit (Stream.open none) (junk 0).1 (junk 0).2.1 (junk 0).2.2 ⟨0, 0, 0, 0⟩).1.fail = true := by
      simp [readOrbit, Stream.open, Stream.getDouble, Stream.getChar, Stream.getUShort, Stream.sentry, Stream.good]
    simp [orbitInstallFile, readOrbits, this, orbitsInstall]

/-- C52: the first malformed record ends the file silently: whatever follows, it is ignored. -/
theorem C52_malformed_ends {t bad : List Char} {l : LatLongRec} (junk : Nat → Char)
    (h1 : LocationText t l.latitude l.longitude bad) (h2 : ¬ ∃ a b rest, LocationText bad a b rest) :
    gndInstallFile junk (some t) = [earthPosition ⟨l.latitude, l.longitude⟩] := by
  obtain ⟨ls, _, h4, h5⟩ := (C52_ground_nodes junk).1 t
  have : Leading (fun t r rest => LocationText t r.latitude r.longitude rest) t [l] :=
    .more h1 (.stop (by rintro ⟨r, rest, hr⟩; exact h2 ⟨_, _, _, hr⟩))
  rw [h5, ← h4 _ this]
  rfl

/-- The records of data/orbits/telesat.csv. -/
example : readOrbits (fun _ => ('a', 'b', 'c')) 37 (Stream.open (some "1000.0:99.5:6:12\n1248.0:37.4:5:9\n".toList))
    ⟨0, 0, 0, 0⟩ = [⟨1000, 199 / 2, 6, 12⟩, ⟨1248, 187 / 5, 5, 9⟩] := by
  decide +kernel

/-- A file with three columns, like data/test/ground-stations.txt, gives a single record. -/
example : readLocations (fun _ => ':') 100 (Stream.open (some "4283567.3:-1811179.6:-4350145.8\n1:2:3\n".toList)) ⟨0, 0⟩ =
    [⟨42835673 / 10, -18111796 / 10⟩] := by
  decide +kernel

/-- A negative count is accepted and wraps around. -/
example : readOrbit (Stream.open (some "550:53:-1:1".toList)) 'a' 'b' 'c' ⟨0, 0, 0, 0⟩ =
    (⟨[], true, false⟩, ⟨550, 53, 65535, 1⟩) := by
  decide +kernel

end Verif
